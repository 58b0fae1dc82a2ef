import Verif.Props.Pseudorandom
import Verif.Spec.Anonymity
/-! C83: ciphertexts of the modelled code do not show which of two keys they were made for. -/
set_option linter.unusedSectionVars false

namespace MlKem
open Rust Fips203 Finset BigOperators Fo

/-- The attacker is given the two public keys generated from `d` and `z`, and what encapsulating `m` with the key `b`
returns. It may ask for `G`, for `J`, and for the decapsulation of all other ciphertexts with both keys. It ends with the
guess `true`. -/
def TwoKeys [Build] (S : Sha3) (P : ParameterSet)
    (A : (Bool → P.EncodedEncryptionKey) → P.EncodedCiphertext → B32 → Attacker2 P.CiphertextSize) (b : Bool)
    (d z : Bool → B32) (m : B32) (G : B32 → B32 → B32 × B32) (J : B32 → P.EncodedCiphertext → B32) : Prop :=
  ∃ (dk : Bool → DecapsulationKey P) (ek : Bool → EncapsulationKey P) (eb : Bool → P.EncodedEncryptionKey)
    (c : P.EncodedCiphertext) (K : SharedKey),
    (∀ i, Kem.generate_deterministic (withOracles S G J) P (d i) (z i) = .ok (dk i, ek i) ∧ (ek i).as_bytes = .ok (eb i)) ∧
    (ek b).encapsulate_deterministic (withOracles S G J) m = .ok (c, K) ∧
    (A eb c K).output G J (fun i c' =>
      if c' = c then none else
        match (dk i).decapsulate (withOracles S G J) c' with
        | .ok K' => some K'
        | _ => none) = true

section
variable (S : Sha3) {p : Params}

/-- What decapsulation with the key generated from `d` and `z` returns -/
noncomputable def decapsBy (S : Sha3) (p : Params) {n : Nat} (G : B32 → B32 → B32 × B32) (J : B32 → Bytes n → B32)
    (d z : B32) : Bytes n → B32 :=
  Fo.keyOf (encrypt S p n (KPKE_KeyGen S p d.toList).1) (decrypt S p n d)
    (fun m => (G m (keyHash S p d)).1) (fun m => (G m (keyHash S p d)).2) (J z)

theorem atMost_mono {n : Nat} (A : Attacker n) {q q' : Nat} (h : A.AtMost q) (hq : q ≤ q') : A.AtMost q' := by
  induction A generalizing q q' with
  | guess g => trivial
  | hashG m a next ih =>
    obtain ⟨q, rfl, h⟩ := h
    exact ⟨q' - 1, by omega, fun x => ih x (h x) (by omega)⟩
  | hashJ z c next ih =>
    obtain ⟨q, rfl, h⟩ := h
    exact ⟨q' - 1, by omega, fun x => ih x (h x) (by omega)⟩
  | decaps c next ih =>
    obtain ⟨q, rfl, h⟩ := h
    exact ⟨q' - 1, by omega, fun x => ih x (h x) (by omega)⟩

theorem withKey_atMost {n : Nat} (b : Bool) (d z : B32) (c0 : Bytes n) (A : Attacker2 n) {q : Nat} (h : A.AtMost q) :
    (A.withKey S p b d z c0).AtMost (2 * q) := by
  induction A generalizing q with
  | guess g => trivial
  | hashG m a next ih =>
    obtain ⟨q, rfl, h⟩ := h
    exact ⟨2 * q + 1, by ring, fun x => atMost_mono _ (ih x (h x)) (Nat.le_succ _)⟩
  | hashJ z' c next ih =>
    obtain ⟨q, rfl, h⟩ := h
    exact ⟨2 * q + 1, by ring, fun x => atMost_mono _ (ih x (h x)) (Nat.le_succ _)⟩
  | decaps i c next ih =>
    obtain ⟨q, rfl, h⟩ := h
    unfold Attacker2.withKey
    split
    · exact ⟨2 * q + 1, by ring, fun x => atMost_mono _ (ih x (h x)) (Nat.le_succ _)⟩
    · split
      · exact atMost_mono _ (ih _ (h _)) (by omega)
      · exact ⟨2 * q + 1, by ring, fun x => ⟨2 * q, rfl, fun y => ih _ (h _)⟩⟩

theorem withKey_output {n : Nat} (b : Bool) (d z : B32) (c0 : Bytes n) (G : B32 → B32 → B32 × B32) (J : B32 → Bytes n → B32)
    (D : Bytes n → Option B32) (A : Attacker2 n) :
    (A.withKey S p b d z c0).output G J D
      = A.output G J fun i => if i = b then D else simD c0 (decapsBy S p G J d z) := by
  induction A with
  | guess g => rfl
  | hashG m a next ih => exact ih _
  | hashJ z' c next ih => exact ih _
  | decaps i c next ih =>
    unfold Attacker2.withKey Attacker2.output
    by_cases hi : i = b
    · simp only [if_pos hi]
      exact ih _
    · simp only [if_neg hi]
      by_cases hc : c = c0
      · rw [if_pos hc, ih]
        unfold simD
        rw [if_pos hc]
      · rw [if_neg hc]
        simp only [Attacker.output]
        rw [ih]
        unfold simD
        rw [if_neg hc]
        refine congrArg (fun x => Attacker2.output G J _ (next (some x))) ?_
        unfold decapsBy Fo.keyOf decrypt keyHash
        congr

end

section
variable [Build] (S : Sha3) {P : ParameterSet} {p : Params}

/-- What an attacker with two keys says about a ciphertext and a key -/
def Says (S : Sha3) {p : Params}
    (A : (Bool → P.EncodedEncryptionKey) → P.EncodedCiphertext → B32 → Attacker2 P.CiphertextSize)
    (c : P.EncodedCiphertext) (K : B32) (d z : Bool → B32) (G : B32 → B32 → B32 × B32)
    (J : B32 → P.EncodedCiphertext → B32) : Prop :=
  (A (fun i => Fips203.bytes _ (KPKE_KeyGen S p (d i).toList).1) c K).output G J
    (fun i => simD c (decapsBy S p G J (d i) (z i))) = true

theorem twoKeys_iff (h : Supported P p)
    (A : (Bool → P.EncodedEncryptionKey) → P.EncodedCiphertext → B32 → Attacker2 P.CiphertextSize) (b : Bool)
    {d : Bool → B32} (hs : ∀ i, SeedOk S p.k (seeds S p (d i).toList).1) (z : Bool → B32) (m : B32)
    (G : B32 → B32 → B32 × B32) (J : B32 → P.EncodedCiphertext → B32) :
    TwoKeys S P A b d z m G J ↔ Says S (p := p) A
      (encrypt S p _ (KPKE_KeyGen S p (d b).toList).1 m (G m (keyHash S p (d b))).2) (G m (keyHash S p (d b))).1 d z G J := by
  have hr := fun i => run_ok S h (hs i) (z i) G J
  choose dk ek h1 h2 h3 h4 using hr
  unfold TwoKeys Says
  constructor
  · rintro ⟨dk', ek', eb, c, K, g1, g3, g4⟩
    have hdk : ∀ i, dk' i = dk i ∧ ek' i = ek i := fun i => Prod.mk.inj (Res.ok.inj ((g1 i).1.symm.trans (h1 i)))
    obtain rfl : dk' = dk := funext fun i => (hdk i).1
    obtain rfl : ek' = ek := funext fun i => (hdk i).2
    obtain rfl : eb = _ := funext fun i => Res.ok.inj ((g1 i).2.symm.trans (h2 i))
    obtain ⟨rfl, rfl⟩ := Prod.mk.inj (Res.ok.inj (g3.symm.trans (h3 b m)))
    simp only [h4] at g4
    refine Eq.trans ?_ g4
    unfold simD
    congr 1
    funext i c'
    congr
  · intro g4
    refine ⟨dk, ek, _, _, _, fun i => ⟨h1 i, h2 i⟩, h3 b m, ?_⟩
    simp only [h4]
    refine Eq.trans ?_ g4
    unfold simD
    congr 1
    funext i c'
    congr

theorem twoKeys_none (h : Supported P p)
    (A : (Bool → P.EncodedEncryptionKey) → P.EncodedCiphertext → B32 → Attacker2 P.CiphertextSize) (b : Bool)
    {d : Bool → B32} (hs : ¬ ∀ i, SeedOk S p.k (seeds S p (d i).toList).1) (z : Bool → B32) (m : B32)
    (G : B32 → B32 → B32 × B32) (J : B32 → P.EncodedCiphertext → B32) : ¬ TwoKeys S P A b d z m G J := by
  rintro ⟨dk, ek, eb, c, K, g1, -⟩
  refine hs fun i => ?_
  have := (genSeed_iff (withOracles S G J) h (d i) (z i)).1 ⟨_, (g1 i).1⟩
  rwa [oracles_seeds S G J (by simp)] at this

/-- `x` at `b` and `y` at the other key -/
def pick (b : Bool) {α : Type} (x y : α) (i : Bool) : α := if i = b then x else y

theorem pick_self (b : Bool) {α : Type} (x y : α) : pick b x y b = x := if_pos rfl

theorem says_pick
    (A : (Bool → P.EncodedEncryptionKey) → P.EncodedCiphertext → B32 → Attacker2 P.CiphertextSize) (b : Bool)
    (c : P.EncodedCiphertext) (K : B32) (d z d' z' : B32) (G : B32 → B32 → B32 × B32) (J : B32 → P.EncodedCiphertext → B32) :
    Says S (p := p) A c K (pick b d d') (pick b z z') G J ↔
      ((A (fun i => if i = b then Fips203.bytes _ (KPKE_KeyGen S p d.toList).1
          else Fips203.bytes _ (KPKE_KeyGen S p d'.toList).1) c K).withKey S p b d' z' c).output G J
        (simD c (decapsBy S p G J d z)) = true := by
  rw [withKey_output]
  unfold Says
  have e1 : (fun i => Fips203.bytes P.EncryptionKeySize (KPKE_KeyGen S p (pick b d d' i).toList).1)
      = fun i => if i = b then Fips203.bytes _ (KPKE_KeyGen S p d.toList).1
          else Fips203.bytes _ (KPKE_KeyGen S p d'.toList).1 := by
    funext i
    unfold pick
    split <;> rfl
  have e2 : (fun i => simD c (decapsBy S p G J (pick b d d' i) (pick b z z' i)))
      = fun i => if i = b then simD c (decapsBy S p G J d z) else simD c (decapsBy S p G J d' z') := by
    funext i
    unfold pick
    split <;> rfl
  rw [e1, e2]

/-- The expectation over two values, by the one at `b` -/
theorem expect_pick (b : Bool) {α : Type} [Fintype α] [Nonempty α] (f : (Bool → α) → ℝ) :
    𝔼 d, f d = 𝔼 x, 𝔼 y, f (pick b x y) := by
  rw [← expect_prod_type (fun w : α × α => f (pick b w.1 w.2))]
  refine (Fintype.expect_equiv
    { toFun := fun w => pick b w.1 w.2, invFun := fun d => (d b, d (!b)), left_inv := ?_, right_inv := ?_ } _ _ fun w => rfl).symm
  · rintro ⟨x, y⟩
    cases b <;> rfl
  · intro d
    funext i
    cases b <;> cases i <;> rfl

end

section
variable {X1 X2 X3 Y1 Y2 Y3 Y4 Y5 Y6 : Type} [Fintype X1] [Fintype X2] [Fintype X3] [Fintype Y1] [Fintype Y2]
  [Fintype Y3] [Fintype Y4] [Fintype Y5] [Fintype Y6]

theorem expect_pull (f : X1 → X2 → X3 → Y1 → ℝ) : 𝔼 a, 𝔼 b, 𝔼 c, 𝔼 x, f a b c x = 𝔼 x, 𝔼 a, 𝔼 b, 𝔼 c, f a b c x :=
  (Finset.expect_congr rfl fun _ _ => (Finset.expect_congr rfl fun _ _ => Finset.expect_comm ..).trans
    (Finset.expect_comm ..)).trans (Finset.expect_comm ..)

theorem expect_real_order (f : X1 → X2 → X3 → Y1 → Y2 → Y3 → Y4 → ℝ) :
    𝔼 d, 𝔼 z, 𝔼 z', 𝔼 m, 𝔼 o, 𝔼 G, 𝔼 J, f d z z' m o G J = 𝔼 m, 𝔼 o, 𝔼 d, 𝔼 z', 𝔼 G, 𝔼 z, 𝔼 J, f d z z' m o G J := by
  refine (expect_pull fun d z z' m => 𝔼 o, 𝔼 G, 𝔼 J, f d z z' m o G J).trans (Finset.expect_congr rfl fun m _ => ?_)
  refine (expect_pull fun d z z' o => 𝔼 G, 𝔼 J, f d z z' m o G J).trans (Finset.expect_congr rfl fun o _ => ?_)
  refine Finset.expect_congr rfl fun d _ => ?_
  refine (Finset.expect_comm ..).trans (Finset.expect_congr rfl fun z' _ => ?_)
  exact Finset.expect_comm ..

theorem expect_ideal_order (f : X1 → X2 → X3 → Y1 → Y2 → Y3 → Y4 → Y5 → Y6 → ℝ) :
    𝔼 d, 𝔼 z, 𝔼 z', 𝔼 u, 𝔼 v, 𝔼 o, 𝔼 K, 𝔼 G, 𝔼 J, f d z z' u v o K G J
      = 𝔼 u, 𝔼 v, 𝔼 o, 𝔼 d, 𝔼 z', 𝔼 K, 𝔼 G, 𝔼 z, 𝔼 J, f d z z' u v o K G J := by
  refine (expect_pull fun d z z' u => 𝔼 v, 𝔼 o, 𝔼 K, 𝔼 G, 𝔼 J, f d z z' u v o K G J).trans
    (Finset.expect_congr rfl fun u _ => ?_)
  refine (expect_pull fun d z z' v => 𝔼 o, 𝔼 K, 𝔼 G, 𝔼 J, f d z z' u v o K G J).trans (Finset.expect_congr rfl fun v _ => ?_)
  refine (expect_pull fun d z z' o => 𝔼 K, 𝔼 G, 𝔼 J, f d z z' u v o K G J).trans (Finset.expect_congr rfl fun o _ => ?_)
  refine Finset.expect_congr rfl fun d _ => ?_
  refine (Finset.expect_comm ..).trans (Finset.expect_congr rfl fun z' _ => ?_)
  refine (Finset.expect_comm ..).trans (Finset.expect_congr rfl fun K _ => ?_)
  exact Finset.expect_comm ..

end

section
variable {X1 X2 X3 X4 X5 X6 X7 X8 X9 : Type} [Fintype X1] [Fintype X2] [Fintype X3] [Fintype X4] [Fintype X5]
  [Fintype X6] [Fintype X7] [Fintype X8] [Fintype X9] [Nonempty X1] [Nonempty X2] [Nonempty X3] [Nonempty X4]
  [Nonempty X5] [Nonempty X6] [Nonempty X7] [Nonempty X8] [Nonempty X9] {X10 X11 : Type} [Fintype X10] [Fintype X11]
  [Nonempty X10] [Nonempty X11]

theorem abs_expect_const {X : Type} [Fintype X] [Nonempty X] {f g : X → ℝ} {c : ℝ} (h : ∀ x, |f x - g x| ≤ c) :
    |(𝔼 x, f x) - 𝔼 x, g x| ≤ c := (abs_expect_sub h).trans (le_of_eq (Fintype.expect_const _))

theorem real_average {f g : X1 → X2 → X3 → X4 → X5 → X6 → X7 → X8 → X9 → Prop} {e : X1 → X5 → Prop}
    (h : ∀ x1 x2 x3 x4 x5 x6 x7 x8 x9, ¬ e x1 x5 → (f x1 x2 x3 x4 x5 x6 x7 x8 x9 ↔ g x1 x2 x3 x4 x5 x6 x7 x8 x9)) :
    |(𝔼 x1, 𝔼 x2, 𝔼 x3, 𝔼 x4, 𝔼 x5, 𝔼 x6, 𝔼 x7, 𝔼 x8, 𝔼 x9, ind (f x1 x2 x3 x4 x5 x6 x7 x8 x9))
        - 𝔼 x1, 𝔼 x2, 𝔼 x3, 𝔼 x4, 𝔼 x5, 𝔼 x6, 𝔼 x7, 𝔼 x8, 𝔼 x9, ind (g x1 x2 x3 x4 x5 x6 x7 x8 x9)|
      ≤ 𝔼 x1, 𝔼 x5, ind (e x1 x5) :=
  abs_expect_sub fun _ => abs_expect_const fun _ => abs_expect_const fun _ => abs_expect_const fun _ =>
    abs_expect_sub fun _ => abs_expect_const fun _ => abs_expect_const fun _ => abs_expect_const fun _ =>
    abs_expect_const fun _ => abs_ind_sub (h _ _ _ _ _ _ _ _ _)

theorem ideal_average {f g : X1 → X2 → X3 → X4 → X5 → X6 → X7 → X8 → X9 → X10 → X11 → Prop} {e : X1 → X2 → Prop}
    (h : ∀ x1 x2 x3 x4 x5 x6 x7 x8 x9 x10 x11, ¬ e x1 x2 →
      (f x1 x2 x3 x4 x5 x6 x7 x8 x9 x10 x11 ↔ g x1 x2 x3 x4 x5 x6 x7 x8 x9 x10 x11)) :
    |(𝔼 x1, 𝔼 x2, 𝔼 x3, 𝔼 x4, 𝔼 x5, 𝔼 x6, 𝔼 x7, 𝔼 x8, 𝔼 x9, 𝔼 x10, 𝔼 x11, ind (f x1 x2 x3 x4 x5 x6 x7 x8 x9 x10 x11))
        - 𝔼 x1, 𝔼 x2, 𝔼 x3, 𝔼 x4, 𝔼 x5, 𝔼 x6, 𝔼 x7, 𝔼 x8, 𝔼 x9, 𝔼 x10, 𝔼 x11, ind (g x1 x2 x3 x4 x5 x6 x7 x8 x9 x10 x11)|
      ≤ 𝔼 x1, 𝔼 x2, ind (e x1 x2) :=
  abs_expect_sub fun _ => abs_expect_sub fun _ => abs_expect_const fun _ => abs_expect_const fun _ =>
    abs_expect_const fun _ => abs_expect_const fun _ => abs_expect_const fun _ => abs_expect_const fun _ =>
    abs_expect_const fun _ => abs_expect_const fun _ => abs_expect_const fun _ => abs_ind_sub (h _ _ _ _ _ _ _ _ _ _ _)

end

section
variable [Build] (S : Sha3) {P : ParameterSet} {p : Params} {Ω : Type} [Fintype Ω] [Nonempty Ω]

theorem expect_seed_le (S : Sha3) (p : Params) :
    𝔼 T : XofTable, 𝔼 d : B32, ind (¬ SeedOk (withXof S T) p.k (seeds (withXof S T) p d.toList).1)
      ≤ p.k ^ 2 * (2 : ℝ) ^ (-261 : ℤ) := by
  rw [Finset.expect_comm]
  exact (Finset.expect_le_expect fun d _ => expect_seed S d).trans (le_of_eq (Fintype.expect_const _))

/-- With two keys, one of which the attacker could have generated itself -/
theorem real_two (h : Supported P p)
    (A : Ω → XofTable → (Bool → P.EncodedEncryptionKey) → P.EncodedCiphertext → B32 → Attacker2 P.CiphertextSize) (b : Bool) :
    |prob (fun (T, d, z, m, o, G, J) => TwoKeys (withXof S T) P (A o T) b d z m G J)
        - prob (fun (T, d, m, o, G, z, J) => Attack (withXof S T) P (against S p A b o T) id d z m G J)|
      ≤ p.k ^ 2 * (2 : ℝ) ^ (-261 : ℤ) := by
  have l : prob (fun (T, d, z, m, o, G, J) => TwoKeys (withXof S T) P (A o T) b d z m G J)
      = 𝔼 T, 𝔼 d, 𝔼 m, 𝔼 o, 𝔼 d', 𝔼 z', 𝔼 G, 𝔼 z, 𝔼 J,
          ind (TwoKeys (withXof S T) P (A o T) b (pick b d d') (pick b z z') m G J) := by
    simp only [prob_ind]
    refine (expect_prod_type _).trans (Finset.expect_congr rfl fun T _ => ?_)
    refine (expect_prod_type _).trans ((expect_pick b _).trans (Finset.expect_congr rfl fun d _ => ?_))
    refine Eq.trans ?_ (expect_real_order fun d' z z' m o G J =>
      ind (TwoKeys (withXof S T) P (A o T) b (pick b d d') (pick b z z') m G J))
    refine Finset.expect_congr rfl fun d' _ => ?_
    refine (expect_prod_type _).trans ((expect_pick b _).trans (Finset.expect_congr rfl fun z _ => ?_))
    refine Finset.expect_congr rfl fun z' _ => ?_
    refine (expect_prod_type _).trans (Finset.expect_congr rfl fun m _ => ?_)
    refine (expect_prod_type _).trans (Finset.expect_congr rfl fun o _ => ?_)
    exact expect_prod_type _
  have r : prob (fun (T, d, m, o, G, z, J) => Attack (withXof S T) P (against S p A b o T) id d z m G J)
      = 𝔼 T, 𝔼 d, 𝔼 m, 𝔼 o, 𝔼 d', 𝔼 z', 𝔼 G, 𝔼 z, 𝔼 J,
          ind (Attack (withXof S T) P (against S p A b (o, d', z') T) id d z m G J) := by
    simp only [prob_ind]
    refine (expect_prod_type _).trans (Finset.expect_congr rfl fun T _ => ?_)
    refine (expect_prod_type _).trans (Finset.expect_congr rfl fun d _ => ?_)
    refine (expect_prod_type _).trans (Finset.expect_congr rfl fun m _ => ?_)
    refine (expect_prod_type _).trans ((expect_prod_type _).trans (Finset.expect_congr rfl fun o _ => ?_))
    refine (expect_prod_type _).trans (Finset.expect_congr rfl fun d' _ => Finset.expect_congr rfl fun z' _ => ?_)
    refine (expect_prod_type _).trans (Finset.expect_congr rfl fun G _ => ?_)
    exact expect_prod_type _
  rw [l, r]
  refine le_trans (b := 𝔼 T : XofTable, 𝔼 d : B32, ind (¬ SeedOk (withXof S T) p.k (seeds (withXof S T) p d.toList).1))
    ?_ (expect_seed_le S p)
  refine real_average
    (f := fun T d m o d' z' G z J => TwoKeys (withXof S T) P (A o T) b (pick b d d') (pick b z z') m G J)
    (g := fun T d m o d' z' G z J => Attack (withXof S T) P (against S p A b (o, d', z') T) id d z m G J)
    (e := fun T d' => ¬ SeedOk (withXof S T) p.k (seeds (withXof S T) p d'.toList).1) ?_
  intro T d m o d' z' G z J hd'
  have hd' := not_not.1 hd'
  by_cases hd : SeedOk (withXof S T) p.k (seeds (withXof S T) p d.toList).1
  · have hs : ∀ i, SeedOk (withXof S T) p.k (seeds (withXof S T) p (pick b d d' i).toList).1 := by
      intro i
      unfold pick
      split
      · exact hd
      · exact hd'
    rw [twoKeys_iff (withXof S T) h (A o T) b hs, attack_iff (withXof S T) h _ _ hd, says_pick, pick_self]
    unfold decapsBy
    dsimp only [against, id]
    refine iff_of_eq (congrArg (· = true) (congrArg (fun D => Attacker.output G J D _) ?_))
    congr
  · refine iff_of_false (twoKeys_none (withXof S T) h (A o T) b (fun hs => hd ?_) _ _ _ _)
      (attack_none (withXof S T) h _ _ hd _ _ _ _)
    have := hs b
    rwa [pick_self] at this

/-- On an unrelated challenge it does not matter which of the keys the attacker could have generated itself. -/
theorem ideal_two (h : Supported P p)
    (A : Ω → XofTable → (Bool → P.EncodedEncryptionKey) → P.EncodedCiphertext → B32 → Attacker2 P.CiphertextSize) (b : Bool) :
    |(𝔼 T, 𝔼 d : Bool → B32, 𝔼 z : Bool → B32, 𝔼 u, 𝔼 v, 𝔼 o, 𝔼 K, 𝔼 G, 𝔼 J,
          ind (Says (withXof S T) (p := p) (A o T) (packCipher p _ u v) K d z G J))
        - prob (fun (T, d, u, v, o, K, G, z, J) => AttackOn (withXof S T) P (against S p A b o T) (packCipher p _ u v) K d z G J)|
      ≤ p.k ^ 2 * (2 : ℝ) ^ (-261 : ℤ) := by
  have l : 𝔼 T, 𝔼 d : Bool → B32, 𝔼 z : Bool → B32, 𝔼 u, 𝔼 v, 𝔼 o, 𝔼 K, 𝔼 G, 𝔼 J,
          ind (Says (withXof S T) (p := p) (A o T) (packCipher p _ u v) K d z G J)
      = 𝔼 T, 𝔼 d, 𝔼 u, 𝔼 v, 𝔼 o, 𝔼 d', 𝔼 z', 𝔼 K, 𝔼 G, 𝔼 z, 𝔼 J,
          ind (Says (withXof S T) (p := p) (A o T) (packCipher p _ u v) K (pick b d d') (pick b z z') G J) := by
    refine Finset.expect_congr rfl fun T _ => ?_
    refine (expect_pick b _).trans (Finset.expect_congr rfl fun d _ => ?_)
    refine Eq.trans ?_ (expect_ideal_order fun d' z z' u v o K G J =>
      ind (Says (withXof S T) (p := p) (A o T) (packCipher p _ u v) K (pick b d d') (pick b z z') G J))
    exact Finset.expect_congr rfl fun d' _ => expect_pick b _
  have r : prob (fun (T, d, u, v, o, K, G, z, J) =>
        AttackOn (withXof S T) P (against S p A b o T) (packCipher p _ u v) K d z G J)
      = 𝔼 T, 𝔼 d, 𝔼 u, 𝔼 v, 𝔼 o, 𝔼 d', 𝔼 z', 𝔼 K, 𝔼 G, 𝔼 z, 𝔼 J,
          ind (AttackOn (withXof S T) P (against S p A b (o, d', z') T) (packCipher p _ u v) K d z G J) := by
    simp only [prob_ind]
    refine (expect_prod_type _).trans (Finset.expect_congr rfl fun T _ => ?_)
    refine (expect_prod_type _).trans (Finset.expect_congr rfl fun d _ => ?_)
    refine (expect_prod_type _).trans (Finset.expect_congr rfl fun u _ => ?_)
    refine (expect_prod_type _).trans (Finset.expect_congr rfl fun v _ => ?_)
    refine (expect_prod_type _).trans ((expect_prod_type _).trans (Finset.expect_congr rfl fun o _ => ?_))
    refine (expect_prod_type _).trans (Finset.expect_congr rfl fun d' _ => Finset.expect_congr rfl fun z' _ => ?_)
    refine (expect_prod_type _).trans (Finset.expect_congr rfl fun K _ => ?_)
    refine (expect_prod_type _).trans (Finset.expect_congr rfl fun G _ => ?_)
    exact expect_prod_type _
  rw [l, r]
  refine le_trans (b := 𝔼 T : XofTable, 𝔼 d : B32, ind (¬ SeedOk (withXof S T) p.k (seeds (withXof S T) p d.toList).1))
    ?_ (expect_seed_le S p)
  refine ideal_average
    (f := fun T d u v o d' z' K G z J =>
      Says (withXof S T) (p := p) (A o T) (packCipher p _ u v) K (pick b d d') (pick b z z') G J)
    (g := fun T d u v o d' z' K G z J =>
      AttackOn (withXof S T) P (against S p A b (o, d', z') T) (packCipher p _ u v) K d z G J)
    (e := fun T d => ¬ SeedOk (withXof S T) p.k (seeds (withXof S T) p d.toList).1) ?_
  intro T d u v o d' z' K G z J hd
  have hd := not_not.1 hd
  rw [attackOn_iff (withXof S T) h _ _ _ hd, says_pick]
  unfold decapsBy
  dsimp only [against]
  refine iff_of_eq (congrArg (· = true) (congrArg (fun D => Attacker.output G J D _) ?_))
  congr

/-- **C83** Ciphertexts do not show whom they are for. The attacker is given two public keys, and the ciphertext and shared
key that encapsulation returns for one of them. SHAKE128 on 34-byte strings is a random table `T`, which the attacker can
read; the attacker also uses coins `o`. It asks at most `q` questions, also for decapsulations with both keys. It tells
which key was used with an advantage of at most the advantages of twice thirteen distinguishers built from it, which are
given no decapsulation, plus statistical terms. Here `δ T d` bounds the probability that K-PKE decryption with the key
generated from `d` returns another message than was encrypted. -/
theorem C83_anonymous (h : Supported P p)
    (A : Ω → XofTable → (Bool → P.EncodedEncryptionKey) → P.EncodedCiphertext → B32 → Attacker2 P.CiphertextSize) {q : Nat}
    (hA : ∀ o T e c K, (A o T e c K).AtMost q) {δ : XofTable → B32 → ℝ}
    (hδ : ∀ T d m, prob (fun r : B32 => Incorrect (withXof S T) p d m r) ≤ δ T d) :
    |prob (fun (T, d, z, m, o, G, J) => TwoKeys (withXof S T) P (A o T) false d z m G J)
        - prob (fun (T, d, z, m, o, G, J) => TwoKeys (withXof S T) P (A o T) true d z m G J)|
      ≤ challengeAssumptions S p (against S p A false) + challengeAssumptions S p (against S p A true)
        + 18 * p.k ^ 2 * (2 : ℝ) ^ (-261 : ℤ) + (12 * q + 4) * (𝔼 T, 𝔼 d, δ T d) + 12 * q * 2 ^ (-256 : ℤ) := by
  have r := real_two S h A
  have i := ideal_two S h A
  have c := fun b => C82_pseudorandom S h (against S p A b) (q := 2 * q)
    (fun o T e c K => withKey_atMost (withXof S T) b _ _ _ _ (hA _ _ _ _ _)) hδ
  have r0 := r false
  have r1 := r true
  have i0 := i false
  have i1 := i true
  have c0 := c false
  have c1 := c true
  clear r i c
  generalize prob (fun (T, d, z, m, o, G, J) => TwoKeys (withXof S T) P (A o T) false d z m G J) = x0 at *
  generalize prob (fun (T, d, z, m, o, G, J) => TwoKeys (withXof S T) P (A o T) true d z m G J) = x1 at *
  generalize prob (fun (T, d, m, o, G, z, J) => Attack (withXof S T) P (against S p A false o T) id d z m G J) = y0 at *
  generalize prob (fun (T, d, m, o, G, z, J) => Attack (withXof S T) P (against S p A true o T) id d z m G J) = y1 at *
  generalize prob (fun (T, d, u, v, o, K, G, z, J) =>
    AttackOn (withXof S T) P (against S p A false o T) (packCipher p _ u v) K d z G J) = z0 at *
  generalize prob (fun (T, d, u, v, o, K, G, z, J) =>
    AttackOn (withXof S T) P (against S p A true o T) (packCipher p _ u v) K d z G J) = z1 at *
  generalize (𝔼 T, 𝔼 d : Bool → B32, 𝔼 z : Bool → B32, 𝔼 u, 𝔼 v, 𝔼 o, 𝔼 K, 𝔼 G, 𝔼 J,
          ind (Says (withXof S T) (p := p) (A o T) (packCipher p _ u v) K d z G J)) = w at *
  push_cast at c0 c1
  rw [abs_le] at *
  constructor <;> linarith [r0.1, r0.2, r1.1, r1.2, i0.1, i0.2, i1.1, i1.2, c0.1, c0.2, c1.1, c1.2]

/-- An attacker on one key, as one on the key `true` -/
def onTrue {n : Nat} : Attacker n → Attacker2 n
  | .guess b => .guess b
  | .hashG m h next => .hashG m h fun a => onTrue (next a)
  | .hashJ z c next => .hashJ z c fun a => onTrue (next a)
  | .decaps c next => .decaps true c fun a => onTrue (next a)

theorem onTrue_output {n : Nat} (G : B32 → B32 → B32 × B32) (J : B32 → Bytes n → B32) (D : Bool → Bytes n → Option B32)
    (A : Attacker n) : (onTrue A).output G J D = A.output G J (D true) := by
  induction A with
  | guess g => rfl
  | hashG m a next ih => exact ih _
  | hashJ z' c next ih => exact ih _
  | decaps c next ih => exact ih _

/-- Decapsulates some string with the key `false`, then searches for the secret key `true` -/
noncomputable def searcher2 (S : Sha3) (p : Params) {e n : Nat} (eb : Bool → Bytes e) (c : Bytes n) (K : B32) : Attacker2 n :=
  .decaps false default fun _ => onTrue (searcher S p (eb true) c K)

/-- The hypotheses of C83 hold for the attacker that searches for one secret key of the toy hash functions, with two
questions, one of them a decapsulation, `δ = 0` and no coins. If both matrices exist, it always answers `true` when the
challenge was made for that key. When it was made for the other key, it answers `true` just if two answers of `G` agree. -/
example : (∀ (_o : Unit) (T : XofTable) (eb : Bool → MlKem768Params.EncodedEncryptionKey) c K,
      (searcher2 (withXof Toy.S T) ML_KEM_768 eb c K : Attacker2 MlKem768Params.CiphertextSize).AtMost 2) ∧
    (∀ (T : XofTable) d m, prob (fun r : B32 => Incorrect (withXof Toy.S T) ML_KEM_768 d m r) ≤ 0) ∧
    ∀ (T : XofTable) (d : Bool → B32),
      (∀ i, SeedOk (withXof Toy.S T) ML_KEM_768.k (seeds (withXof Toy.S T) ML_KEM_768 (d i).toList).1) →
      ∀ z m G J,
        TwoKeys (withXof Toy.S T) MlKem768Params (searcher2 (withXof Toy.S T) ML_KEM_768) true d z m G J ∧
        ∃ m' h h', TwoKeys (withXof Toy.S T) MlKem768Params (searcher2 (withXof Toy.S T) ML_KEM_768) false d z m G J
          ↔ (G m' h').1 = (G m h).1 := by
  refine ⟨fun _ T eb c K => ⟨1, rfl, fun _ => ⟨0, rfl, fun a => trivial⟩⟩, fun T d m => le_of_eq ?_,
    fun T d hs z m G J => ⟨?_, ?_⟩⟩
  · rw [prob_ind]
    exact (Finset.expect_congr rfl fun r _ => if_neg (toy_correct_xof T d m r)).trans (Fintype.expect_const (0 : ℝ))
  · rw [twoKeys_iff _ supported_768 _ _ hs]
    have := (searcher_attack supported_768 (toy_correct_xof T) id (d true) (z true) m G J (hs true)).2 rfl
    rw [attack_iff _ supported_768 _ _ (hs true)] at this
    unfold Says searcher2
    rw [Attacker2.output, onTrue_output]
    unfold decapsBy
    refine Eq.trans (congrArg (fun D => Attacker.output G J D _) ?_) this
    congr
  · rw [twoKeys_iff _ supported_768 _ _ hs]
    unfold Says searcher2
    rw [Attacker2.output, onTrue_output]
    unfold searcher
    simp only [Attacker.output]
    exact ⟨_, _, _, decide_eq_true_iff⟩

end

end MlKem
