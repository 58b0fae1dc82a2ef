import Verif.Proofs.Sparse
import Verif.Spec.Told
/-! C92: ciphertexts of the modelled code do not show which of two keys they were made for, even to somebody who is told
what they decapsulate to with each of the keys. -/
set_option linter.unusedSectionVars false
set_option synthInstance.maxSize 1000

namespace MlKem
open Rust Fips203 Finset BigOperators Fo

/-- The attacker is given the two public keys generated from `d` and `z`, the ciphertext that encapsulating `m` with the key
`b` returns, and what decapsulating this ciphertext with each of the keys returns. It may ask for `G`, for `J`, and for the
decapsulation of all other ciphertexts with both keys. It ends with the guess `true`. -/
def Told [Build] (S : Sha3) (P : ParameterSet)
    (A : (Bool → P.EncodedEncryptionKey) → P.EncodedCiphertext → (Bool → B32) → Attacker2 P.CiphertextSize) (b : Bool)
    (d z : Bool → B32) (m : B32) (G : B32 → B32 → B32 × B32) (J : B32 → P.EncodedCiphertext → B32) : Prop :=
  ∃ (dk : Bool → DecapsulationKey P) (ek : Bool → EncapsulationKey P) (eb : Bool → P.EncodedEncryptionKey)
    (c : P.EncodedCiphertext) (K : SharedKey) (K' : Bool → SharedKey),
    (∀ i, Kem.generate_deterministic (withOracles S G J) P (d i) (z i) = .ok (dk i, ek i) ∧ (ek i).as_bytes = .ok (eb i)) ∧
    (ek b).encapsulate_deterministic (withOracles S G J) m = .ok (c, K) ∧
    (∀ i, (dk i).decapsulate (withOracles S G J) c = .ok (K' i)) ∧
    (A eb c K').output G J (fun i c' =>
      if c' = c then none else
        match (dk i).decapsulate (withOracles S G J) c' with
        | .ok K' => some K'
        | _ => none) = true

section
variable [Build] (S : Sha3) {P : ParameterSet} {p : Params}

/-- What the attacker says about a ciphertext and two keys -/
def SaysTold (S : Sha3) {p : Params}
    (A : (Bool → P.EncodedEncryptionKey) → P.EncodedCiphertext → (Bool → B32) → Attacker2 P.CiphertextSize)
    (c : P.EncodedCiphertext) (K : Bool → B32) (d z : Bool → B32) (G : B32 → B32 → B32 × B32)
    (J : B32 → P.EncodedCiphertext → B32) : Prop :=
  (A (fun i => Fips203.bytes _ (KPKE_KeyGen S p (d i).toList).1) c K).output G J
    (fun i => simD c (decapsBy S p G J (d i) (z i))) = true

theorem told_iff (h : Supported P p)
    (A : (Bool → P.EncodedEncryptionKey) → P.EncodedCiphertext → (Bool → B32) → Attacker2 P.CiphertextSize) (b : Bool)
    {d : Bool → B32} (hs : ∀ i, SeedOk S p.k (seeds S p (d i).toList).1) (z : Bool → B32) (m : B32)
    (G : B32 → B32 → B32 × B32) (J : B32 → P.EncodedCiphertext → B32) :
    Told S P A b d z m G J ↔ SaysTold S (p := p) A
      (encrypt S p _ (KPKE_KeyGen S p (d b).toList).1 m (G m (keyHash S p (d b))).2)
      (fun i => decapsBy S p G J (d i) (z i)
        (encrypt S p _ (KPKE_KeyGen S p (d b).toList).1 m (G m (keyHash S p (d b))).2)) d z G J := by
  have hr := fun i => run_ok S h (hs i) (z i) G J
  choose dk ek h1 h2 h3 h4 using hr
  unfold Told SaysTold
  constructor
  · rintro ⟨dk', ek', eb, c, K, K', g1, g3, g5, g4⟩
    have hdk : ∀ i, dk' i = dk i ∧ ek' i = ek i := fun i => Prod.mk.inj (Res.ok.inj ((g1 i).1.symm.trans (h1 i)))
    obtain rfl : dk' = dk := funext fun i => (hdk i).1
    obtain rfl : ek' = ek := funext fun i => (hdk i).2
    obtain rfl : eb = _ := funext fun i => Res.ok.inj ((g1 i).2.symm.trans (h2 i))
    obtain ⟨rfl, rfl⟩ := Prod.mk.inj (Res.ok.inj (g3.symm.trans (h3 b m)))
    obtain rfl : K' = _ := funext fun i => Res.ok.inj ((g5 i).symm.trans (h4 i _))
    simp only [h4] at g4
    refine Eq.trans ?_ g4
    unfold simD
    congr 1
    funext i c'
    congr
  · intro g4
    refine ⟨dk, ek, _, _, _, _, fun i => ⟨h1 i, h2 i⟩, h3 b m, fun i => h4 i _, ?_⟩
    simp only [h4]
    refine Eq.trans ?_ g4
    unfold simD
    congr 1
    funext i c'
    congr

theorem told_none (h : Supported P p)
    (A : (Bool → P.EncodedEncryptionKey) → P.EncodedCiphertext → (Bool → B32) → Attacker2 P.CiphertextSize) (b : Bool)
    {d : Bool → B32} (hs : ¬ ∀ i, SeedOk S p.k (seeds S p (d i).toList).1) (z : Bool → B32) (m : B32)
    (G : B32 → B32 → B32 × B32) (J : B32 → P.EncodedCiphertext → B32) : ¬ Told S P A b d z m G J := by
  rintro ⟨dk, ek, eb, c, K, K', g1, -⟩
  refine hs fun i => ?_
  have := (genSeed_iff (withOracles S G J) h (d i) (z i)).1 ⟨_, (g1 i).1⟩
  rwa [oracles_seeds S G J (by simp)] at this

/-- With two keys, one of which the attacker could have generated itself -/
theorem saysTold_pick
    (A : (Bool → P.EncodedEncryptionKey) → P.EncodedCiphertext → (Bool → B32) → Attacker2 P.CiphertextSize) (b : Bool)
    (c : P.EncodedCiphertext) (K : Bool → B32) (d z d' z' : B32) (G : B32 → B32 → B32 × B32)
    (J : B32 → P.EncodedCiphertext → B32) :
    SaysTold S (p := p) A c K (pick b d d') (pick b z z') G J ↔
      ((A (fun i => if i = b then Fips203.bytes _ (KPKE_KeyGen S p d.toList).1
          else Fips203.bytes _ (KPKE_KeyGen S p d'.toList).1) c K).withKey S p b d' z' c).output G J
        (simD c (decapsBy S p G J d z)) = true :=
  says_pick S (fun eb c _ => A eb c K) b c default d z d' z' G J

variable {Ω : Type}

theorem againstTold_output
    (A : Ω → XofTable → (Bool → P.EncodedEncryptionKey) → P.EncodedCiphertext → (Bool → B32) → Attacker2 P.CiphertextSize)
    (b : Bool) (T : XofTable) (o : Ω) (c : P.EncodedCiphertext) (K d z d' z' : B32) (G : B32 → B32 → B32 × B32)
    (J : B32 → P.EncodedCiphertext → B32) :
    (againstTold S p A b (o, d', z') T (Fips203.bytes _ (KPKE_KeyGen (withXof S T) p d.toList).1) c K).output G J
        (simD c (decapsBy (withXof S T) p G J d z)) = true ↔
      SaysTold (withXof S T) (p := p) (A o T) c (pick b K (decapsBy (withXof S T) p G J d' z' c)) (pick b d d') (pick b z z') G J := by
  rw [saysTold_pick]
  unfold againstTold
  simp only [Attacker.output]
  refine iff_of_eq (congrArg (· = true) (congrArg (Attacker.output G J _) ?_))
  refine congrArg (fun K => Attacker2.withKey _ _ _ _ _ _ (A o T _ c K)) (funext fun i => ?_)
  unfold pick
  split
  · rfl
  · unfold decapsBy Fo.keyOf decrypt keyHash
    congr

theorem againstTold_atMost
    (A : Ω → XofTable → (Bool → P.EncodedEncryptionKey) → P.EncodedCiphertext → (Bool → B32) → Attacker2 P.CiphertextSize)
    {q : Nat} (hA : ∀ o T e c K, (A o T e c K).AtMost q) (b : Bool) (o : Ω × B32 × B32) (T : XofTable) (ek : P.EncodedEncryptionKey)
    (c : P.EncodedCiphertext) (K : B32) : (againstTold S p A b o T ek c K).AtMost (2 * q + 2) :=
  ⟨2 * q + 1, rfl, fun _ => ⟨2 * q, rfl, fun _ => withKey_atMost _ _ _ _ _ _ (hA _ _ _ _ _)⟩⟩

/-! ### The key that the challenge was not made for -/

open Classical in
/-- Do not ask for the decapsulation of `c0`. -/
noncomputable def refusing {n : Nat} (c0 : Bytes n) : Attacker n → Attacker n
  | .guess g => .guess g
  | .hashG m h next => .hashG m h fun a => refusing c0 (next a)
  | .hashJ z c next => .hashJ z c fun a => refusing c0 (next a)
  | .decaps c next => if c = c0 then refusing c0 (next none) else .decaps c fun a => refusing c0 (next a)

theorem refusing_output {n : Nat} (c0 : Bytes n) (G : B32 → B32 → B32 × B32) (J : B32 → Bytes n → B32) (t : Bytes n → B32)
    (A : Attacker n) : (refusing c0 A).output G J (fun c => some (t c)) = A.output G J (simD c0 t) := by
  induction A with
  | guess g => rfl
  | hashG m a next ih => exact ih _
  | hashJ z' c next ih => exact ih _
  | decaps c next ih =>
    unfold refusing
    by_cases hc : c = c0
    · rw [if_pos hc]
      refine (ih _).trans ?_
      show _ = (next (simD c0 t c)).output G J _
      unfold simD
      rw [if_pos hc]
    · rw [if_neg hc]
      refine (ih _).trans ?_
      show _ = (next (simD c0 t c)).output G J _
      unfold simD
      rw [if_neg hc]

theorem refusing_atMost {n : Nat} (c0 : Bytes n) (A : Attacker n) {q : Nat} (h : A.AtMost q) : (refusing c0 A).AtMost q := by
  induction A generalizing q with
  | guess g => trivial
  | hashG m a next ih => obtain ⟨q, rfl, h⟩ := h; exact ⟨q, rfl, fun x => ih x (h x)⟩
  | hashJ z' c next ih => obtain ⟨q, rfl, h⟩ := h; exact ⟨q, rfl, fun x => ih x (h x)⟩
  | decaps c next ih =>
    obtain ⟨q, rfl, h⟩ := h
    unfold refusing
    split
    · exact atMost_mono _ (ih _ (h _)) (Nat.le_succ _)
    · exact ⟨q, rfl, fun x => ih x (h x)⟩

/-- Questions about other ciphertexts do not depend on what is said about the challenge. -/
theorem simD_update {n : Nat} (c : Bytes n) (enc : B32 → B32 → Bytes n) (dec : Bytes n → B32) (k r : B32 → B32)
    (j : Bytes n → B32) (x : B32) :
    simD c (Fo.keyOf enc dec k r (Function.update j c x)) = simD c (Fo.keyOf enc dec k r j) := by
  funext c'
  unfold simD Fo.keyOf
  by_cases hc : c' = c
  · rw [if_pos hc, if_pos hc]
  · rw [if_neg hc, if_neg hc, Function.update_of_ne hc]

/-- What a key makes of a ciphertext that it is not used for is as good as random. Here `B` is what the attacker does when
told that the key makes `K'` of it. -/
theorem reject_told {n : Nat} (G : B32 → B32 → B32 × B32) (enc : B32 → B32 → Bytes n) (dec : Bytes n → B32) (k r : B32 → B32)
    (c : Bytes n) (B : B32 → Attacker n) {q : Nat} (hB : ∀ K, (B K).AtMost q) :
    |(𝔼 z : B32, 𝔼 J : B32 → Bytes n → B32,
          ind ((B (Fo.keyOf enc dec k r (J z) c)).output G J (simD c (Fo.keyOf enc dec k r (J z))) = true))
        - 𝔼 K', 𝔼 z : B32, 𝔼 J : B32 → Bytes n → B32, ind ((B K').output G J (simD c (Fo.keyOf enc dec k r (J z))) = true)|
      ≤ ind (∃ m, enc m (r m) = c) + (2 * q + 1) * 2 ^ (-256 : ℤ) := by
  let tree : Attacker n := .decaps c fun a => refusing c (B (a.getD default))
  have out : ∀ J t, tree.output G J (fun c' => some (t c')) = (B (t c)).output G J (simD c t) := fun J t =>
    refusing_output c G J t (B (t c))
  have h1 := reject_close G (fun j c' => some (Fo.keyOf enc dec k r j c')) tree (q := q + 1)
    ⟨q, rfl, fun a => refusing_atMost _ _ (hB _)⟩
  simp only [out] at h1
  have h2 : ∀ K', _ := fun K' => reject_close G (fun j c' => some (Fo.keyOf enc dec k r j c')) (refusing c (B K')) (q := q)
    (refusing_atMost _ _ (hB _))
  simp only [refusing_output] at h2
  have h2 := (abs_expect_sub h2).trans (le_of_eq (Fintype.expect_const _))
  have h3 : |(𝔼 J : B32 → Bytes n → B32, 𝔼 j : Bytes n → B32,
          ind ((B (Fo.keyOf enc dec k r j c)).output G J (simD c (Fo.keyOf enc dec k r j)) = true))
        - 𝔼 K', 𝔼 J : B32 → Bytes n → B32, 𝔼 j : Bytes n → B32, ind ((B K').output G J (simD c (Fo.keyOf enc dec k r j)) = true)|
      ≤ ind (∃ m, enc m (r m) = c) := by
    by_cases hv : ∃ m, enc m (r m) = c
    · rw [show ind (∃ m, enc m (r m) = c) = 1 from if_pos hv]
      refine (abs_le.2 ⟨?_, ?_⟩ : _ ≤ (1 : ℝ))
      all_goals
        have b1 : ∀ x : Prop, 0 ≤ ind x ∧ ind x ≤ 1 := fun x => by unfold ind; split <;> norm_num
        have l0 : ∀ {ι : Type} [Fintype ι] {f : ι → ℝ}, (∀ i, 0 ≤ f i) → 0 ≤ 𝔼 i, f i := fun h => Finset.expect_nonneg fun i _ => h i
        have l1 : ∀ {ι : Type} [Fintype ι] [Nonempty ι] {f : ι → ℝ}, (∀ i, f i ≤ 1) → 𝔼 i, f i ≤ 1 := fun h =>
          (Finset.expect_le_expect fun i _ => h i).trans (le_of_eq (Fintype.expect_const _))
        have u1 := l1 fun J : B32 → Bytes n → B32 => l1 fun j : Bytes n → B32 =>
          (b1 ((B (Fo.keyOf enc dec k r j c)).output G J (simD c (Fo.keyOf enc dec k r j)) = true)).2
        have u0 := l0 fun J : B32 → Bytes n → B32 => l0 fun j : Bytes n → B32 =>
          (b1 ((B (Fo.keyOf enc dec k r j c)).output G J (simD c (Fo.keyOf enc dec k r j)) = true)).1
        have v1 := l1 fun K' : B32 => l1 fun J : B32 → Bytes n → B32 => l1 fun j : Bytes n → B32 =>
          (b1 ((B K').output G J (simD c (Fo.keyOf enc dec k r j)) = true)).2
        have v0 := l0 fun K' : B32 => l0 fun J : B32 → Bytes n → B32 => l0 fun j : Bytes n → B32 =>
          (b1 ((B K').output G J (simD c (Fo.keyOf enc dec k r j)) = true)).1
        linarith
    · have hk : ∀ j, Fo.keyOf enc dec k r j c = j c := fun j => if_neg fun e => hv ⟨_, e⟩
      simp only [hk]
      refine le_trans (le_of_eq ?_) (by unfold ind; split <;> norm_num : (0 : ℝ) ≤ ind (∃ m, enc m (r m) = c))
      rw [abs_eq_zero, sub_eq_zero]
      refine Eq.trans ?_ (Finset.expect_comm ..)
      refine Finset.expect_congr rfl fun J _ => ?_
      rw [expect_update c]
      simp only [Function.update_self, simD_update]
  rw [abs_le] at *
  push_cast at h1
  constructor <;> linarith [h1.1, h1.2, h2.1, h2.2, h3.1, h3.2]

/-! ### The games -/

variable [Fintype Ω] [Nonempty Ω]

theorem Even.pick {α : Type} [Fintype α] [Nonempty α] (b : Bool) : Even fun w : α × α => MlKem.pick b w.1 w.2 := by
  intro f
  rw [expect_pick b, expect_prod_type]

/-- The randomness of an attack on one key by an attacker that has generated another one -/
abbrev RealCoins (P : ParameterSet) (Ω : Type) : Type :=
  XofTable × B32 × B32 × (Ω × B32 × B32) × (B32 → B32 → B32 × B32) × B32 × (B32 → P.EncodedCiphertext → B32)

theorem incorrect_average (h : Supported P p) (hs : Standard p) :
    prob (fun ((T, d, m, G) : XofTable × B32 × B32 × (B32 → B32 → B32 × B32)) =>
      Incorrect (withXof S T) p d m (G m (keyHash (withXof S T) p d)).2) ≤ correctnessAssumptions S p + 2 ^ (-failureBits p : ℤ) := by
  refine le_trans ?_ (C86_loud S hs)
  rw [prob_ind]
  refine (le_of_eq (expect_prod_type _)).trans (Finset.expect_le_expect fun T _ => ?_)
  refine (le_of_eq (expect_prod_type _)).trans (Finset.expect_le_expect fun d _ => ?_)
  refine (le_of_eq (expect_prod_type _)).trans ?_
  refine (Finset.expect_le_expect fun m _ => ?_).trans (le_of_eq (Fintype.expect_const (loudFor (p := p) S T d)))
  rw [expect_at m fun y : B32 → B32 × B32 => ind (Incorrect (withXof S T) p d m (y (keyHash (withXof S T) p d)).2),
    expect_at (keyHash (withXof S T) p d) fun y : B32 × B32 => ind (Incorrect (withXof S T) p d m y.2), expect_prod_type]
  refine (le_of_eq (Fintype.expect_const (𝔼 r : B32, ind (Incorrect (withXof S T) p d m r)))).trans ?_
  rw [← prob_ind]
  exact incorrect_le S h hs T d m

/-- With two keys, one of which the attacker could have generated itself -/
theorem real_told (h : Supported P p) (hs : Standard p)
    (A : Ω → XofTable → (Bool → P.EncodedEncryptionKey) → P.EncodedCiphertext → (Bool → B32) → Attacker2 P.CiphertextSize) (b : Bool) :
    |prob (fun (T, d, z, m, o, G, J) => Told (withXof S T) P (A o T) b d z m G J)
        - prob (fun (T, d, m, o, G, z, J) => Attack (withXof S T) P (againstTold S p A b o T) id d z m G J)|
      ≤ p.k ^ 2 * (2 : ℝ) ^ (-261 : ℤ) + (correctnessAssumptions S p + 2 ^ (-failureBits p : ℤ)) := by
  have ev : Even (fun ((T, d, m, (o, d', z'), G, z, J) : RealCoins P Ω) => (T, pick b d d', pick b z z', m, o, G, J)) :=
    (Even.map (Even.id (α := XofTable)) (Even.map (Even.pick (α := B32) b) (Even.map (Even.pick (α := B32) b) Even.id))).comp
      (Even.equiv (α := RealCoins P Ω)
        (β := XofTable × (B32 × B32) × (B32 × B32) × B32 × Ω × (B32 → B32 → B32 × B32) × (B32 → P.EncodedCiphertext → B32))
        { toFun := fun (T, d, m, (o, d', z'), G, z, J) => (T, (d, d'), (z, z'), m, o, G, J)
          invFun := fun (T, (d, d'), (z, z'), m, o, G, J) => (T, d, m, (o, d', z'), G, z, J)
          left_inv := fun _ => rfl
          right_inv := fun _ => rfl })
  have e1 : Even (fun ((T, d, m, (o, d', z'), G, z, J) : RealCoins P Ω) => (T, d')) :=
    (Even.fst (β := B32 × B32 × Ω × B32 × (B32 → B32 → B32 × B32) × B32 × (B32 → P.EncodedCiphertext → B32))).comp
      (Even.equiv (α := RealCoins P Ω) (β := (XofTable × B32) × B32 × B32 × Ω × B32 × (B32 → B32 → B32 × B32) × B32 ×
          (B32 → P.EncodedCiphertext → B32))
        { toFun := fun (T, d, m, (o, d', z'), G, z, J) => ((T, d'), d, m, o, z', G, z, J)
          invFun := fun ((T, d'), d, m, o, z', G, z, J) => (T, d, m, (o, d', z'), G, z, J)
          left_inv := fun _ => rfl
          right_inv := fun _ => rfl })
  have e2 : Even (fun ((T, d, m, (o, d', z'), G, z, J) : RealCoins P Ω) => (T, d, m, G)) :=
    (Even.fst (β := (Ω × B32 × B32) × B32 × (B32 → P.EncodedCiphertext → B32))).comp
      (Even.equiv (α := RealCoins P Ω) (β := (XofTable × B32 × B32 × (B32 → B32 → B32 × B32)) × (Ω × B32 × B32) × B32 ×
          (B32 → P.EncodedCiphertext → B32))
        { toFun := fun (T, d, m, o, G, z, J) => ((T, d, m, G), o, z, J)
          invFun := fun ((T, d, m, G), o, z, J) => (T, d, m, o, G, z, J)
          left_inv := fun _ => rfl
          right_inv := fun _ => rfl })
  rw [← ev.prob]
  refine le_trans ?_ (add_le_add ((e1.prob _).le.trans (prob_seed_one S p)) ((e2.prob _).le.trans (incorrect_average S h hs)))
  refine le_trans (abs_prob_sub fun x hx => ?_) (prob_or_le _ _)
  obtain ⟨T, d, m, ⟨o, d', z'⟩, G, z, J⟩ := x
  dsimp only at hx ⊢
  rw [not_or, not_not] at hx
  obtain ⟨hd', hc⟩ := hx
  by_cases hd : SeedOk (withXof S T) p.k (seeds (withXof S T) p d.toList).1
  · have hs : ∀ i, SeedOk (withXof S T) p.k (seeds (withXof S T) p (pick b d d' i).toList).1 := by
      intro i
      unfold pick
      split
      · exact hd
      · exact hd'
    have a := againstTold_output (p := p) S A b T o
      (encrypt (withXof S T) p _ (KPKE_KeyGen (withXof S T) p d.toList).1 m (G m (keyHash (withXof S T) p d)).2)
      (G m (keyHash (withXof S T) p d)).1 d z d' z' G J
    rw [told_iff (withXof S T) h (A o T) b hs, attack_iff (withXof S T) h _ _ hd, pick_self]
    refine Iff.trans (iff_of_eq ?_) a.symm
    refine congrArg (fun K => SaysTold (withXof S T) (p := p) (A o T) _ K _ _ G J) (funext fun i => ?_)
    unfold pick
    by_cases hi : i = b
    · rw [if_pos hi, if_pos hi, if_pos hi]
      refine keyOf_enc (k := fun m => (G m (keyHash (withXof S T) p d)).1) (r := fun m => (G m (keyHash (withXof S T) p d)).2) fun hf => hc ?_
      exact (fail_iff (withXof S T) h d m _).1 hf
    · rw [if_neg hi, if_neg hi, if_neg hi]
  · refine iff_of_false (told_none (withXof S T) h (A o T) b (fun hs => hd ?_) _ _ _ _)
      (attack_none (withXof S T) h _ _ hd _ _ _ _)
    have := hs b
    rwa [pick_self] at this

/-- The same when the challenge is unrelated -/
abbrev IdealCoins (P : ParameterSet) (p : Params) (Ω : Type) : Type :=
  XofTable × B32 × (Fin p.k → Poly) × Poly × (Ω × B32 × B32) × B32 × (B32 → B32 → B32 × B32) × B32 ×
    (B32 → P.EncodedCiphertext → B32)

theorem ideal_told (h : Supported P p)
    (A : Ω → XofTable → (Bool → P.EncodedEncryptionKey) → P.EncodedCiphertext → (Bool → B32) → Attacker2 P.CiphertextSize) (b : Bool) :
    |prob (fun (T, d, u, v, o, K, G, z, J) =>
          AttackOn (withXof S T) P (againstTold S p A b o T) (packCipher p _ u v) K d z G J)
        - prob (fun ((T, d, u, v, (o, d', z'), K, G, z, J) : IdealCoins P p Ω) =>
          SaysTold (withXof S T) (p := p) (A o T) (packCipher p _ u v)
            (pick b K (decapsBy (withXof S T) p G J d' z' (packCipher p _ u v))) (pick b d d') (pick b z z') G J)|
      ≤ p.k ^ 2 * (2 : ℝ) ^ (-261 : ℤ) := by
  have es : Even (fun ((T, d, u, v, o, K, G, z, J) : IdealCoins P p Ω) => (T, d)) := Even.map Even.id Even.fst
  refine le_trans (abs_prob_sub fun x hx => ?_) ((es.prob _).le.trans (prob_seed_one S p))
  obtain ⟨T, d, u, v, ⟨o, d', z'⟩, K, G, z, J⟩ := x
  have hd := not_not.1 hx
  dsimp only
  rw [attackOn_iff (withXof S T) h _ _ _ hd]
  exact againstTold_output (p := p) S A b T o _ K d z d' z' G J

theorem abs_pairs {W R R' : Type} [Fintype W] [Fintype R] [Fintype R'] {f : W × R → ℝ} {g : W × R' → ℝ} {c : W → ℝ}
    (h : ∀ w, |(𝔼 r, f (w, r)) - 𝔼 r, g (w, r)| ≤ c w) : |(𝔼 x, f x) - 𝔼 x, g x| ≤ 𝔼 w, c w := by
  rw [expect_prod_type, expect_prod_type]
  exact abs_expect_sub h

/-- What the other key makes of the challenge is as good as random. -/
theorem other_told (h : Supported P p) (hs : Standard p)
    (A : Ω → XofTable → (Bool → P.EncodedEncryptionKey) → P.EncodedCiphertext → (Bool → B32) → Attacker2 P.CiphertextSize) {q : Nat}
    (hA : ∀ o T e c K, (A o T e c K).AtMost q) (b : Bool) :
    |prob (fun ((T, d, u, v, (o, d', z'), K, G, z, J) : IdealCoins P p Ω) =>
          SaysTold (withXof S T) (p := p) (A o T) (packCipher p _ u v)
            (pick b K (decapsBy (withXof S T) p G J d' z' (packCipher p _ u v))) (pick b d d') (pick b z z') G J)
        - prob (fun ((T, d, z, u, v, o, K, G, J) : XofTable × (Bool → B32) × (Bool → B32) × (Fin p.k → Poly) × Poly × Ω ×
            (Bool → B32) × (B32 → B32 → B32 × B32) × (B32 → P.EncodedCiphertext → B32)) =>
          SaysTold (withXof S T) (p := p) (A o T) (packCipher p _ u v) K d z G J)|
      ≤ (4 * q + 2) * (2 : ℝ) ^ (-256 : ℤ) := by
  have e1 : Even (fun (((T, d, d', o, K, G, z), u, v, z', J) : (XofTable × B32 × B32 × Ω × B32 × (B32 → B32 → B32 × B32) × B32) ×
      (Fin p.k → Poly) × Poly × B32 × (B32 → P.EncodedCiphertext → B32)) =>
      ((T, d, u, v, (o, d', z'), K, G, z, J) : IdealCoins P p Ω)) :=
    Even.equiv (α := (XofTable × B32 × B32 × Ω × B32 × (B32 → B32 → B32 × B32) × B32) ×
      (Fin p.k → Poly) × Poly × B32 × (B32 → P.EncodedCiphertext → B32)) (β := IdealCoins P p Ω)
        { toFun := fun ((T, d, d', o, K, G, z), u, v, z', J) => (T, d, u, v, (o, d', z'), K, G, z, J)
          invFun := fun (T, d, u, v, (o, d', z'), K, G, z, J) => ((T, d, d', o, K, G, z), u, v, z', J)
          left_inv := fun _ => rfl
          right_inv := fun _ => rfl }
  have e2 : Even (fun (((T, d, d', o, K, G, z), u, v, K', z', J) :
      (XofTable × B32 × B32 × Ω × B32 × (B32 → B32 → B32 × B32) × B32) ×
      (Fin p.k → Poly) × Poly × B32 × B32 × (B32 → P.EncodedCiphertext → B32)) =>
      (T, pick b d d', pick b z z', u, v, o, pick b K K', G, J)) :=
    (Even.map (Even.id (α := XofTable)) (Even.map (Even.pick (α := B32) b) (Even.map (Even.pick (α := B32) b)
      (Even.map (Even.id (α := Fin p.k → Poly)) (Even.map (Even.id (α := Poly)) (Even.map (Even.id (α := Ω))
        (Even.map (Even.pick (α := B32) b) Even.id))))))).comp
    (Even.equiv (α := (XofTable × B32 × B32 × Ω × B32 × (B32 → B32 → B32 × B32) × B32) ×
        (Fin p.k → Poly) × Poly × B32 × B32 × (B32 → P.EncodedCiphertext → B32))
      (β := XofTable × (B32 × B32) × (B32 × B32) × (Fin p.k → Poly) × Poly × Ω × (B32 × B32) × (B32 → B32 → B32 × B32) ×
        (B32 → P.EncodedCiphertext → B32))
        { toFun := fun ((T, d, d', o, K, G, z), u, v, K', z', J) => (T, (d, d'), (z, z'), u, v, o, (K, K'), G, J)
          invFun := fun (T, (d, d'), (z, z'), u, v, o, (K, K'), G, J) => ((T, d, d', o, K, G, z), u, v, K', z', J)
          left_inv := fun _ => rfl
          right_inv := fun _ => rfl })
  rw [← e1.prob, ← e2.prob, prob_ind, prob_ind]
  refine (abs_pairs fun w => ?_).trans (le_of_eq (Fintype.expect_const _))
  obtain ⟨T, d, d', o, K, G, z⟩ := w
  dsimp only
  have sp : (𝔼 u : Fin p.k → Poly, 𝔼 v : Poly, (ind (∃ m, encrypt (withXof S T) p _ (KPKE_KeyGen (withXof S T) p d'.toList).1 m
      (G m (keyHash (withXof S T) p d')).2 = packCipher p P.CiphertextSize u v) + (2 * (2 * q : ℕ) + 1) * 2 ^ (-256 : ℤ)))
      ≤ (4 * q + 2) * (2 : ℝ) ^ (-256 : ℤ) := by
    simp only [Finset.expect_add_distrib]
    have := sparse h hs fun m => encrypt (withXof S T) p _ (KPKE_KeyGen (withXof S T) p d'.toList).1 m
      (G m (keyHash (withXof S T) p d')).2
    rw [Fintype.expect_const, Fintype.expect_const]
    push_cast
    linarith
  refine le_trans ?_ sp
  refine abs_pairs fun u => abs_pairs fun v => ?_
  simp only [expect_prod_type]
  generalize hc : packCipher p P.CiphertextSize u v = c
  have flip : ∀ {α : Type} (x y : α), pick b x y = pick (!b) y x := fun x y => by
    funext i
    cases b <;> cases i <;> rfl
  have r := reject_told (q := 2 * q) G (encrypt (withXof S T) p _ (KPKE_KeyGen (withXof S T) p d'.toList).1) (decrypt (withXof S T) p _ d')
    (fun m => (G m (keyHash (withXof S T) p d')).1) (fun m => (G m (keyHash (withXof S T) p d')).2) c
    (fun K' => (A o T (fun i => if i = !b then Fips203.bytes _ (KPKE_KeyGen (withXof S T) p d'.toList).1
          else Fips203.bytes _ (KPKE_KeyGen (withXof S T) p d.toList).1) c (pick b K K')).withKey (withXof S T) p (!b) d z c)
    (fun K' => withKey_atMost (withXof S T) (!b) d z c _ (hA _ _ _ _ _))
  have e : ∀ K' z' J, ind (SaysTold (withXof S T) (p := p) (A o T) c (pick b K K') (pick b d d') (pick b z z') G J)
      = ind (((A o T (fun i => if i = !b then Fips203.bytes _ (KPKE_KeyGen (withXof S T) p d'.toList).1
          else Fips203.bytes _ (KPKE_KeyGen (withXof S T) p d.toList).1) c (pick b K K')).withKey (withXof S T) p (!b) d z c).output
        G J (simD c (decapsBy (withXof S T) p G J d' z')) = true) := fun K' z' J => by
    rw [flip d d', flip z z']
    exact congrArg ind (propext (saysTold_pick (withXof S T) (A o T) (!b) c (pick b K K') d' z' d z G J))
  simp only [e]
  exact r

/-- **C92** Ciphertexts do not show whom they are for, not even to somebody who sees what both recipients make of them. The
attacker is given two public keys, the ciphertext that encapsulation returns for one of them, and what decapsulating this
ciphertext with each of the two keys returns. SHAKE128 on 34-byte strings is a random table `T`, which the attacker can
read; the attacker also uses coins `o`. It asks at most `q` questions, also for decapsulations of other ciphertexts with
both keys. It tells which key was used with an advantage of at most the advantages of twice thirteen distinguishers built
from it, which are given no decapsulation, those of the distinguishers that the failure probability rests on, and
numbers. -/
theorem C92_anonymous (h : Supported P p) (hs : Standard p)
    (A : Ω → XofTable → (Bool → P.EncodedEncryptionKey) → P.EncodedCiphertext → (Bool → B32) → Attacker2 P.CiphertextSize) {q : Nat}
    (hA : ∀ o T e c K, (A o T e c K).AtMost q) :
    |prob (fun (T, d, z, m, o, G, J) => Told (withXof S T) P (A o T) false d z m G J)
        - prob (fun (T, d, z, m, o, G, J) => Told (withXof S T) P (A o T) true d z m G J)|
      ≤ challengeAssumptions S p (againstTold S p A false) + challengeAssumptions S p (againstTold S p A true)
        + 18 * p.k ^ 2 * (2 : ℝ) ^ (-261 : ℤ)
        + (12 * q + 18) * (correctnessAssumptions S p + 2 ^ (-failureBits p : ℤ)) + (20 * q + 16) * 2 ^ (-256 : ℤ) := by
  have c := fun b => C86_pseudorandom S h hs (againstTold S p A b) (q := 2 * q + 2) fun o T e c K =>
    againstTold_atMost S A hA b o T e c K
  have r0 := real_told S h hs A false
  have r1 := real_told S h hs A true
  have i0 := ideal_told S h A false
  have i1 := ideal_told S h A true
  have j0 := other_told S h hs A hA false
  have j1 := other_told S h hs A hA true
  have c0 := c false
  have c1 := c true
  clear c
  push_cast at c0 c1
  generalize correctnessAssumptions S p + 2 ^ (-failureBits p : ℤ) = γ at *
  generalize (2 : ℝ) ^ (-256 : ℤ) = ε at *
  have tri : ∀ {a b c u v : ℝ}, |a - b| ≤ u → |b - c| ≤ v → |a - c| ≤ u + v := fun h h' =>
    (abs_sub_le _ _ _).trans (add_le_add h h')
  have t0 := tri (tri (tri r0 c0) i0) j0
  have t1 := tri (tri (tri r1 c1) i1) j1
  rw [abs_sub_comm] at t1
  refine (tri t0 t1).trans (le_of_eq ?_)
  ring

/-- Decapsulates some string with the key `false`, then searches for the secret key `true`, for the shared key that it was
told for this key -/
noncomputable def searcherTold (S : Sha3) (p : Params) {e n : Nat} (eb : Bool → Bytes e) (c : Bytes n) (K : Bool → B32) :
    Attacker2 n :=
  .decaps false default fun _ => onTrue (searcher S p (eb true) c (K true))

/-- The hypotheses of C92 hold for the attacker that searches for one secret key of the toy hash functions, with two
questions, one of them a decapsulation, and no coins. If both matrices exist, it always answers `true` when the challenge
was made for that key. When it was made for the other key, it answers `true` just if an answer of `G` is what
decapsulation returns. -/
example : Supported MlKem768Params ML_KEM_768 ∧ Standard ML_KEM_768 ∧
    (∀ (_o : Unit) (T : XofTable) (eb : Bool → MlKem768Params.EncodedEncryptionKey) c K,
      (searcherTold (withXof Toy.S T) ML_KEM_768 eb c K : Attacker2 MlKem768Params.CiphertextSize).AtMost 2) ∧
    ∀ (T : XofTable) (d : Bool → B32),
      (∀ i, SeedOk (withXof Toy.S T) ML_KEM_768.k (seeds (withXof Toy.S T) ML_KEM_768 (d i).toList).1) →
      ∀ z m G J,
        Told (withXof Toy.S T) MlKem768Params (searcherTold (withXof Toy.S T) ML_KEM_768) true d z m G J ∧
        ∃ m' h' c K', decapsBy (withXof Toy.S T) ML_KEM_768 G J (d true) (z true) c = K' ∧
          (Told (withXof Toy.S T) MlKem768Params (searcherTold (withXof Toy.S T) ML_KEM_768) false d z m G J
          ↔ (G m' h').1 = K') := by
  refine ⟨supported_768, .inr (.inl rfl), fun _ T eb c K => ⟨1, rfl, fun _ => ⟨0, rfl, fun a => trivial⟩⟩,
    fun T d hs z m G J => ⟨?_, ?_⟩⟩
  · rw [told_iff _ supported_768 _ _ hs]
    have := (searcher_attack supported_768 (toy_correct_xof T) id (d true) (z true) m G J (hs true)).2 rfl
    rw [attack_iff _ supported_768 _ _ (hs true)] at this
    unfold SaysTold searcherTold
    rw [Attacker2.output, onTrue_output]
    have k : decapsBy (withXof Toy.S T) ML_KEM_768 G J (d true) (z true)
        (encrypt (withXof Toy.S T) ML_KEM_768 MlKem768Params.CiphertextSize
          (KPKE_KeyGen (withXof Toy.S T) ML_KEM_768 (d true).toList).1 m (G m (keyHash (withXof Toy.S T) ML_KEM_768 (d true))).2)
        = (G m (keyHash (withXof Toy.S T) ML_KEM_768 (d true))).1 := by
      refine keyOf_enc (k := fun m => (G m (keyHash (withXof Toy.S T) ML_KEM_768 (d true))).1)
        (r := fun m => (G m (keyHash (withXof Toy.S T) ML_KEM_768 (d true))).2) fun hf => ?_
      exact toy_correct_xof T _ _ _ ((fail_iff (withXof Toy.S T) supported_768 _ m _).1 hf)
    dsimp only
    rw [k]
    refine Eq.trans (congrArg (fun D => Attacker.output G J D _) ?_) this
    unfold decapsBy
    congr
  · rw [told_iff _ supported_768 _ _ hs]
    unfold SaysTold searcherTold
    rw [Attacker2.output, onTrue_output]
    unfold searcher
    simp only [Attacker.output]
    exact ⟨_, _, _, _, rfl, decide_eq_true_iff⟩

end
end MlKem
