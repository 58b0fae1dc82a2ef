import Verif.Props.Complete
import Verif.Spec.ManyUsers
/-! C89: the modelled code is secure for many users and many messages at once. -/
set_option linter.unusedSectionVars false
set_option synthInstance.maxSize 1000

namespace MlKem
open Rust Fips203 Finset BigOperators Fo

section
variable {ι τ : Type}

/-- Every user `i` generates a key from `d i` and `z i`; for every challenge `j`, `m j` is encapsulated for the user `w j`.
The attacker is given the public keys, the ciphertexts and the shared keys (or other strings, `key`). It may ask for `G`,
for `J`, and for decapsulations: with the key of the user `i`, of all ciphertexts but the challenges `j` with `R i j`. It
ends with the guess `true`. -/
def ManyUsers [Build] (S : Sha3) (P : ParameterSet) (R : ι → τ → Prop) (w : τ → ι)
    (A : (ι → P.EncodedEncryptionKey) → (τ → P.EncodedCiphertext) → (τ → B32) → AttackerN ι P.CiphertextSize)
    (key : (τ → B32) → τ → B32) (d z : ι → B32) (m : τ → B32) (G : B32 → B32 → B32 × B32)
    (J : B32 → P.EncodedCiphertext → B32) : Prop :=
  open Classical in
  ∃ (dk : ι → DecapsulationKey P) (ek : ι → EncapsulationKey P) (eb : ι → P.EncodedEncryptionKey)
    (c : τ → P.EncodedCiphertext) (K : τ → SharedKey),
    (∀ i, Kem.generate_deterministic (withOracles S G J) P (d i) (z i) = .ok (dk i, ek i) ∧ (ek i).as_bytes = .ok (eb i)) ∧
    (∀ j, (ek (w j)).encapsulate_deterministic (withOracles S G J) (m j) = .ok (c j, K j)) ∧
    (A eb c (key K)).output G J (fun i c' =>
      if ∃ j, R i j ∧ c' = c j then none else
        match (dk i).decapsulate (withOracles S G J) c' with
        | .ok K' => some K'
        | _ => none) = true

/-- The same with ciphertexts `c` and keys `K` that have nothing to do with the users' keys -/
def ManyUsersOn [Build] (S : Sha3) (P : ParameterSet) (R : ι → τ → Prop)
    (A : (ι → P.EncodedEncryptionKey) → (τ → P.EncodedCiphertext) → (τ → B32) → AttackerN ι P.CiphertextSize)
    (c : τ → P.EncodedCiphertext) (K : τ → B32) (d z : ι → B32) (G : B32 → B32 → B32 × B32)
    (J : B32 → P.EncodedCiphertext → B32) : Prop :=
  open Classical in
  ∃ (dk : ι → DecapsulationKey P) (ek : ι → EncapsulationKey P) (eb : ι → P.EncodedEncryptionKey),
    (∀ i, Kem.generate_deterministic (withOracles S G J) P (d i) (z i) = .ok (dk i, ek i) ∧ (ek i).as_bytes = .ok (eb i)) ∧
    (A eb c K).output G J (fun i c' =>
      if ∃ j, R i j ∧ c' = c j then none else
        match (dk i).decapsulate (withOracles S G J) c' with
        | .ok K' => some K'
        | _ => none) = true

end

/-! ### Averages over images -/

section
variable {α β γ δ : Type} [Fintype α] [Fintype β] [Fintype γ] [Fintype δ]

/-- A map that hits all values equally often -/
def Even (φ : α → β) : Prop := ∀ f : β → ℝ, 𝔼 a, f (φ a) = 𝔼 b, f b

theorem Even.equiv (φ : α ≃ β) : Even φ := fun _ => Fintype.expect_equiv φ _ _ fun _ => rfl

theorem Even.comp {φ : α → β} {ψ : β → γ} (h : Even ψ) (h' : Even φ) : Even fun a => ψ (φ a) :=
  fun f => (h' fun b => f (ψ b)).trans (h f)

theorem Even.map {φ : α → β} {ψ : γ → δ} (h : Even φ) (h' : Even ψ) : Even (Prod.map φ ψ) := by
  intro f
  rw [expect_prod_type, expect_prod_type]
  refine (Finset.expect_congr rfl fun a _ => h' fun d => f (φ a, d)).trans ?_
  exact h fun b => 𝔼 d, f (b, d)

theorem Even.id : Even (id : α → α) := fun _ => rfl

theorem Even.fst [Nonempty β] : Even (Prod.fst : α × β → α) := by
  intro f
  rw [expect_prod_type]
  exact Finset.expect_congr rfl fun a _ => Fintype.expect_const (f a)

theorem Even.prob {φ : α → β} (h : Even φ) (E : β → Prop) : prob (fun a => E (φ a)) = Fips203.prob E := by
  rw [prob_ind, prob_ind]
  exact h fun b => ind (E b)

variable {κ : Type} [Fintype κ] [DecidableEq κ]

theorem Even.update [Nonempty α] (i : κ) : Even fun x : α × (κ → α) => Function.update x.2 i x.1 := by
  intro f
  have hswap : Function.Bijective fun x : α × (κ → α) => (x.2 i, Function.update x.2 i x.1) := by
    refine Function.Involutive.bijective fun x => ?_
    simp
  have h2 := Fintype.expect_bijective _ hswap
    (fun x : α × (κ → α) => f (Function.update x.2 i x.1)) (fun x => f x.2) (fun x => rfl)
  rw [h2, expect_prod_type]
  exact Fintype.expect_const (𝔼 b, f b)

theorem abs_prob_sub {E E' B : α → Prop} (h : ∀ a, ¬ B a → (E a ↔ E' a)) :
    |prob E - prob E'| ≤ prob B := by
  rw [prob_ind, prob_ind, prob_ind]
  exact abs_expect_sub fun a => abs_ind_sub (h a)

end

section
variable (S : Sha3) {p : Params} {ι : Type} {n : Nat}

theorem withKeys_atMost (b : ι) (d z : ι → B32) (R : ι → Bytes n → Prop) (A : AttackerN ι n) {q : Nat} (h : A.AtMost q) :
    (A.withKeys S p b d z R).AtMost (2 * q) := by
  induction A generalizing q with
  | guess g => trivial
  | hashG m a next ih =>
    obtain ⟨q, rfl, h⟩ := h
    exact ⟨2 * q + 1, by ring, fun x => atMost_mono _ (ih x (h x)) (Nat.le_succ _)⟩
  | hashJ z' c next ih =>
    obtain ⟨q, rfl, h⟩ := h
    exact ⟨2 * q + 1, by ring, fun x => atMost_mono _ (ih x (h x)) (Nat.le_succ _)⟩
  | decaps i c next ih =>
    obtain ⟨q, rfl, h⟩ := h
    unfold AttackerN.withKeys
    split
    · exact atMost_mono _ (ih _ (h _)) (by omega)
    · split
      · exact ⟨2 * q + 1, by ring, fun x => atMost_mono _ (ih x (h x)) (Nat.le_succ _)⟩
      · exact ⟨2 * q + 1, by ring, fun x => ⟨2 * q, rfl, fun y => ih _ (h _)⟩⟩

open Classical in
/-- Decapsulation with all keys, but for the challenges -/
noncomputable def decapsN (S : Sha3) (p : Params) (G : B32 → B32 → B32 × B32) (J : B32 → Bytes n → B32) (d z : ι → B32)
    (R : ι → Bytes n → Prop) (i : ι) (c : Bytes n) : Option B32 :=
  if R i c then none else some (decapsBy S p G J (d i) (z i) c)

theorem withKeys_output [DecidableEq ι] (b : ι) (d z : ι → B32) (d0 z0 : B32) (R : ι → Bytes n → Prop)
    (G : B32 → B32 → B32 × B32) (J : B32 → Bytes n → B32) (c0 : Bytes n) (hR : R b c0) (A : AttackerN ι n) :
    (A.withKeys S p b d z R).output G J (simD c0 (decapsBy S p G J d0 z0))
      = A.output G J (decapsN S p G J (Function.update d b d0) (Function.update z b z0) R) := by
  induction A with
  | guess g => rfl
  | hashG m a next ih => exact ih _
  | hashJ z' c next ih => exact ih _
  | decaps i c next ih =>
    unfold AttackerN.withKeys AttackerN.output
    unfold decapsN
    by_cases hr : R i c
    · simp only [if_pos hr]
      exact ih _
    · simp only [if_neg hr]
      by_cases hi : i = b
      · subst hi
        have hc : c ≠ c0 := fun e => hr (e ▸ hR)
        rw [if_pos rfl, Function.update_self, Function.update_self]
        unfold Attacker.output
        rw [simD, if_neg hc]
        exact ih _
      · rw [if_neg hi, Function.update_of_ne hi, Function.update_of_ne hi]
        simp only [Attacker.output]
        rw [ih]
        refine congrArg (fun x => AttackerN.output G J _ (next (some x))) ?_
        unfold decapsBy Fo.keyOf decrypt keyHash
        congr

end

section
variable (S : Sha3) {p : Params} {u t e n : Nat}

theorem encapsAll_atMost (ek : Fin u → Bytes e) (w : Fin t → Fin u) (m : Fin t → B32)
    (next : (Fin t → Bytes n × B32) → Attacker n) {q : Nat} (h : ∀ ch, (next ch).AtMost q) (l : List (Fin t))
    (ch : Fin t → Bytes n × B32) : (encapsAll S p ek w m next l ch).AtMost (q + l.length) := by
  induction l generalizing ch with
  | nil => exact h ch
  | cons j l ih => exact ⟨q + l.length, rfl, fun a => ih _⟩

theorem encapsAll_output (ek : Fin u → Bytes e) (w : Fin t → Fin u) (m : Fin t → B32)
    (next : (Fin t → Bytes n × B32) → Attacker n) (G : B32 → B32 → B32 × B32) (J : B32 → Bytes n → B32)
    (D : Bytes n → Option B32) (l : List (Fin t)) (ch : Fin t → Bytes n × B32) :
    (encapsAll S p ek w m next l ch).output G J D
      = (next fun j => if j ∈ l then
          (encrypt S p n (ek (w j)).toList (m j) (G (m j) (Fips203.bytes 32 (Fips203.H S (ek (w j)).toList))).2,
            (G (m j) (Fips203.bytes 32 (Fips203.H S (ek (w j)).toList))).1) else ch j).output G J D := by
  induction l generalizing ch with
  | nil => simp [encapsAll]
  | cons j l ih =>
    unfold encapsAll
    simp only [Attacker.output]
    rw [ih]
    refine congrArg (fun f => Attacker.output G J D (next f)) (funext fun i => ?_)
    by_cases hl : i ∈ l
    · rw [if_pos hl, if_pos (List.mem_cons_of_mem _ hl)]
    · rw [if_neg hl]
      by_cases hi : i = j
      · subst hi
        rw [Function.update_self, if_pos List.mem_cons_self]
      · rw [Function.update_of_ne hi, if_neg fun h => (List.mem_cons.1 h).elim hi hl]

end

section
variable [Build] (S : Sha3) {P : ParameterSet} {p : Params} {u t : Nat}

/-- What an attacker says about ciphertexts and keys -/
def SaysN (S : Sha3) {p : Params} (R : Fin u → Fin t → Prop)
    (A : (Fin u → P.EncodedEncryptionKey) → (Fin t → P.EncodedCiphertext) → (Fin t → B32) → AttackerN (Fin u) P.CiphertextSize)
    (ch : Fin t → P.EncodedCiphertext × B32) (d z : Fin u → B32) (G : B32 → B32 → B32 × B32)
    (J : B32 → P.EncodedCiphertext → B32) : Prop :=
  (A (fun i => Fips203.bytes _ (KPKE_KeyGen S p (d i).toList).1) (fun j => (ch j).1) (fun j => (ch j).2)).output G J
    (decapsN S p G J d z fun i c' => ∃ j, R i j ∧ c' = (ch j).1) = true

/-- The ciphertext and shared key that encapsulating `m` returns for the key generated from `d` -/
noncomputable def madeFor (S : Sha3) (p : Params) {n : Nat} (G : B32 → B32 → B32 × B32) (d m : B32) : Bytes n × B32 :=
  (encrypt S p _ (KPKE_KeyGen S p d.toList).1 m (G m (keyHash S p d)).2, (G m (keyHash S p d)).1)

theorem manyUsers_iff (h : Supported P p) (R : Fin u → Fin t → Prop) (w : Fin t → Fin u)
    (A : (Fin u → P.EncodedEncryptionKey) → (Fin t → P.EncodedCiphertext) → (Fin t → B32) → AttackerN (Fin u) P.CiphertextSize)
    {d : Fin u → B32} (hs : ∀ i, SeedOk S p.k (seeds S p (d i).toList).1) (z : Fin u → B32) (m : Fin t → B32)
    (G : B32 → B32 → B32 × B32) (J : B32 → P.EncodedCiphertext → B32) :
    ManyUsers S P R w A id d z m G J ↔ SaysN S (p := p) R A (fun j => madeFor S p G (d (w j)) (m j)) d z G J := by
  have hr := fun i => run_ok S h (hs i) (z i) G J
  choose dk ek h1 h2 h3 h4 using hr
  unfold ManyUsers SaysN
  constructor
  · rintro ⟨dk', ek', eb, c, K, g1, g3, g4⟩
    have hdk : ∀ i, dk' i = dk i ∧ ek' i = ek i := fun i => Prod.mk.inj (Res.ok.inj ((g1 i).1.symm.trans (h1 i)))
    obtain rfl : dk' = dk := funext fun i => (hdk i).1
    obtain rfl : ek' = ek := funext fun i => (hdk i).2
    obtain rfl : eb = _ := funext fun i => Res.ok.inj ((g1 i).2.symm.trans (h2 i))
    have hc := fun j => Prod.mk.inj (Res.ok.inj ((g3 j).symm.trans (h3 (w j) (m j))))
    obtain rfl : c = _ := funext fun j => (hc j).1
    obtain rfl : K = _ := funext fun j => (hc j).2
    simp only [h4] at g4
    refine Eq.trans ?_ g4
    unfold decapsN decapsBy
    congr 1
  · intro g4
    refine ⟨dk, ek, _, _, _, fun i => ⟨h1 i, h2 i⟩, fun j => h3 (w j) (m j), ?_⟩
    simp only [h4]
    refine Eq.trans ?_ g4
    unfold decapsN decapsBy
    congr 1

theorem manyUsersOn_iff (h : Supported P p) (R : Fin u → Fin t → Prop)
    (A : (Fin u → P.EncodedEncryptionKey) → (Fin t → P.EncodedCiphertext) → (Fin t → B32) → AttackerN (Fin u) P.CiphertextSize)
    (c : Fin t → P.EncodedCiphertext) (K : Fin t → B32)
    {d : Fin u → B32} (hs : ∀ i, SeedOk S p.k (seeds S p (d i).toList).1) (z : Fin u → B32)
    (G : B32 → B32 → B32 × B32) (J : B32 → P.EncodedCiphertext → B32) :
    ManyUsersOn S P R A c K d z G J ↔ SaysN S (p := p) R A (fun j => (c j, K j)) d z G J := by
  have hr := fun i => run_ok S h (hs i) (z i) G J
  choose dk ek h1 h2 h3 h4 using hr
  unfold ManyUsersOn SaysN
  constructor
  · rintro ⟨dk', ek', eb, g1, g4⟩
    have hdk : ∀ i, dk' i = dk i ∧ ek' i = ek i := fun i => Prod.mk.inj (Res.ok.inj ((g1 i).1.symm.trans (h1 i)))
    obtain rfl : dk' = dk := funext fun i => (hdk i).1
    obtain rfl : ek' = ek := funext fun i => (hdk i).2
    obtain rfl : eb = _ := funext fun i => Res.ok.inj ((g1 i).2.symm.trans (h2 i))
    simp only [h4] at g4
    refine Eq.trans ?_ g4
    unfold decapsN decapsBy
    congr 1
  · intro g4
    refine ⟨dk, ek, _, fun i => ⟨h1 i, h2 i⟩, ?_⟩
    simp only [h4]
    refine Eq.trans ?_ g4
    unfold decapsN decapsBy
    congr 1

/-- The challenges when the first `r` are replaced -/
noncomputable def mixed (S : Sha3) (p : Params) {n : Nat} (r : Nat) (w : Fin t → Fin u) (d : Fin u → B32) (m : Fin t → B32)
    (C : Fin t → (Fin p.k → Poly) × Poly) (K : Fin t → B32) (G : B32 → B32 → B32 × B32) (j : Fin t) : Bytes n × B32 :=
  if j.val < r then (packCipher p n (C j).1 (C j).2, K j) else madeFor S p G (d (w j)) (m j)

theorem ek_toList (h : Supported P p) (d : B32) :
    (Fips203.bytes P.EncryptionKeySize (KPKE_KeyGen S p d.toList).1).toList = (KPKE_KeyGen S p d.toList).1 := by
  refine toList_bytesOf ?_
  obtain rfl := h.eq
  rw [KPKE_KeyGen_eq, List.length_append, enc12_length, (seeds_length S P.toParams d.toList).1]

variable {Ω : Type}

theorem hybrid_output (h : Supported P p) {R : Fin u → Fin t → Prop} {w : Fin t → Fin u} (hR : ∀ j, R (w j) j)
    (A : Ω → XofTable → (Fin u → P.EncodedEncryptionKey) → (Fin t → P.EncodedCiphertext) → (Fin t → B32) →
      AttackerN (Fin u) P.CiphertextSize) (r : Fin t) (T : XofTable) (o : Ω) (d z : Fin u → B32) (m : Fin t → B32)
    (C : Fin t → (Fin p.k → Poly) × Poly) (K : Fin t → B32) (d0 z0 : B32) (c0 : P.EncodedCiphertext) (K0 : B32)
    (G : B32 → B32 → B32 × B32) (J : B32 → P.EncodedCiphertext → B32) :
    (hybrid S p A R w r (o, d, z, m, C, K) T (Fips203.bytes _ (KPKE_KeyGen (withXof S T) p d0.toList).1) c0 K0).output G J
        (simD c0 (decapsBy (withXof S T) p G J d0 z0)) = true ↔
      SaysN (withXof S T) (p := p) R (A o T)
        (fun j => if j = r then (c0, K0) else
          mixed (withXof S T) p r w (Function.update d (w r) d0) m C K G j)
        (Function.update d (w r) d0) (Function.update z (w r) z0) G J := by
  have hek : (fun i => if i = w r then Fips203.bytes P.EncryptionKeySize (KPKE_KeyGen (withXof S T) p d0.toList).1
      else Fips203.bytes _ (KPKE_KeyGen (withXof S T) p (d i).toList).1)
      = fun i => Fips203.bytes _ (KPKE_KeyGen (withXof S T) p (Function.update d (w r) d0 i).toList).1 := by
    funext i
    by_cases hi : i = w r
    · subst hi; rw [if_pos rfl, Function.update_self]
    · rw [if_neg hi, Function.update_of_ne hi]
  have hch : (fun j => if j ∈ (List.finRange t).filter fun j => r < j then
        (encrypt (withXof S T) p P.CiphertextSize
            (Fips203.bytes P.EncryptionKeySize
              (KPKE_KeyGen (withXof S T) p (Function.update d (w r) d0 (w j)).toList).1).toList (m j)
            (G (m j) (Fips203.bytes 32 (Fips203.H (withXof S T) (Fips203.bytes P.EncryptionKeySize
              (KPKE_KeyGen (withXof S T) p (Function.update d (w r) d0 (w j)).toList).1).toList))).2,
          (G (m j) (Fips203.bytes 32 (Fips203.H (withXof S T) (Fips203.bytes P.EncryptionKeySize
              (KPKE_KeyGen (withXof S T) p (Function.update d (w r) d0 (w j)).toList).1).toList))).1)
        else if j = r then (c0, K0) else (packCipher p P.CiphertextSize (C j).1 (C j).2, K j))
      = fun j => if j = r then (c0, K0) else mixed (withXof S T) p r w (Function.update d (w r) d0) m C K G j := by
    funext j
    simp only [ek_toList (withXof S T) h]
    unfold mixed
    by_cases hj : r < j
    · rw [if_pos (by simpa using hj), if_neg (ne_of_gt hj), if_neg (by have := Fin.lt_def.1 hj; omega)]
      rfl
    · rw [if_neg (by simpa using hj)]
      by_cases he : j = r
      · rw [if_pos he, if_pos he]
      · rw [if_neg he, if_neg he, if_pos]
        exact Fin.lt_def.1 (lt_of_le_of_ne (not_lt.1 hj) he)
  unfold hybrid
  simp only
  rw [hek, encapsAll_output, hch, withKeys_output _ _ _ _ _ _ _ _ _ _ ⟨r, hR r, by simp only [if_true]⟩]
  rfl

theorem real_point (h : Supported P p) {R : Fin u → Fin t → Prop} {w : Fin t → Fin u} (hR : ∀ j, R (w j) j)
    (A : Ω → XofTable → (Fin u → P.EncodedEncryptionKey) → (Fin t → P.EncodedCiphertext) → (Fin t → B32) →
      AttackerN (Fin u) P.CiphertextSize) (r : Fin t) (T : XofTable) (o : Ω) (d z : Fin u → B32) (m : Fin t → B32)
    (C : Fin t → (Fin p.k → Poly) × Poly) (K : Fin t → B32) {d0 : B32}
    (hs : SeedOk (withXof S T) p.k (seeds (withXof S T) p d0.toList).1) (z0 m0 : B32)
    (G : B32 → B32 → B32 × B32) (J : B32 → P.EncodedCiphertext → B32) :
    Attack (withXof S T) P (hybrid S p A R w r (o, d, z, m, C, K) T) id d0 z0 m0 G J ↔
      SaysN (withXof S T) (p := p) R (A o T)
        (mixed (withXof S T) p r w (Function.update d (w r) d0) (Function.update m r m0) C K G)
        (Function.update d (w r) d0) (Function.update z (w r) z0) G J := by
  have e : (fun j => if j = r then (madeFor (withXof S T) p G d0 m0 : P.EncodedCiphertext × B32) else
        mixed (withXof S T) p r w (Function.update d (w r) d0) m C K G j)
      = mixed (withXof S T) p r w (Function.update d (w r) d0) (Function.update m r m0) C K G := by
    funext j
    unfold mixed
    by_cases hj : j = r
    · subst hj
      rw [if_pos rfl, if_neg (lt_irrefl _), Function.update_self, Function.update_self]
    · rw [if_neg hj, Function.update_of_ne hj]
  rw [attack_iff (withXof S T) h _ _ hs, ← e]
  refine Iff.trans (iff_of_eq (congrArg (· = true) ?_)) (hybrid_output S h hR A r T o d z m C K d0 z0
    (madeFor (withXof S T) p G d0 m0).1 (madeFor (n := P.CiphertextSize) (withXof S T) p G d0 m0).2 G J)
  unfold decapsBy
  refine congrArg (fun D => Attacker.output G J D _) ?_
  congr

theorem ideal_point (h : Supported P p) {R : Fin u → Fin t → Prop} {w : Fin t → Fin u} (hR : ∀ j, R (w j) j)
    (A : Ω → XofTable → (Fin u → P.EncodedEncryptionKey) → (Fin t → P.EncodedCiphertext) → (Fin t → B32) →
      AttackerN (Fin u) P.CiphertextSize) (r : Fin t) (T : XofTable) (o : Ω) (d z : Fin u → B32) (m : Fin t → B32)
    (C : Fin t → (Fin p.k → Poly) × Poly) (K : Fin t → B32) {d0 : B32}
    (hs : SeedOk (withXof S T) p.k (seeds (withXof S T) p d0.toList).1) (z0 : B32) (uv : (Fin p.k → Poly) × Poly) (K0 : B32)
    (G : B32 → B32 → B32 × B32) (J : B32 → P.EncodedCiphertext → B32) :
    AttackOn (withXof S T) P (hybrid S p A R w r (o, d, z, m, C, K) T) (packCipher p _ uv.1 uv.2) K0 d0 z0 G J ↔
      SaysN (withXof S T) (p := p) R (A o T)
        (mixed (withXof S T) p (r + 1) w (Function.update d (w r) d0) m (Function.update C r uv) (Function.update K r K0) G)
        (Function.update d (w r) d0) (Function.update z (w r) z0) G J := by
  have e : (fun j => if j = r then ((packCipher p _ uv.1 uv.2, K0) : P.EncodedCiphertext × B32) else
        mixed (withXof S T) p r w (Function.update d (w r) d0) m C K G j)
      = mixed (withXof S T) p (r + 1) w (Function.update d (w r) d0) m (Function.update C r uv) (Function.update K r K0) G := by
    funext j
    unfold mixed
    by_cases hj : j = r
    · subst hj
      rw [if_pos rfl, if_pos (Nat.lt_succ_self _), Function.update_self, Function.update_self]
    · rw [if_neg hj, Function.update_of_ne hj, Function.update_of_ne hj]
      have : (j.val < r.val + 1) ↔ j.val < r.val := by
        have := fun e => hj (Fin.ext e)
        omega
      simp only [this]
  rw [attackOn_iff (withXof S T) h _ _ _ hs, ← e]
  refine Iff.trans (iff_of_eq (congrArg (· = true) ?_)) (hybrid_output S h hR A r T o d z m C K d0 z0 _ _ G J)
  unfold decapsBy
  refine congrArg (fun D => Attacker.output G J D _) ?_
  congr

variable [Fintype Ω] [Nonempty Ω]

/-- What the attack with some challenges replaced chooses at random -/
abbrev ManyCoins (P : ParameterSet) (p : Params) (u t : Nat) (Ω : Type) : Type :=
  XofTable × (Fin u → B32) × (Fin u → B32) × (Fin t → B32) × (Fin t → (Fin p.k → Poly) × Poly) × (Fin t → B32) × Ω ×
    (B32 → B32 → B32 × B32) × (B32 → P.EncodedCiphertext → B32)

/-- The attack when the first `r` challenges are replaced -/
noncomputable def game (S : Sha3) (p : Params) (R : Fin u → Fin t → Prop) (w : Fin t → Fin u)
    (A : Ω → XofTable → (Fin u → P.EncodedEncryptionKey) → (Fin t → P.EncodedCiphertext) → (Fin t → B32) →
      AttackerN (Fin u) P.CiphertextSize) (r : Nat) : ℝ :=
  prob (fun ((T, d, z, m, C, K, o, G, J) : ManyCoins P p u t Ω) =>
    SaysN (withXof S T) (p := p) R (A o T) (mixed (withXof S T) p r w d m C K G) d z G J)

theorem prob_seed_one (S : Sha3) (p : Params) :
    prob (fun ((T, d) : XofTable × B32) => ¬ SeedOk (withXof S T) p.k (seeds (withXof S T) p d.toList).1)
      ≤ p.k ^ 2 * (2 : ℝ) ^ (-261 : ℤ) := by
  rw [prob_ind, expect_prod_type]
  exact expect_seed_le S p

theorem real_game (h : Supported P p) {R : Fin u → Fin t → Prop} {w : Fin t → Fin u} (hR : ∀ j, R (w j) j)
    (A : Ω → XofTable → (Fin u → P.EncodedEncryptionKey) → (Fin t → P.EncodedCiphertext) → (Fin t → B32) →
      AttackerN (Fin u) P.CiphertextSize) (r : Fin t) :
    |prob (fun (T, d, m, o, G, z, J) => Attack (withXof S T) P (hybrid S p A R w r o T) id d z m G J) - game S p R w A r|
      ≤ p.k ^ 2 * (2 : ℝ) ^ (-261 : ℤ) := by
  have ev : Even (fun ((T, d0, m0, (o, d, z, m, C, K), G, z0, J) : XofTable × B32 × B32 × HybridCoins p u t Ω ×
      (B32 → B32 → B32 × B32) × B32 × (B32 → P.EncodedCiphertext → B32)) =>
      (T, Function.update d (w r) d0, Function.update z (w r) z0, Function.update m r m0, C, K, o, G, J)) :=
    (Even.map (Even.id (α := XofTable)) (Even.map (Even.update (α := B32) (w r)) (Even.map (Even.update (α := B32) (w r))
      (Even.map (Even.update (α := B32) r) Even.id)))).comp
      (Even.equiv (α := XofTable × B32 × B32 × HybridCoins p u t Ω × (B32 → B32 → B32 × B32) × B32 × (B32 → P.EncodedCiphertext → B32))
        (β := XofTable × (B32 × (Fin u → B32)) × (B32 × (Fin u → B32)) × (B32 × (Fin t → B32)) × (Fin t → (Fin p.k → Poly) × Poly) ×
          (Fin t → B32) × Ω × (B32 → B32 → B32 × B32) × (B32 → P.EncodedCiphertext → B32))
        { toFun := fun (T, d0, m0, (o, d, z, m, C, K), G, z0, J) => (T, (d0, d), (z0, z), (m0, m), C, K, o, G, J)
          invFun := fun (T, (d0, d), (z0, z), (m0, m), C, K, o, G, J) => (T, d0, m0, (o, d, z, m, C, K), G, z0, J)
          left_inv := fun _ => rfl
          right_inv := fun _ => rfl })
  have es : Even (fun ((T, d0, m0, (o, d, z, m, C, K), G, z0, J) : XofTable × B32 × B32 × HybridCoins p u t Ω ×
      (B32 → B32 → B32 × B32) × B32 × (B32 → P.EncodedCiphertext → B32)) => (T, d0)) :=
    Even.map Even.id Even.fst
  unfold game
  rw [← ev.prob]
  refine (abs_prob_sub fun x hx => ?_).trans ((es.prob _).le.trans (prob_seed_one S p))
  obtain ⟨T, d0, m0, ⟨o, d, z, m, C, K⟩, G, z0, J⟩ := x
  exact real_point S h hR A r T o d z m C K (not_not.1 hx) z0 m0 G J

theorem ideal_game (h : Supported P p) {R : Fin u → Fin t → Prop} {w : Fin t → Fin u} (hR : ∀ j, R (w j) j)
    (A : Ω → XofTable → (Fin u → P.EncodedEncryptionKey) → (Fin t → P.EncodedCiphertext) → (Fin t → B32) →
      AttackerN (Fin u) P.CiphertextSize) (r : Fin t) :
    |prob (fun (T, d, u, v, o, K, G, z, J) =>
        AttackOn (withXof S T) P (hybrid S p A R w r o T) (packCipher p _ u v) K d z G J) - game S p R w A (r + 1)|
      ≤ p.k ^ 2 * (2 : ℝ) ^ (-261 : ℤ) := by
  have ev : Even (fun ((T, d0, u0, v0, (o, d, z, m, C, K), K0, G, z0, J) : XofTable × B32 × (Fin p.k → Poly) × Poly ×
      HybridCoins p u t Ω × B32 × (B32 → B32 → B32 × B32) × B32 × (B32 → P.EncodedCiphertext → B32)) =>
      (T, Function.update d (w r) d0, Function.update z (w r) z0, m, Function.update C r (u0, v0), Function.update K r K0,
        o, G, J)) :=
    (Even.map (Even.id (α := XofTable)) (Even.map (Even.update (α := B32) (w r)) (Even.map (Even.update (α := B32) (w r))
      (Even.map (Even.id (α := Fin t → B32)) (Even.map (Even.update (α := (Fin p.k → Poly) × Poly) r)
        (Even.map (Even.update (α := B32) r) Even.id)))))).comp
      (Even.equiv (α := XofTable × B32 × (Fin p.k → Poly) × Poly × HybridCoins p u t Ω × B32 × (B32 → B32 → B32 × B32) × B32 ×
          (B32 → P.EncodedCiphertext → B32))
        (β := XofTable × (B32 × (Fin u → B32)) × (B32 × (Fin u → B32)) × (Fin t → B32) ×
          (((Fin p.k → Poly) × Poly) × (Fin t → (Fin p.k → Poly) × Poly)) × (B32 × (Fin t → B32)) × Ω ×
          (B32 → B32 → B32 × B32) × (B32 → P.EncodedCiphertext → B32))
        { toFun := fun (T, d0, u0, v0, (o, d, z, m, C, K), K0, G, z0, J) =>
            (T, (d0, d), (z0, z), m, ((u0, v0), C), (K0, K), o, G, J)
          invFun := fun (T, (d0, d), (z0, z), m, ((u0, v0), C), (K0, K), o, G, J) =>
            (T, d0, u0, v0, (o, d, z, m, C, K), K0, G, z0, J)
          left_inv := fun _ => rfl
          right_inv := fun _ => rfl })
  have es : Even (fun ((T, d0, u0, v0, (o, d, z, m, C, K), K0, G, z0, J) : XofTable × B32 × (Fin p.k → Poly) × Poly ×
      HybridCoins p u t Ω × B32 × (B32 → B32 → B32 × B32) × B32 × (B32 → P.EncodedCiphertext → B32)) => (T, d0)) :=
    Even.map Even.id Even.fst
  unfold game
  rw [← ev.prob]
  refine (abs_prob_sub fun x hx => ?_).trans ((es.prob _).le.trans (prob_seed_one S p))
  obtain ⟨T, d0, u0, v0, ⟨o, d, z, m, C, K⟩, K0, G, z0, J⟩ := x
  exact ideal_point S h hR A r T o d z m C K (not_not.1 hx) z0 (u0, v0) K0 G J

theorem prob_seed_at (S : Sha3) (p : Params) (i : Fin u) :
    prob (fun x : XofTable × (Fin u → B32) => ¬ SeedOk (withXof S x.1) p.k (seeds (withXof S x.1) p (x.2 i).toList).1)
      ≤ p.k ^ 2 * (2 : ℝ) ^ (-261 : ℤ) := by
  have ev : Even (fun (x : (XofTable × B32) × (Fin u → B32)) => (x.1.1, Function.update x.2 i x.1.2)) :=
    (Even.map (Even.id (α := XofTable)) (Even.update (α := B32) i)).comp (Even.equiv (Equiv.prodAssoc _ _ _))
  rw [← ev.prob]
  refine le_trans (le_of_eq ?_) (prob_seed_one S p)
  rw [← (Even.fst (α := XofTable × B32) (β := Fin u → B32)).prob]
  refine congrArg prob (funext fun x => ?_)
  simp only [Function.update_self]

/-- Some user's matrix does not exist. -/
theorem prob_seeds_le (S : Sha3) (p : Params) (u : Nat) :
    prob (fun ((T, d) : XofTable × (Fin u → B32)) => ¬ ∀ i, SeedOk (withXof S T) p.k (seeds (withXof S T) p (d i).toList).1)
      ≤ u * (p.k ^ 2 * (2 : ℝ) ^ (-261 : ℤ)) := by
  have some := prob_exists_le _ (prob_seed_at (u := u) S p) (List.finRange u)
  rw [List.length_finRange] at some
  refine le_trans (prob_mono ?_) some
  intro x hx
  obtain ⟨i, hi⟩ := not_forall.1 hx
  exact ⟨i, List.mem_finRange i, hi⟩

theorem first_game (h : Supported P p) (R : Fin u → Fin t → Prop) (w : Fin t → Fin u)
    (A : Ω → XofTable → (Fin u → P.EncodedEncryptionKey) → (Fin t → P.EncodedCiphertext) → (Fin t → B32) →
      AttackerN (Fin u) P.CiphertextSize) :
    |prob (fun (T, d, z, m, o, G, J) => ManyUsers (withXof S T) P R w (A o T) id d z m G J) - game S p R w A 0|
      ≤ u * (p.k ^ 2 * (2 : ℝ) ^ (-261 : ℤ)) := by
  have ev : Even (fun ((T, d, z, m, C, K, o, G, J) : ManyCoins P p u t Ω) =>
      (T, d, z, m, o, G, J)) :=
    (Even.fst (β := (Fin t → (Fin p.k → Poly) × Poly) × (Fin t → B32))).comp
      (Even.equiv (α := ManyCoins P p u t Ω)
        (β := (XofTable × (Fin u → B32) × (Fin u → B32) × (Fin t → B32) × Ω × (B32 → B32 → B32 × B32) ×
          (B32 → P.EncodedCiphertext → B32)) × (Fin t → (Fin p.k → Poly) × Poly) × (Fin t → B32))
        { toFun := fun (T, d, z, m, C, K, o, G, J) => ((T, d, z, m, o, G, J), C, K)
          invFun := fun ((T, d, z, m, o, G, J), C, K) => (T, d, z, m, C, K, o, G, J)
          left_inv := fun _ => rfl
          right_inv := fun _ => rfl })
  have es : Even (fun ((T, d, z, m, C, K, o, G, J) : ManyCoins P p u t Ω) =>
      (T, d)) := Even.map Even.id Even.fst
  unfold game
  rw [← ev.prob]
  refine (abs_prob_sub fun x hx => ?_).trans ((es.prob _).le.trans (prob_seeds_le S p u))
  obtain ⟨T, d, z, m, C, K, o, G, J⟩ := x
  exact manyUsers_iff (withXof S T) h R w (A o T) (not_not.1 hx) z m G J

theorem last_game (h : Supported P p) (R : Fin u → Fin t → Prop) (w : Fin t → Fin u)
    (A : Ω → XofTable → (Fin u → P.EncodedEncryptionKey) → (Fin t → P.EncodedCiphertext) → (Fin t → B32) →
      AttackerN (Fin u) P.CiphertextSize) :
    |prob (fun (T, d, z, (C : Fin t → (Fin p.k → Poly) × Poly), K, o, G, J) =>
          ManyUsersOn (withXof S T) P R (A o T) (fun j : Fin t => packCipher p _ (C j).1 (C j).2) K d z G J) - game S p R w A t|
      ≤ u * (p.k ^ 2 * (2 : ℝ) ^ (-261 : ℤ)) := by
  have ev : Even (fun ((T, d, z, m, C, K, o, G, J) : ManyCoins P p u t Ω) =>
      (T, d, z, C, K, o, G, J)) :=
    (Even.fst (β := Fin t → B32)).comp
      (Even.equiv (α := ManyCoins P p u t Ω)
        (β := (XofTable × (Fin u → B32) × (Fin u → B32) × (Fin t → (Fin p.k → Poly) × Poly) × (Fin t → B32) × Ω ×
          (B32 → B32 → B32 × B32) × (B32 → P.EncodedCiphertext → B32)) × (Fin t → B32))
        { toFun := fun (T, d, z, m, C, K, o, G, J) => ((T, d, z, C, K, o, G, J), m)
          invFun := fun ((T, d, z, C, K, o, G, J), m) => (T, d, z, m, C, K, o, G, J)
          left_inv := fun _ => rfl
          right_inv := fun _ => rfl })
  have es : Even (fun ((T, d, z, m, C, K, o, G, J) : ManyCoins P p u t Ω) =>
      (T, d)) := Even.map Even.id Even.fst
  unfold game
  rw [← ev.prob]
  refine (abs_prob_sub fun x hx => ?_).trans ((es.prob _).le.trans (prob_seeds_le S p u))
  obtain ⟨T, d, z, m, C, K, o, G, J⟩ := x
  refine (manyUsersOn_iff (withXof S T) h R (A o T) _ _ (not_not.1 hx) z G J).trans ?_
  have : mixed (withXof S T) p t w d m C K G
      = fun j => ((packCipher p P.CiphertextSize (C j).1 (C j).2, K j) : P.EncodedCiphertext × B32) :=
    funext fun j => if_pos j.2
  rw [← this]

/-- Many users' and many messages' security, in terms of the hybrids -/
theorem many_step (hP : Supported P p) (h : Standard p) {R : Fin u → Fin t → Prop} {w : Fin t → Fin u} (hR : ∀ j, R (w j) j)
    (A : Ω → XofTable → (Fin u → P.EncodedEncryptionKey) → (Fin t → P.EncodedCiphertext) → (Fin t → B32) →
      AttackerN (Fin u) P.CiphertextSize) {q : Nat} (hA : ∀ o T e c K, (A o T e c K).AtMost q) (r : Fin t) :
    |game S p R w A r - game S p R w A (r + 1)|
      ≤ challengeAssumptions S p (hybrid S p A R w r) + 9 * p.k ^ 2 * (2 : ℝ) ^ (-261 : ℤ)
        + (6 * q + 3 * t + 2) * (correctnessAssumptions S p + 2 ^ (-failureBits p : ℤ))
        + (6 * q + 3 * t) * 2 ^ (-256 : ℤ) := by
  have hq : ∀ (o : HybridCoins p u t Ω) (T : XofTable) (e : P.EncodedEncryptionKey) (c : P.EncodedCiphertext) (K : B32),
      (hybrid S p A R w r o T e c K).AtMost (2 * q + t) := by
    rintro ⟨o, d, z, m, C, Ks⟩ T e c K
    refine atMost_mono _ (encapsAll_atMost _ _ _ _ _ (fun ch => withKeys_atMost _ _ _ _ _ _ (hA _ _ _ _ _)) _ _) ?_
    have := List.length_filter_le (fun j => decide (r < j)) (List.finRange t)
    rw [List.length_finRange] at this
    omega
  have h1 := C86_pseudorandom S hP h (hybrid S p A R w r) hq
  have h2 := real_game S hP hR A r
  have h3 := ideal_game S hP hR A r
  push_cast at h1
  generalize prob (fun (T, d, m, o, G, z, J) => Attack (withXof S T) P (hybrid S p A R w r o T) id d z m G J) = x at *
  generalize prob (fun (T, d, u, v, o, K, G, z, J) =>
        AttackOn (withXof S T) P (hybrid S p A R w r o T) (packCipher p _ u v) K d z G J) = y at *
  rw [abs_le] at *
  constructor <;> linarith [h1.1, h1.2, h2.1, h2.2, h3.1, h3.2]

/-- The bound for `u` users, `t` messages and `q` questions: the advantages of thirteen distinguishers for every message,
and statistical terms -/
noncomputable def manyBound (S : Sha3) (p : Params) {e n : Nat}
    (A : Ω → XofTable → (Fin u → Bytes e) → (Fin t → Bytes n) → (Fin t → B32) → AttackerN (Fin u) n)
    (R : Fin u → Fin t → Prop) (w : Fin t → Fin u) (q : Nat) : ℝ :=
  ∑ r, challengeAssumptions S p (hybrid S p A R w r) + (9 * t + 2 * u) * p.k ^ 2 * (2 : ℝ) ^ (-261 : ℤ)
    + t * (6 * q + 3 * t + 2) * (correctnessAssumptions S p + 2 ^ (-failureBits p : ℤ))
    + t * (6 * q + 3 * t) * 2 ^ (-256 : ℤ)

/-- **C89** Many users and many messages. `u` users generate keys, and `t` messages are encapsulated, the message `j` for
the user `w j`. SHAKE128 on 34-byte strings is a random table `T`, which the attacker can read; the attacker also uses
coins `o`. It asks at most `q` questions, also for decapsulations with all users' keys, of all ciphertexts but the
challenges for that user, and perhaps some more, as `R` says. It tells the ciphertexts and
shared keys from ciphertexts made of independent uniform polynomials and independent uniform keys with an advantage of at
most the bound. -/
theorem C89_pseudorandom (hP : Supported P p) (h : Standard p) {R : Fin u → Fin t → Prop} {w : Fin t → Fin u} (hR : ∀ j, R (w j) j)
    (A : Ω → XofTable → (Fin u → P.EncodedEncryptionKey) → (Fin t → P.EncodedCiphertext) → (Fin t → B32) →
      AttackerN (Fin u) P.CiphertextSize) {q : Nat} (hA : ∀ o T e c K, (A o T e c K).AtMost q) :
    |prob (fun (T, d, z, m, o, G, J) => ManyUsers (withXof S T) P R w (A o T) id d z m G J)
        - prob (fun (T, d, z, (C : Fin t → (Fin p.k → Poly) × Poly), K, o, G, J) =>
            ManyUsersOn (withXof S T) P R (A o T) (fun j : Fin t => packCipher p _ (C j).1 (C j).2) K d z G J)|
      ≤ manyBound S p A R w q := by
  have h1 := first_game S hP R w A
  have h2 := last_game S hP R w A
  have h3 : |game S p R w A 0 - game S p R w A t| ≤ ∑ r : Fin t, |game S p R w A r - game S p R w A (r + 1)| := by
    rw [← Finset.sum_range_sub' (fun r => game S p R w A r) t, ← Fin.sum_univ_eq_sum_range
      (fun r => game S p R w A r - game S p R w A (r + 1))]
    exact Finset.abs_sum_le_sum_abs _ _
  have h4 := h3.trans (Finset.sum_le_sum fun r _ => many_step S hP h hR A hA r)
  simp only [Finset.sum_add_distrib, Finset.sum_const, Finset.card_univ, Fintype.card_fin, nsmul_eq_mul] at h4
  unfold manyBound
  generalize prob (fun (T, d, z, m, o, G, J) => ManyUsers (withXof S T) P R w (A o T) id d z m G J) = x at *
  generalize prob (fun (T, d, z, (C : Fin t → (Fin p.k → Poly) × Poly), K, o, G, J) =>
            ManyUsersOn (withXof S T) P R (A o T) (fun j : Fin t => packCipher p _ (C j).1 (C j).2) K d z G J) = y at *
  rw [abs_le] at *
  constructor <;> linarith [h1.1, h1.2, h2.1, h2.2, h4.1, h4.2]

/-- **C89** The shared keys of many users and messages look random, even to somebody who sees the ciphertexts. -/
theorem C89_secure (hP : Supported P p) (h : Standard p) {R : Fin u → Fin t → Prop} {w : Fin t → Fin u} (hR : ∀ j, R (w j) j)
    (A : Ω → XofTable → (Fin u → P.EncodedEncryptionKey) → (Fin t → P.EncodedCiphertext) → (Fin t → B32) →
      AttackerN (Fin u) P.CiphertextSize) {q : Nat} (hA : ∀ o T e c K, (A o T e c K).AtMost q) :
    |prob (fun (T, d, z, m, o, G, J) => ManyUsers (withXof S T) P R w (A o T) id d z m G J)
        - prob (fun (T, d, z, m, (o, K), G, J) => ManyUsers (withXof S T) P R w (A o T) (fun _ => K) d z m G J)|
      ≤ manyBound S p A R w q + manyBound S p (fun ((o, K) : Ω × (Fin t → B32)) T e c _ => A o T e c K) R w q := by
  have h1 := C89_pseudorandom S hP h hR A hA
  have h2 := C89_pseudorandom S hP h hR (fun ((o, K) : Ω × (Fin t → B32)) T e c _ => A o T e c K)
    (fun o T e c K => hA _ _ _ _ _)
  have e : prob (fun (T, d, z, (C : Fin t → (Fin p.k → Poly) × Poly), K, (oK : Ω × (Fin t → B32)), G, J) =>
        ManyUsersOn (withXof S T) P R (fun e c _ => A oK.1 T e c oK.2)
          (fun j : Fin t => packCipher p _ (C j).1 (C j).2) K d z G J)
      = prob (fun (T, d, z, (C : Fin t → (Fin p.k → Poly) × Poly), K, o, G, J) =>
            ManyUsersOn (withXof S T) P R (A o T) (fun j : Fin t => packCipher p _ (C j).1 (C j).2) K d z G J) := by
    have ev : Even (fun ((T, d, z, C, K', (o, K), G, J) : XofTable × (Fin u → B32) × (Fin u → B32) ×
        (Fin t → (Fin p.k → Poly) × Poly) × (Fin t → B32) × (Ω × (Fin t → B32)) × (B32 → B32 → B32 × B32) ×
        (B32 → P.EncodedCiphertext → B32)) => (T, d, z, C, K, o, G, J)) :=
      (Even.fst (β := Fin t → B32)).comp
        (Even.equiv (α := XofTable × (Fin u → B32) × (Fin u → B32) × (Fin t → (Fin p.k → Poly) × Poly) × (Fin t → B32) ×
            (Ω × (Fin t → B32)) × (B32 → B32 → B32 × B32) × (B32 → P.EncodedCiphertext → B32))
          (β := (XofTable × (Fin u → B32) × (Fin u → B32) × (Fin t → (Fin p.k → Poly) × Poly) × (Fin t → B32) × Ω ×
            (B32 → B32 → B32 × B32) × (B32 → P.EncodedCiphertext → B32)) × (Fin t → B32))
          { toFun := fun (T, d, z, C, K', (o, K), G, J) => ((T, d, z, C, K, o, G, J), K')
            invFun := fun ((T, d, z, C, K, o, G, J), K') => (T, d, z, C, K', (o, K), G, J)
            left_inv := fun _ => rfl
            right_inv := fun _ => rfl })
    rw [← ev.prob]
    refine congrArg prob (funext fun x => ?_)
    obtain ⟨T, d, z, C, K', ⟨o, K⟩, G, J⟩ := x
    rfl
  rw [← e] at h1
  refine (abs_sub_le _ _ _).trans (add_le_add h1 ?_)
  refine (abs_sub_comm _ _).le.trans h2

/-- **C89** Ciphertexts and shared keys of many users do not show whom they are for. (Decapsulation of the challenges is
refused for all users.) -/
theorem C89_anonymous (hP : Supported P p) (h : Standard p) (w w' : Fin t → Fin u)
    (A : Ω → XofTable → (Fin u → P.EncodedEncryptionKey) → (Fin t → P.EncodedCiphertext) → (Fin t → B32) →
      AttackerN (Fin u) P.CiphertextSize) {q : Nat} (hA : ∀ o T e c K, (A o T e c K).AtMost q) :
    |prob (fun (T, d, z, m, o, G, J) => ManyUsers (withXof S T) P (fun _ _ => True) w (A o T) id d z m G J)
        - prob (fun (T, d, z, m, o, G, J) => ManyUsers (withXof S T) P (fun _ _ => True) w' (A o T) id d z m G J)|
      ≤ manyBound S p A (fun _ _ => True) w q + manyBound S p A (fun _ _ => True) w' q := by
  have h1 := C89_pseudorandom S hP h (R := fun _ _ => True) (w := w) (fun _ => trivial) A hA
  have h2 := C89_pseudorandom S hP h (R := fun _ _ => True) (w := w') (fun _ => trivial) A hA
  have h2 := (abs_sub_comm _ _).le.trans h2
  exact (abs_sub_le _ _ _).trans (add_le_add h1 h2)

/-! ### The hypotheses hold for an attacker that tells -/

/-- An attacker on one key, as one on the key `i` -/
def onUser {ι : Type} (i : ι) {n : Nat} : Attacker n → AttackerN ι n
  | .guess b => .guess b
  | .hashG m h next => .hashG m h fun a => onUser i (next a)
  | .hashJ z c next => .hashJ z c fun a => onUser i (next a)
  | .decaps c next => .decaps i c fun a => onUser i (next a)

theorem onUser_output {ι : Type} (i : ι) {n : Nat} (G : B32 → B32 → B32 × B32) (J : B32 → Bytes n → B32)
    (D : ι → Bytes n → Option B32) (A : Attacker n) : (onUser i A).output G J D = A.output G J (D i) := by
  induction A with
  | guess g => rfl
  | hashG m a next ih => exact ih _
  | hashJ z' c next ih => exact ih _
  | decaps c next ih => exact ih _

theorem searcher_output (S : Sha3) (p : Params) {e n : Nat} (eb : Bytes e) (c : Bytes n) (K : B32)
    (G : B32 → B32 → B32 × B32) (J : B32 → Bytes n → B32) (D D' : Bytes n → Option B32) :
    (searcher S p eb c K).output G J D = (searcher S p eb c K).output G J D' := rfl

theorem searcher_output_iff (S : Sha3) (p : Params) {e n : Nat} (eb : Bytes e) (c : Bytes n)
    (G : B32 → B32 → B32 × B32) (J : B32 → Bytes n → B32) :
    ∃ x : B32, ∀ K D, (searcher S p eb c K).output G J D = true ↔ x = K := by
  obtain ⟨a, b, h⟩ : ∃ a b, ∀ K, ∃ i : DecidablePred fun y : B32 => y = K,
      searcher S p eb c K = .hashG a b fun y => .guess (@decide (y.1 = K) (i y.1)) := ⟨_, _, fun _ => ⟨_, rfl⟩⟩
  refine ⟨(G a b).1, fun K D => ?_⟩
  obtain ⟨i, hi⟩ := h K
  rw [hi]
  exact @decide_eq_true_iff _ (i _)

/-- Decapsulates a challenge with a key that it was not made for, then searches for another user's secret key and looks at
the last challenge -/
noncomputable def searcherN (S : Sha3) (p : Params) {e n : Nat} (eb : Fin 2 → Bytes e) (c : Fin 3 → Bytes n)
    (K : Fin 3 → B32) : AttackerN (Fin 2) n :=
  .decaps 0 (c 1) fun _ => onUser 1 (searcher S p (eb 1) (c 2) (K 2))

/-- The hypotheses of C89 hold for two users, three messages, one of them for the first user, and the attacker that
searches for a secret key of the toy hash functions. It asks two questions, one of them a decapsulation, and uses no coins.
If both matrices exist it always answers `true` on the real ciphertexts and keys; on real ciphertexts with other keys, or
on unrelated ciphertexts, it answers `true` just if the last key equals one answer of `G`. -/
example : Supported MlKem768Params ML_KEM_768 ∧ Standard ML_KEM_768 ∧
    (∀ j : Fin 3, (fun (i : Fin 2) j => ![0, 1, 1] j = i) (![0, 1, 1] j) j) ∧
    (∀ (_o : Unit) (T : XofTable) (eb : Fin 2 → MlKem768Params.EncodedEncryptionKey) c K,
      (searcherN (withXof Toy.S T) ML_KEM_768 eb c K : AttackerN (Fin 2) MlKem768Params.CiphertextSize).AtMost 2) ∧
    ∀ (T : XofTable) (d : Fin 2 → B32),
      (∀ i, SeedOk (withXof Toy.S T) ML_KEM_768.k (seeds (withXof Toy.S T) ML_KEM_768 (d i).toList).1) →
      ∀ z m G J (R : Fin 2 → Fin 3 → Prop),
        ManyUsers (withXof Toy.S T) MlKem768Params R ![0, 1, 1] (searcherN (withXof Toy.S T) ML_KEM_768) id d z m G J ∧
        ∀ c, ∃ x : B32, ∀ K, ManyUsersOn (withXof Toy.S T) MlKem768Params R (searcherN (withXof Toy.S T) ML_KEM_768) c K d z G J
          ↔ x = K 2 := by
  refine ⟨supported_768, Or.inr (Or.inl rfl), fun _ => rfl,
    fun _ T eb c K => ⟨1, rfl, fun _ => ⟨0, rfl, fun a => trivial⟩⟩, fun T d hs z m G J R => ⟨?_, fun c => ?_⟩⟩
  · rw [manyUsers_iff _ supported_768 _ _ _ hs]
    have := (searcher_attack supported_768 (toy_correct_xof T) id (d 1) (z 1) (m 2) G J (hs 1)).2 rfl
    rw [attack_iff _ supported_768 _ _ (hs 1)] at this
    unfold SaysN searcherN
    rw [AttackerN.output, onUser_output]
    exact (searcher_output ..).trans this
  · obtain ⟨x, hx⟩ := searcher_output_iff (withXof Toy.S T) ML_KEM_768
      (Fips203.bytes MlKem768Params.EncryptionKeySize (KPKE_KeyGen (withXof Toy.S T) ML_KEM_768 (d 1).toList).1) (c 2) G J
    refine ⟨x, fun K => ?_⟩
    rw [manyUsersOn_iff _ supported_768 _ _ _ _ hs]
    unfold SaysN searcherN
    rw [AttackerN.output, onUser_output]
    exact hx _ _

end
end MlKem
