import Verif.Props.XWingMany
import Verif.Spec.XWingManyDh
/-! C91: the modelled X-Wing is secure for many users and many messages even if all of ML-KEM is broken. -/
set_option linter.unusedSectionVars false
set_option synthInstance.maxSize 1000

namespace XWing
open Rust MlKem Fips203 XWingSpec Finset BigOperators Fo

variable [Build]

/-- Every user `i` generates a key pair from `sk i`; for every challenge `j` somebody encapsulates for the user `w j` and
draws `m j` and `e j`. The attacker is given all ML-KEM seeds and messages, and the public keys, the ciphertexts and the
shared secrets (or other strings, `key`). It may ask for ML-KEM's `G` and `J`, for the combiner `F`, and for
decapsulations: with the key of the user `i`, of all ciphertexts but the challenges for the user `i`. It ends with the guess
`true`. -/
def ManyInsiders {ι τ : Type} (S : Sha3) (X : X25519) (w : τ → ι)
    (A : (ι → B32) → (ι → B32) → (τ → B32) → (ι → Bytes 1216) → (τ → Bytes 1120) → (τ → B32) → InsiderN ι)
    (key : (τ → B32) → τ → B32) (sk : ι → B32) (m e : τ → B32) (G : B32 → B32 → B32 × B32) (J : B32 → Bytes 1088 → B32)
    (F : B32 → Exchange → B32) : Prop :=
  open Classical in
  ∃ (dk : ι → DecapsulationKey) (ek : ι → EncapsulationKey) (eb : ι → Bytes 1216) (ct : τ → Ciphertext)
    (cb : τ → Bytes 1120) (ss : τ → SharedSecret) (s : ι → _) (s' : τ → _),
    (∀ i, generate_key_pair (withOracles (withCombiner S F) G J) X blocks [sk i] = .ok ((dk i, ek i), s i) ∧
      (ek i).as_bytes = .ok (eb i)) ∧
    (∀ j, (ek (w j)).encapsulate (withOracles (withCombiner S F) G J) X blocks [m j, e j] = .ok ((ct j, ss j), s' j) ∧
      (ct j).as_bytes = .ok (cb j)) ∧
    (A (fun i => (expanded S (sk i)).1) (fun i => (expanded S (sk i)).2.1) m eb cb (key ss)).output G J F (fun i c =>
      if ∃ j, w j = i ∧ c = cb j then none else
        match (do let ct ← Ciphertext.from_bytes c; (dk i).decapsulate (withOracles (withCombiner S F) G J) X ct) with
        | .ok ss => some ss
        | _ => none) = true

variable (S : Sha3) (X : X25519)

/-- The ciphertext and shared secret of an encapsulation for the key generated from `sk` -/
noncomputable def madeI (G : B32 → B32 → B32 × B32) (F : B32 → Exchange → B32) (sk m e : B32) : Bytes 1120 × B32 :=
  (join (kemCipher S G (expanded S sk).1 m) (X.x25519 e basePoint),
    F (G m (hashKey S (expanded S sk).1)).1
      (X.x25519 e (X.publicKey (expanded S sk).2.2), X.x25519 e basePoint, X.publicKey (expanded S sk).2.2))

/-- Decapsulation with the key generated from `sk` -/
noncomputable def decapsI (G : B32 → B32 → B32 × B32) (J : B32 → Bytes 1088 → B32) (F : B32 → Exchange → B32) (sk : B32)
    (c : Bytes 1120) : B32 :=
  F (kemDecaps S G J (expanded S sk).1 (expanded S sk).2.1 (partM c))
    (X.x25519 (expanded S sk).2.2 (partX c), partX c, X.publicKey (expanded S sk).2.2)

theorem hashKey_combiner (F : B32 → Exchange → B32) (d : B32) : hashKey (withCombiner S F) d = hashKey S d :=
  keyHash_combiner S F d

theorem kemCipher_combiner (F : B32 → Exchange → B32) (G : B32 → B32 → B32 × B32) (d m : B32) :
    kemCipher (withCombiner S F) G d m = kemCipher S G d m := by
  unfold kemCipher
  rw [hashKey_combiner]
  rfl

theorem madeFor_combiner (F : B32 → Exchange → B32) (G : B32 → B32 → B32 × B32) (sk m e : B32) :
    madeFor (withCombiner S F) X G sk m e = madeI S X G F sk m e := by
  unfold madeFor madeI
  rw [keyed_combiner, kemCipher_combiner, hashKey_combiner]
  rfl

theorem kemDecaps_combiner (F : B32 → Exchange → B32) (G : B32 → B32 → B32 × B32) (J : B32 → Bytes 1088 → B32) (d z : B32)
    (c : Bytes 1088) : kemDecaps (withCombiner S F) G J d z c = kemDecaps S G J d z c := by
  unfold kemDecaps
  simp only [kemCipher_combiner, hashKey_combiner]
  rfl

theorem decapsBy_combiner (F : B32 → Exchange → B32) (G : B32 → B32 → B32 × B32) (J : B32 → Bytes 1088 → B32) (sk : B32)
    (c : Bytes 1120) : decapsBy (withCombiner S F) X G J sk c = decapsI S X G J F sk c := by
  unfold decapsBy decapsI
  have hx : expanded (withCombiner S F) sk = expanded S sk := rfl
  rw [keyed_combiner, hx, kemDecaps_combiner]

theorem matrix_of_generate {sk : B32} {G : B32 → B32 → B32 × B32} {J : B32 → Bytes 1088 → B32} {r}
    (h : generate_key_pair (withOracles S G J) X blocks [sk] = .ok r) : MatrixOk S sk := by
  obtain ⟨b, s1, pk, g1, g2, g3⟩ := ((C40_randomness (withOracles S G J) X blocks [sk]).1 _).1 h
  rw [blocks_fill] at g1
  obtain ⟨rfl, rfl⟩ := Prod.mk.inj (Res.ok.inj g1)
  obtain ⟨sk_m, hg, hx⟩ := derived_shape (withOracles S G J) X g2
  have := (genSeed_iff (withOracles S G J) supported_768 _ _).1 ⟨_, hg⟩
  rw [oracles_seeds S G J (by simp)] at this
  exact this

variable {u t : Nat}

open Classical in
/-- Decapsulation with all keys, but for the challenges -/
noncomputable def decapsNI {ι : Type} (G : B32 → B32 → B32 × B32) (J : B32 → Bytes 1088 → B32) (F : B32 → Exchange → B32)
    (sk : ι → B32) (R : ι → Bytes 1120 → Prop) (i : ι) (c : Bytes 1120) : Option B32 :=
  if R i c then none else some (decapsI S X G J F (sk i) c)

/-- What an attacker says about ciphertexts and secrets -/
def SaysI (w : Fin t → Fin u)
    (A : (Fin u → B32) → (Fin u → B32) → (Fin t → B32) → (Fin u → Bytes 1216) → (Fin t → Bytes 1120) → (Fin t → B32) →
      InsiderN (Fin u))
    (ch : Fin t → Bytes 1120 × B32) (sk : Fin u → B32) (m : Fin t → B32) (G : B32 → B32 → B32 × B32)
    (J : B32 → Bytes 1088 → B32) (F : B32 → Exchange → B32) : Prop :=
  (∀ i, MatrixOk S (sk i)) ∧
  (A (fun i => (expanded S (sk i)).1) (fun i => (expanded S (sk i)).2.1) m (fun i => publicOf S X.publicKey (sk i))
    (fun j => (ch j).1) (fun j => (ch j).2)).output G J F
    (decapsNI S X G J F sk fun i c' => ∃ j, w j = i ∧ c' = (ch j).1) = true

theorem manyInsiders_iff (w : Fin t → Fin u)
    (A : (Fin u → B32) → (Fin u → B32) → (Fin t → B32) → (Fin u → Bytes 1216) → (Fin t → Bytes 1120) → (Fin t → B32) →
      InsiderN (Fin u))
    (key : (Fin t → B32) → Fin t → B32) (sk : Fin u → B32) (m e : Fin t → B32)
    (G : B32 → B32 → B32 × B32) (J : B32 → Bytes 1088 → B32) (F : B32 → Exchange → B32) :
    ManyInsiders S X w A key sk m e G J F ↔
      SaysI S X w A (fun j => ((madeI S X G F (sk (w j)) (m j) (e j)).1,
        key (fun j => (madeI S X G F (sk (w j)) (m j) (e j)).2) j)) sk m G J F := by
  unfold ManyInsiders SaysI
  constructor
  · rintro ⟨dk', ek', eb, ct', cb, ss, s, s', g1, g3, g4⟩
    have hs : ∀ i, MatrixOk S (sk i) := fun i => matrix_of_generate (withCombiner S F) X (g1 i).1
    refine ⟨hs, ?_⟩
    have hr := fun i => run_ok (withCombiner S F) X (hs i) G J
    choose dk ek h1 h2 h3 h4 using hr
    choose ct h3 h5 using h3
    have hdk : ∀ i, dk' i = dk i ∧ ek' i = ek i := fun i =>
      Prod.mk.inj (Prod.mk.inj (Res.ok.inj ((g1 i).1.symm.trans (h1 i)))).1
    obtain rfl : dk' = dk := funext fun i => (hdk i).1
    obtain rfl : ek' = ek := funext fun i => (hdk i).2
    obtain rfl : eb = _ := funext fun i => Res.ok.inj ((g1 i).2.symm.trans (h2 i))
    have hc := fun j => Prod.mk.inj (Prod.mk.inj (Res.ok.inj ((g3 j).1.symm.trans (h3 (w j) (m j) (e j))))).1
    have hcb := fun j => Res.ok.inj ((g3 j).2.symm.trans ((congrArg Ciphertext.as_bytes (hc j).1).trans (h5 (w j) (m j) (e j))))
    obtain rfl : cb = _ := funext hcb
    obtain rfl : ss = _ := funext fun j => (hc j).2
    simp only [h4, madeFor_combiner, decapsBy_combiner] at g4
    refine Eq.trans ?_ g4
    unfold decapsNI
    exact congrFun (congrArg (InsiderN.output G J F) (funext fun i => funext fun c => ite_same rfl)) _
  · rintro ⟨hs, g4⟩
    have hr := fun i => run_ok (withCombiner S F) X (hs i) G J
    choose dk ek h1 h2 h3 h4 using hr
    choose ct h3 h5 using h3
    refine ⟨dk, ek, _, _, _, _, _, _, fun i => ⟨h1 i, h2 i⟩, fun j => ⟨h3 (w j) (m j) (e j), h5 (w j) (m j) (e j)⟩, ?_⟩
    simp only [h4, madeFor_combiner, decapsBy_combiner]
    refine Eq.trans ?_ g4
    unfold decapsNI
    exact congrFun (congrArg (InsiderN.output G J F) (funext fun i => funext fun c => ite_same rfl)) _

/-! ### The attacker on one key -/

omit [Build] in
theorem insider_mono (A : Insider) {q q' : Nat} (h : A.AtMost q) (hq : q ≤ q') : A.AtMost q' := by
  induction A generalizing q q' with
  | guess g => trivial
  | hashG m a next ih =>
    obtain ⟨q, rfl, h⟩ := h
    exact ⟨q' - 1, by omega, fun x => ih x (h x) (by omega)⟩
  | hashJ z c next ih =>
    obtain ⟨q, rfl, h⟩ := h
    exact ⟨q' - 1, by omega, fun x => ih x (h x) (by omega)⟩
  | combine K c next ih =>
    obtain ⟨q, rfl, h⟩ := h
    exact ⟨q' - 1, by omega, fun x => ih x (h x) (by omega)⟩
  | decaps c next ih =>
    obtain ⟨q, rfl, h⟩ := h
    exact ⟨q' - 1, by omega, fun x => ih x (h x) (by omega)⟩

section
variable {ι : Type}

omit [Build] in
theorem withKeysI_atMost (b : ι) (sk : ι → B32) (R : ι → Bytes 1120 → Prop) (A : InsiderN ι) {q : Nat}
    (h : A.AtMost q) : (A.withKeys S X.x25519 X.publicKey b sk R).AtMost (3 * q) := by
  induction A generalizing q with
  | guess g => trivial
  | hashG m a next ih =>
    obtain ⟨q, rfl, h⟩ := h
    exact ⟨3 * q + 2, by ring, fun x => insider_mono _ (ih x (h x)) (by omega)⟩
  | hashJ z' c next ih =>
    obtain ⟨q, rfl, h⟩ := h
    exact ⟨3 * q + 2, by ring, fun x => insider_mono _ (ih x (h x)) (by omega)⟩
  | combine z' c next ih =>
    obtain ⟨q, rfl, h⟩ := h
    exact ⟨3 * q + 2, by ring, fun x => insider_mono _ (ih x (h x)) (by omega)⟩
  | decaps i c next ih =>
    obtain ⟨q, rfl, h⟩ := h
    unfold InsiderN.withKeys
    split
    · exact insider_mono _ (ih _ (h _)) (by omega)
    · split
      · exact ⟨3 * q + 2, by ring, fun x => insider_mono _ (ih x (h x)) (by omega)⟩
      · exact ⟨3 * q + 2, by ring, fun x => ⟨3 * q + 1, rfl, fun y => ⟨3 * q, rfl, fun z => ih _ (h _)⟩⟩⟩

omit [Build] in
theorem withKeysI_output [DecidableEq ι] (b : ι) (sk : ι → B32) (sk0 : B32) (R : ι → Bytes 1120 → Prop)
    (G : B32 → B32 → B32 × B32) (J : B32 → Bytes 1088 → B32) (F : B32 → Exchange → B32) (c0 : Bytes 1120) (hR : R b c0)
    (A : InsiderN ι) :
    (A.withKeys S X.x25519 X.publicKey b sk R).output G J F (fun c => if c = c0 then none else some (decapsI S X G J F sk0 c))
      = A.output G J F (decapsNI S X G J F (Function.update sk b sk0) R) := by
  induction A with
  | guess g => rfl
  | hashG m a next ih => exact ih _
  | hashJ z' c next ih => exact ih _
  | combine K c next ih => exact ih _
  | decaps i c next ih =>
    unfold InsiderN.withKeys InsiderN.output
    unfold decapsNI
    by_cases hr : R i c
    · simp only [if_pos hr]
      exact ih _
    · simp only [if_neg hr]
      by_cases hi : i = b
      · subst hi
        have hc : c ≠ c0 := fun e => hr (e ▸ hR)
        rw [if_pos rfl, Function.update_self]
        unfold Insider.output
        rw [if_neg hc]
        exact ih _
      · rw [if_neg hi, Function.update_of_ne hi]
        simp only [Insider.output]
        rw [ih]
        refine congrArg (fun x => InsiderN.output G J F _ (next (some x))) ?_
        unfold decapsI kemDecaps kemCipher hashKey
        generalize expanded S (sk i) = s
        obtain ⟨d, z, x⟩ := s
        exact congrArg (fun K => F K (X.x25519 x (partX c), partX c, X.publicKey x)) (ite_same rfl)

end

omit [Build] in
theorem encapsAllI_atMost (ek : Fin u → Bytes 1216) (w : Fin t → Fin u) (m e : Fin t → B32)
    (next : (Fin t → Bytes 1120 × B32) → Insider) {q : Nat} (h : ∀ ch, (next ch).AtMost q) (l : List (Fin t))
    (ch : Fin t → Bytes 1120 × B32) : (encapsAllI S X.x25519 ek w m e next l ch).AtMost (q + 2 * l.length) := by
  induction l generalizing ch with
  | nil => exact h ch
  | cons j l ih => exact ⟨q + 2 * l.length + 1, rfl, fun a => ⟨q + 2 * l.length, rfl, fun a => ih _⟩⟩

/-- The ciphertext and shared secret of an encapsulation for a public key -/
noncomputable def sealForI (G : B32 → B32 → B32 × B32) (F : B32 → Exchange → B32) (ek : Bytes 1216) (m e : B32) :
    Bytes 1120 × B32 :=
  (join (encrypt S ML_KEM_768 1088 (keyM ek).toList m (G m (Fips203.bytes 32 (Fips203.H S (keyM ek).toList))).2)
      (X.x25519 e basePoint),
    F (G m (Fips203.bytes 32 (Fips203.H S (keyM ek).toList))).1 (X.x25519 e (keyX ek), X.x25519 e basePoint, keyX ek))

omit [Build] in
theorem encapsAllI_output (ek : Fin u → Bytes 1216) (w : Fin t → Fin u) (m e : Fin t → B32)
    (next : (Fin t → Bytes 1120 × B32) → Insider) (G : B32 → B32 → B32 × B32) (J : B32 → Bytes 1088 → B32)
    (F : B32 → Exchange → B32) (D : Bytes 1120 → Option B32) (l : List (Fin t)) (ch : Fin t → Bytes 1120 × B32) :
    (encapsAllI S X.x25519 ek w m e next l ch).output G J F D
      = (next fun j => if j ∈ l then sealForI S X G F (ek (w j)) (m j) (e j) else ch j).output G J F D := by
  induction l generalizing ch with
  | nil => simp [encapsAllI]
  | cons j l ih =>
    unfold encapsAllI
    simp only [Insider.output]
    rw [ih]
    refine congrArg (fun f => Insider.output G J F D (next f)) (funext fun i => ?_)
    by_cases hl : i ∈ l
    · rw [if_pos hl, if_pos (List.mem_cons_of_mem _ hl)]
    · rw [if_neg hl]
      by_cases hi : i = j
      · subst hi
        rw [Function.update_self, if_pos List.mem_cons_self]
        rfl
      · rw [Function.update_of_ne hi, if_neg fun h => (List.mem_cons.1 h).elim hi hl]

theorem sealForI_public (G : B32 → B32 → B32 × B32) (F : B32 → Exchange → B32) (sk m e : B32) :
    sealForI S X G F (publicOf S X.publicKey sk) m e = madeI S X G F sk m e := by
  unfold sealForI publicOf madeI kemCipher hashKey
  rw [keyM_join, keyX_join]
  have : (Fips203.bytes 1184 (KPKE_KeyGen S ML_KEM_768 (expanded S sk).1.toList).1).toList
      = (KPKE_KeyGen S ML_KEM_768 (expanded S sk).1.toList).1 := MlKem.ek_toList S supported_768 _
  rw [this]

/-- The challenges when the secrets of the first `r` are replaced -/
noncomputable def mixedI (r : Nat) (w : Fin t → Fin u) (sk : Fin u → B32) (m e K : Fin t → B32) (G : B32 → B32 → B32 × B32)
    (F : B32 → Exchange → B32) (j : Fin t) : Bytes 1120 × B32 :=
  ((madeI S X G F (sk (w j)) (m j) (e j)).1, if j.val < r then K j else (madeI S X G F (sk (w j)) (m j) (e j)).2)

variable (A : (Fin u → B32) → (Fin u → B32) → (Fin t → B32) → (Fin u → Bytes 1216) → (Fin t → Bytes 1120) → (Fin t → B32) →
      InsiderN (Fin u))

theorem insiderAttack_iff (B : B32 → B32 → B32 → Bytes 1216 → Bytes 1120 → B32 → Insider) (key : B32 → B32) (sk m e : B32)
    (G : B32 → B32 → B32 × B32) (J : B32 → Bytes 1088 → B32) (F : B32 → Exchange → B32) :
    InsiderAttack S X B key sk m e G J F ↔ MatrixOk S sk ∧
      (B (expanded S sk).1 (expanded S sk).2.1 m (publicOf S X.publicKey sk) (madeI S X G F sk m e).1
        (key (madeI S X G F sk m e).2)).output G J F
        (fun c => if c = (madeI S X G F sk m e).1 then none else some (decapsI S X G J F sk c)) = true :=
  insider_expanded S X B key sk m e G J F

theorem hybridI_output (w : Fin t → Fin u) (r : Fin t) (sk : Fin u → B32) (m e K : Fin t → B32) (sk0 m0 e0 ss : B32)
    (G : B32 → B32 → B32 × B32) (J : B32 → Bytes 1088 → B32) (F : B32 → Exchange → B32) :
    (MatrixOk S sk0 ∧ (hybridI S X.x25519 X.publicKey A w r (sk, m, e, K) (expanded S sk0).1 (expanded S sk0).2.1 m0
        (publicOf S X.publicKey sk0) (madeI S X G F sk0 m0 e0).1 ss).output G J F
        (fun c => if c = (madeI S X G F sk0 m0 e0).1 then none else some (decapsI S X G J F sk0 c)) = true) ↔
      SaysI S X w A
        (fun j => ((mixedI S X r w (Function.update sk (w r) sk0) (Function.update m r m0) (Function.update e r e0)
            K G F j).1, if j = r then ss else
          (mixedI S X r w (Function.update sk (w r) sk0) (Function.update m r m0) (Function.update e r e0) K G F j).2))
        (Function.update sk (w r) sk0) (Function.update m r m0) G J F := by
  have pull : ∀ {β : Type} (f : B32 → β), (fun i => if i = w r then f sk0 else f (sk i))
      = fun i => f (Function.update sk (w r) sk0 i) := by
    intro β f
    funext i
    by_cases hi : i = w r
    · subst hi; rw [if_pos rfl, Function.update_self]
    · rw [if_neg hi, Function.update_of_ne hi]
  have hms : (fun j => if j = r then m0 else m j) = Function.update m r m0 := by
    funext j
    by_cases hj : j = r
    · subst hj; rw [if_pos rfl, Function.update_self]
    · rw [if_neg hj, Function.update_of_ne hj]
  have hch : (fun j => if j ∈ (List.finRange t).filter fun j => j ≠ r then
        sealForI S X G F (publicOf S X.publicKey (Function.update sk (w r) sk0 (w j))) (m j) (e j)
        else ((madeI S X G F sk0 m0 e0).1, ss))
      = fun j => if j = r then ((madeI S X G F sk0 m0 e0).1, ss) else
          madeI S X G F (Function.update sk (w r) sk0 (w j)) (m j) (e j) := by
    funext j
    rw [sealForI_public]
    by_cases hj : j = r
    · rw [if_neg (by simpa using hj), if_pos hj]
    · rw [if_pos (by simpa using hj), if_neg hj]
  have hfst : ∀ j, (if j = r then ((madeI S X G F sk0 m0 e0).1, ss) else
          madeI S X G F (Function.update sk (w r) sk0 (w j)) (m j) (e j)).1
      = (mixedI S X r w (Function.update sk (w r) sk0) (Function.update m r m0) (Function.update e r e0) K G F j).1 := by
    intro j
    unfold mixedI
    by_cases hj : j = r
    · subst hj
      rw [if_pos rfl, Function.update_self, Function.update_self, Function.update_self]
    · rw [if_neg hj, Function.update_of_ne hj, Function.update_of_ne hj]
  have hsnd : ∀ j, (if j < r then K j else (if j = r then ((madeI S X G F sk0 m0 e0).1, ss) else
          madeI S X G F (Function.update sk (w r) sk0 (w j)) (m j) (e j)).2)
      = if j = r then ss else
        (mixedI S X r w (Function.update sk (w r) sk0) (Function.update m r m0) (Function.update e r e0) K G F j).2 := by
    intro j
    unfold mixedI
    by_cases hj : j = r
    · subst hj
      rw [if_neg (lt_irrefl _), if_pos rfl, if_pos rfl]
    · rw [if_neg hj, if_neg hj, Function.update_of_ne hj, Function.update_of_ne hj]
      simp only [Fin.lt_def]
  have hall : (∀ i, MatrixOk S (Function.update sk (w r) sk0 i)) ↔
      MatrixOk S sk0 ∧ ∀ i, i ≠ w r → SeedOk S 3 (seeds S ML_KEM_768 (expanded S (sk i)).1.toList).1 := by
    constructor
    · intro h
      refine ⟨by have := h (w r); rwa [Function.update_self] at this, fun i hi => ?_⟩
      have := h i
      rwa [Function.update_of_ne hi] at this
    · rintro ⟨h, h'⟩ i
      by_cases hi : i = w r
      · subst hi; rwa [Function.update_self]
      · rw [Function.update_of_ne hi]; exact h' i hi
  unfold SaysI
  rw [hall, and_assoc]
  refine and_congr_right fun _ => ?_
  unfold hybridI
  dsimp only
  split
  case isFalse h => exact ⟨fun h' => absurd h' Bool.false_ne_true, fun h' => absurd h'.1 h⟩
  case isTrue h =>
    refine Iff.trans ?_ (and_iff_right h).symm
    rw [pull (publicOf S X.publicKey), pull (fun s => (expanded S s).1), pull (fun s => (expanded S s).2.1), hms,
      encapsAllI_output, hch]
    simp only [hfst, hsnd]
    rw [withKeysI_output]
    refine ⟨r, rfl, ?_⟩
    unfold mixedI
    simp only [Function.update_self]

theorem real_pointI (w : Fin t → Fin u) (r : Fin t) (sk : Fin u → B32) (m e K : Fin t → B32) (sk0 m0 e0 : B32)
    (G : B32 → B32 → B32 × B32) (J : B32 → Bytes 1088 → B32) (F : B32 → Exchange → B32) :
    InsiderAttack S X (hybridI S X.x25519 X.publicKey A w r (sk, m, e, K)) id sk0 m0 e0 G J F ↔
      SaysI S X w A
        (mixedI S X r w (Function.update sk (w r) sk0) (Function.update m r m0) (Function.update e r e0) K G F)
        (Function.update sk (w r) sk0) (Function.update m r m0) G J F := by
  rw [insiderAttack_iff, hybridI_output]
  refine iff_of_eq (congrArg (fun ch => SaysI S X w A ch (Function.update sk (w r) sk0) (Function.update m r m0) G J F)
    (funext fun j => Prod.ext rfl ?_))
  dsimp only
  by_cases hj : j = r
  · subst hj
    rw [if_pos rfl]
    unfold mixedI
    rw [if_neg (lt_irrefl _), Function.update_self, Function.update_self, Function.update_self]
    rfl
  · rw [if_neg hj]

theorem ideal_pointI (w : Fin t → Fin u) (r : Fin t) (sk : Fin u → B32) (m e K : Fin t → B32) (ss sk0 m0 e0 : B32)
    (G : B32 → B32 → B32 × B32) (J : B32 → Bytes 1088 → B32) (F : B32 → Exchange → B32) :
    InsiderAttack S X (hybridI S X.x25519 X.publicKey A w r (sk, m, e, K)) (fun _ => ss) sk0 m0 e0 G J F ↔
      SaysI S X w A
        (mixedI S X (r + 1) w (Function.update sk (w r) sk0) (Function.update m r m0) (Function.update e r e0)
          (Function.update K r ss) G F)
        (Function.update sk (w r) sk0) (Function.update m r m0) G J F := by
  rw [insiderAttack_iff, hybridI_output]
  refine iff_of_eq (congrArg (fun ch => SaysI S X w A ch (Function.update sk (w r) sk0) (Function.update m r m0) G J F)
    (funext fun j => Prod.ext rfl ?_))
  dsimp only
  unfold mixedI
  by_cases hj : j = r
  · subst hj
    rw [if_pos rfl, if_pos (Nat.lt_succ_self _)]
    exact (Function.update_self j ss K).symm
  · have : (j.val < r.val + 1) ↔ j.val < r.val := by
      have := fun e => hj (Fin.ext e)
      omega
    rw [if_neg hj, Function.update_of_ne hj (f := K)]
    simp only [this]

/-- What the attack with some secrets replaced chooses at random -/
abbrev ManyCoinsI (u t : Nat) : Type :=
  (Fin u → B32) × (Fin t → B32) × (Fin t → B32) × (Fin t → B32) × (B32 → B32 → B32 × B32) × (B32 → Bytes 1088 → B32) ×
    (B32 → Exchange → B32)

/-- The secrets of other keys and challenges, and secrets to show -/
abbrev OtherCoins (u t : Nat) : Type := (Fin u → B32) × (Fin t → B32) × (Fin t → B32) × (Fin t → B32)

omit [Build] in
theorem expect_prob {α β : Type} [Fintype α] [Fintype β] (E : α → β → Prop) :
    𝔼 a, prob (fun b => E a b) = prob fun x : α × β => E x.1 x.2 := by
  simp only [prob_ind]
  exact (expect_prod_type fun x : α × β => ind (E x.1 x.2)).symm

/-- The attack when the secrets of the first `r` challenges are replaced -/
noncomputable def gameI (w : Fin t → Fin u) (r : Nat) : ℝ :=
  prob (fun ((sk, m, e, K, g, j, F) : ManyCoinsI u t) => SaysI S X w A (mixedI S X r w sk m e K g F) sk m g j F)

theorem real_gameI (w : Fin t → Fin u) (r : Fin t) :
    𝔼 o : OtherCoins u t, prob (fun ((sk, m, e, g, j, F) : B32 × B32 × B32 × _) =>
      InsiderAttack S X (hybridI S X.x25519 X.publicKey A w r o) id sk m e g j F) = gameI S X A w r := by
  have ev : MlKem.Even (fun (((sk, m, e, K), sk0, m0, e0, g, j, F) : OtherCoins u t × B32 × B32 × B32 ×
      (B32 → B32 → B32 × B32) × (B32 → Bytes 1088 → B32) × (B32 → Exchange → B32)) =>
      (Function.update sk (w r) sk0, Function.update m r m0, Function.update e r e0, K, g, j, F)) :=
    (MlKem.Even.map (MlKem.Even.update (α := B32) (w r)) (MlKem.Even.map (MlKem.Even.update (α := B32) r)
      (MlKem.Even.map (MlKem.Even.update (α := B32) r) MlKem.Even.id))).comp
      (MlKem.Even.equiv (α := OtherCoins u t × B32 × B32 × B32 × (B32 → B32 → B32 × B32) × (B32 → Bytes 1088 → B32) ×
          (B32 → Exchange → B32))
        (β := (B32 × (Fin u → B32)) × (B32 × (Fin t → B32)) × (B32 × (Fin t → B32)) ×
          (Fin t → B32) × (B32 → B32 → B32 × B32) × (B32 → Bytes 1088 → B32) × (B32 → Exchange → B32))
        { toFun := fun ((sk, m, e, K), sk0, m0, e0, g, j, F) => ((sk0, sk), (m0, m), (e0, e), K, g, j, F)
          invFun := fun ((sk0, sk), (m0, m), (e0, e), K, g, j, F) => ((sk, m, e, K), sk0, m0, e0, g, j, F)
          left_inv := fun _ => rfl
          right_inv := fun _ => rfl })
  unfold gameI
  rw [← ev.prob]
  rw [expect_prob]
  refine congrArg prob (funext fun x => propext ?_)
  obtain ⟨⟨sk, m, e, K⟩, sk0, m0, e0, G, J, F⟩ := x
  exact (real_pointI S X A w r sk m e K sk0 m0 e0 G J F)

theorem ideal_gameI (w : Fin t → Fin u) (r : Fin t) :
    𝔼 o : OtherCoins u t, prob (fun ((ss, sk, m, e, g, j, F) : B32 × B32 × B32 × B32 × _) =>
      InsiderAttack S X (hybridI S X.x25519 X.publicKey A w r o) (fun _ => ss) sk m e g j F) = gameI S X A w (r + 1) := by
  have ev : MlKem.Even (fun (((sk, m, e, K), ss, sk0, m0, e0, g, j, F) : OtherCoins u t × B32 × B32 × B32 × B32 ×
      (B32 → B32 → B32 × B32) × (B32 → Bytes 1088 → B32) × (B32 → Exchange → B32)) =>
      (Function.update sk (w r) sk0, Function.update m r m0, Function.update e r e0, Function.update K r ss, g, j, F)) :=
    (MlKem.Even.map (MlKem.Even.update (α := B32) (w r)) (MlKem.Even.map (MlKem.Even.update (α := B32) r)
      (MlKem.Even.map (MlKem.Even.update (α := B32) r) (MlKem.Even.map (MlKem.Even.update (α := B32) r) MlKem.Even.id)))).comp
      (MlKem.Even.equiv (α := OtherCoins u t × B32 × B32 × B32 × B32 × (B32 → B32 → B32 × B32) × (B32 → Bytes 1088 → B32) ×
          (B32 → Exchange → B32))
        (β := (B32 × (Fin u → B32)) × (B32 × (Fin t → B32)) × (B32 × (Fin t → B32)) ×
          (B32 × (Fin t → B32)) × (B32 → B32 → B32 × B32) × (B32 → Bytes 1088 → B32) × (B32 → Exchange → B32))
        { toFun := fun ((sk, m, e, K), ss, sk0, m0, e0, g, j, F) => ((sk0, sk), (m0, m), (e0, e), (ss, K), g, j, F)
          invFun := fun ((sk0, sk), (m0, m), (e0, e), (ss, K), g, j, F) => ((sk, m, e, K), ss, sk0, m0, e0, g, j, F)
          left_inv := fun _ => rfl
          right_inv := fun _ => rfl })
  unfold gameI
  rw [← ev.prob]
  rw [expect_prob]
  refine congrArg prob (funext fun x => propext ?_)
  obtain ⟨⟨sk, m, e, K⟩, ss, sk0, m0, e0, G, J, F⟩ := x
  exact (ideal_pointI S X A w r sk m e K ss sk0 m0 e0 G J F)

theorem first_gameI (w : Fin t → Fin u) :
    prob (fun ((sk, m, e, g, j, F) : (Fin u → B32) × (Fin t → B32) × (Fin t → B32) × _) =>
      ManyInsiders S X w A id sk m e g j F) = gameI S X A w 0 := by
  have ev : MlKem.Even (fun ((sk, m, e, K, g, j, F) : ManyCoinsI u t) => (sk, m, e, g, j, F)) :=
    (MlKem.Even.fst (β := Fin t → B32)).comp
      (MlKem.Even.equiv (α := ManyCoinsI u t)
        (β := ((Fin u → B32) × (Fin t → B32) × (Fin t → B32) × (B32 → B32 → B32 × B32) ×
          (B32 → Bytes 1088 → B32) × (B32 → Exchange → B32)) × (Fin t → B32))
        { toFun := fun (sk, m, e, K, g, j, F) => ((sk, m, e, g, j, F), K)
          invFun := fun ((sk, m, e, g, j, F), K) => (sk, m, e, K, g, j, F)
          left_inv := fun _ => rfl
          right_inv := fun _ => rfl })
  unfold gameI
  rw [← ev.prob]
  refine congrArg prob (funext fun x => ?_)
  obtain ⟨sk, m, e, K, G, J, F⟩ := x
  exact propext (manyInsiders_iff S X w A id sk m e G J F)

theorem last_gameI (w : Fin t → Fin u) :
    prob (fun ((sk, m, e, K, g, j, F) : ManyCoinsI u t) => ManyInsiders S X w A (fun _ => K) sk m e g j F)
      = gameI S X A w t := by
  unfold gameI
  refine congrArg prob (funext fun x => ?_)
  obtain ⟨sk, m, e, K, G, J, F⟩ := x
  refine propext ((manyInsiders_iff S X w A (fun _ => K) sk m e G J F).trans ?_)
  have : mixedI S X t w sk m e K G F = fun j => ((madeI S X G F (sk (w j)) (m j) (e j)).1, K j) :=
    funext fun j => Prod.ext rfl (if_pos j.2)
  rw [← this]

theorem hybridI_atMost (w : Fin t → Fin u) (r : Fin t) {q : Nat} (hA : ∀ d z m eb cb ss, (A d z m eb cb ss).AtMost q)
    (o : OtherCoins u t) (d z m : B32) (eb : Bytes 1216) (cb : Bytes 1120) (ss : B32) :
    (hybridI S X.x25519 X.publicKey A w r o d z m eb cb ss).AtMost (3 * q + 2 * t) := by
  obtain ⟨sk, m', e, Ks⟩ := o
  unfold hybridI
  dsimp only
  split
  · refine insider_mono _ (encapsAllI_atMost _ _ _ _ _ _ _ (fun ch => withKeysI_atMost _ _ _ _ _ _ (hA _ _ _ _ _ _)) _ _) ?_
    have := List.length_filter_le (fun j => decide (j ≠ r)) (List.finRange t)
    rw [List.length_finRange] at this
    omega
  · trivial

/-- What an attack on many keys and messages gives, for every message: attacks on the expansion of one secret key by
SHAKE128, and on X25519, with the other users' secrets drawn at random -/
noncomputable def manyBoundI (w : Fin t → Fin u) (q : Nat) : ℝ :=
  ∑ r, 𝔼 o : OtherCoins u t,
    (expandAdvantage S X (hybridI S X.x25519 X.publicKey A w r o) id
      + (𝔼 ss, expandAdvantage S X (hybridI S X.x25519 X.publicKey A w r o) (fun _ => ss))
      + dhSuccess X.x25519 (toDh S (hybridI S X.x25519 X.publicKey A w r o)))
  + t * (3 * q + 2 * t) * 2 ^ (-256 : ℤ)

/-- **C91** X-Wing, for many users and many messages, when ML-KEM is broken: the attacker is given all ML-KEM seeds and
messages. `u` users generate keys, and somebody encapsulates `t` times, the `j`th time for the user `w j`. The attacker asks
at most `q` questions: for ML-KEM's random functions, for the combiner, which is drawn at random, and for decapsulations
with all users' keys, of all ciphertexts but the challenges for that user. It tells the shared secrets from independent
uniform strings with an advantage of at most the bound. -/
theorem C91_insider (hX : PublicKeyIsBase X) (hcomm : Commutes X) (w : Fin t → Fin u) {q : Nat}
    (hA : ∀ d z m eb cb ss, (A d z m eb cb ss).AtMost q) :
    |prob (fun ((sk, m, e, g, j, F) : (Fin u → B32) × (Fin t → B32) × (Fin t → B32) × _) =>
          ManyInsiders S X w A id sk m e g j F)
        - prob (fun ((sk, m, e, K, g, j, F) : ManyCoinsI u t) => ManyInsiders S X w A (fun _ => K) sk m e g j F)|
      ≤ manyBoundI S X A w q := by
  rw [first_gameI, last_gameI]
  have h3 : |gameI S X A w 0 - gameI S X A w t| ≤ ∑ r : Fin t, |gameI S X A w r - gameI S X A w (r + 1)| := by
    rw [← Finset.sum_range_sub' (fun r => gameI S X A w r) t, ← Fin.sum_univ_eq_sum_range
      (fun r => gameI S X A w r - gameI S X A w (r + 1))]
    exact Finset.abs_sum_le_sum_abs _ _
  have step : ∀ r : Fin t, |gameI S X A w r - gameI S X A w (r + 1)| ≤
      (𝔼 o : OtherCoins u t, (expandAdvantage S X (hybridI S X.x25519 X.publicKey A w r o) id
        + (𝔼 ss, expandAdvantage S X (hybridI S X.x25519 X.publicKey A w r o) (fun _ => ss))
        + dhSuccess X.x25519 (toDh S (hybridI S X.x25519 X.publicKey A w r o)))) + (3 * q + 2 * t) * 2 ^ (-256 : ℤ) := by
    intro r
    rw [← real_gameI, ← ideal_gameI]
    have h := abs_expect_sub fun o : OtherCoins u t =>
      C71_insider S X (hybridI S X.x25519 X.publicKey A w r o) hX hcomm (hybridI_atMost S X A w r hA o)
    rw [Finset.expect_add_distrib, Fintype.expect_const] at h
    push_cast at h
    exact h
  refine (h3.trans (Finset.sum_le_sum fun r _ => step r)).trans (le_of_eq ?_)
  unfold manyBoundI
  rw [Finset.sum_add_distrib, Finset.sum_const, Finset.card_univ, Fintype.card_fin, nsmul_eq_mul]
  ring

/-- **C91** for X25519 as in RFC 7748, without an assumption on it -/
theorem C91_rfc7748 (w : Fin t → Fin u) {q : Nat} (hA : ∀ d z m eb cb ss, (A d z m eb cb ss).AtMost q) :
    |prob (fun ((sk, m, e, g, j, F) : (Fin u → B32) × (Fin t → B32) × (Fin t → B32) × _) =>
          ManyInsiders S rfc7748 w A id sk m e g j F)
        - prob (fun ((sk, m, e, K, g, j, F) : ManyCoinsI u t) => ManyInsiders S rfc7748 w A (fun _ => K) sk m e g j F)|
      ≤ manyBoundI S rfc7748 A w q :=
  C91_insider S rfc7748 A rfc7748_base rfc7748_commutes w hA

/-- **C91** The attacks on X25519 ask few questions. -/
theorem C91_questions (w : Fin t → Fin u) {q : Nat} (hA : ∀ d z m eb cb ss, (A d z m eb cb ss).AtMost q) (r : Fin t)
    (o : OtherCoins u t) (pk ct : B32) (coins : SolverCoins) :
    (toDh S (hybridI S X.x25519 X.publicKey A w r o) pk ct coins).AtMost (3 * q + 2 * t) :=
  C71_questions S _ (hybridI_atMost S X A w r hA o) pk ct coins

/-! ### The hypotheses hold for an attacker that tells -/

/-- Decapsulates a challenge with a key that it was not made for; then, knowing the X25519 secrets `x` of the second user's
key and `e` of the last challenge, looks at that one -/
noncomputable def knowingN (S : Sha3) (X : X25519) (x e : B32) (d _z : Fin 2 → B32) (m : Fin 3 → B32) (_ : Fin 2 → Bytes 1216)
    (cb : Fin 3 → Bytes 1120) (ss : Fin 3 → B32) : InsiderN (Fin 2) :=
  .decaps 0 (cb 1) fun _ => .hashG (m 2) (hashKey S (d 1)) fun a =>
    .combine a.1 (X.x25519 e (X.publicKey x), X.x25519 e basePoint, X.publicKey x) fun s => .guess (decide (ss 2 = s))

/-- The hypothesis of C91 holds for two users, three messages, one of them for the first user, the toy hash functions, and
an attacker that knows the X25519 secrets of one execution. It asks three questions, one of them a decapsulation. It always
answers `true` on the right secrets; on other secrets it answers `true` just if the last one is right. -/
example (x e0 : B32) : (∀ d z m eb cb ss, (knowingN Toy.S rfc7748 x e0 d z m eb cb ss).AtMost 3) ∧
    ∀ (sk : Fin 2 → B32) (m e : Fin 3 → B32), x = (expanded Toy.S (sk 1)).2.2 → e0 = e 2 → ∀ G J F,
      ManyInsiders Toy.S rfc7748 ![0, 1, 1] (knowingN Toy.S rfc7748 x e0) id sk m e G J F ∧
      ∃ y : B32, ∀ K : Fin 3 → B32,
        ManyInsiders Toy.S rfc7748 ![0, 1, 1] (knowingN Toy.S rfc7748 x e0) (fun _ => K) sk m e G J F ↔ K 2 = y := by
  refine ⟨fun d z m eb cb ss => ⟨2, rfl, fun _ => ⟨1, rfl, fun _ => ⟨0, rfl, fun _ => trivial⟩⟩⟩, ?_⟩
  rintro sk m e rfl rfl G J F
  refine ⟨?_, ?_⟩
  · rw [manyInsiders_iff]
    exact ⟨fun i => Toy.seedOk _ _, decide_eq_true_iff.2 rfl⟩
  · refine ⟨(madeI Toy.S rfc7748 G F (sk 1) (m 2) (e 2)).2, fun K => ?_⟩
    rw [manyInsiders_iff]
    exact (and_iff_right fun i => Toy.seedOk _ _).trans decide_eq_true_iff

end XWing
