import Verif.Props.ManyUsers
import Verif.Props.XWingDh
import Verif.Spec.XWingMany
/-! C90: the modelled X-Wing is secure for many users and many messages at once. -/
set_option linter.unusedSectionVars false
set_option synthInstance.maxSize 1000

namespace XWing
open Rust MlKem Fips203 XWingSpec Finset BigOperators Fo
open MlKem (bytesOf toList_bytesOf bytes_ext)

variable [Build]

/-- Every user `i` generates a key pair from `sk i`; for every challenge `j` somebody encapsulates for the user `w j` and
draws `m j` and `e j`. The attacker is given the public keys, the ciphertexts and the shared secrets (or other strings,
`key`). It may ask for ML-KEM's `G` and `J`, and for decapsulations: with the key of the user `i`, of all ciphertexts but
the challenges for the user `i`. It ends with the guess `true`. -/
def ManyUsers {ι τ : Type} (S : Sha3) (X : X25519) (w : τ → ι)
    (A : (ι → Bytes 1216) → (τ → Bytes 1120) → (τ → B32) → XWingSpec.AttackerN ι) (key : (τ → B32) → τ → B32)
    (sk : ι → B32) (m e : τ → B32) (G : B32 → B32 → B32 × B32) (J : B32 → Bytes 1088 → B32) : Prop :=
  open Classical in
  ∃ (dk : ι → DecapsulationKey) (ek : ι → EncapsulationKey) (eb : ι → Bytes 1216) (ct : τ → Ciphertext)
    (cb : τ → Bytes 1120) (ss : τ → SharedSecret) (s : ι → _) (s' : τ → _),
    (∀ i, generate_key_pair (withOracles S G J) X blocks [sk i] = .ok ((dk i, ek i), s i) ∧ (ek i).as_bytes = .ok (eb i)) ∧
    (∀ j, (ek (w j)).encapsulate (withOracles S G J) X blocks [m j, e j] = .ok ((ct j, ss j), s' j) ∧
      (ct j).as_bytes = .ok (cb j)) ∧
    (A eb cb (key ss)).output G J (fun i c =>
      if ∃ j, w j = i ∧ c = cb j then none else
        match (do let ct ← Ciphertext.from_bytes c; (dk i).decapsulate (withOracles S G J) X ct) with
        | .ok ss => some ss
        | _ => none) = true

variable (S : Sha3) (X : X25519)

/-- The ciphertext and shared secret of an encapsulation for the key generated from `sk` -/
noncomputable def madeFor (G : B32 → B32 → B32 × B32) (sk m e : B32) : Bytes 1120 × B32 :=
  (join (kemCipher S G (expanded S sk).1 m) (X.x25519 e basePoint),
    keyed S (G m (hashKey S (expanded S sk).1)).1
      (X.x25519 e (X.publicKey (expanded S sk).2.2), X.x25519 e basePoint, X.publicKey (expanded S sk).2.2))

/-- Decapsulation with the key generated from `sk` -/
noncomputable def decapsBy (G : B32 → B32 → B32 × B32) (J : B32 → Bytes 1088 → B32) (sk : B32) (c : Bytes 1120) : B32 :=
  keyed S (kemDecaps S G J (expanded S sk).1 (expanded S sk).2.1 (partM c))
    (X.x25519 (expanded S sk).2.2 (partX c), partX c, X.publicKey (expanded S sk).2.2)

/-- The matrix of the ML-KEM key exists. -/
def MatrixOk (sk : B32) : Prop := SeedOk S 3 (seeds S ML_KEM_768 (expanded S sk).1.toList).1

theorem run_ok {sk : B32} (hs : MatrixOk S sk) (G : B32 → B32 → B32 × B32) (J : B32 → Bytes 1088 → B32) :
    ∃ dk ek, generate_key_pair (withOracles S G J) X blocks [sk] = .ok ((dk, ek), []) ∧
      ek.as_bytes = .ok (publicOf S X.publicKey sk) ∧
      (∀ m e, ∃ ct, ek.encapsulate (withOracles S G J) X blocks [m, e] = .ok ((ct, (madeFor S X G sk m e).2), []) ∧
        ct.as_bytes = .ok (madeFor S X G sk m e).1) ∧
      ∀ c : Bytes 1120, (do let ct ← Ciphertext.from_bytes c; dk.decapsulate (withOracles S G J) X ct) = .ok (decapsBy S X G J sk c) := by
  obtain ⟨sk_m, pk_m, h1, h2, h3, h4⟩ := MlKem.run_ok S supported_768 (d := (expanded S sk).1) hs (expanded S sk).2.1 G J
  have g2 : (DecapsulationKey.from_bytes sk).encapsulation_key (withOracles S G J) X
      = .ok ⟨pk_m, X.publicKey (expanded S sk).2.2⟩ := by
    unfold DecapsulationKey.encapsulation_key
    rw [expand_key_eq]
    have hg' : Kem.generate_deterministic (withOracles S G J) MlKem768Params
        (seedD (withOracles S G J) (DecapsulationKey.from_bytes sk).sk.toList)
        (seedZ (withOracles S G J) (DecapsulationKey.from_bytes sk).sk.toList) = .ok (sk_m, pk_m) := h1
    rw [hg']
    rfl
  refine ⟨DecapsulationKey.from_bytes sk, ⟨pk_m, X.publicKey (expanded S sk).2.2⟩,
    ((C40_randomness (withOracles S G J) X blocks [sk]).1 _).2 ⟨sk, [], _, rfl, g2, rfl⟩, ek_as_bytes _ h2,
    fun m e => ⟨⟨_, X.x25519 e basePoint⟩,
      ((C40_randomness (withOracles S G J) X blocks [m, e]).2 _ _).2 ⟨m, [e], e, [], _, _, rfl, rfl, h3 m, rfl⟩,
      ct_as_bytes _⟩, fun c => ?_⟩
  have hct : Ciphertext.from_bytes c = .ok ⟨front 1088 c, back 1088 32 c⟩ := ct_from_bytes c
  rw [hct, Res.ok_bind]
  unfold DecapsulationKey.decapsulate
  rw [expand_key_eq]
  have hg' : Kem.generate_deterministic (withOracles S G J) MlKem768Params
      (seedD (withOracles S G J) (DecapsulationKey.from_bytes sk).sk.toList)
      (seedZ (withOracles S G J) (DecapsulationKey.from_bytes sk).sk.toList) = .ok (sk_m, pk_m) := h1
  rw [hg', Res.ok_bind, Res.ok_bind]
  dsimp only
  have h4' := h4 (front 1088 c)
  have e : Fo.keyOf (encrypt S ML_KEM_768 MlKem768Params.CiphertextSize (KPKE_KeyGen S ML_KEM_768 (expanded S sk).1.toList).1)
      (decrypt S ML_KEM_768 MlKem768Params.CiphertextSize (expanded S sk).1)
      (fun m => (G m (keyHash S ML_KEM_768 (expanded S sk).1)).1) (fun m => (G m (keyHash S ML_KEM_768 (expanded S sk).1)).2)
      (J (expanded S sk).2.1) (front 1088 c) = kemDecaps S G J (expanded S sk).1 (expanded S sk).2.1 (partM c) := by
    rw [partM_eq]
    unfold Fo.keyOf kemDecaps kemCipher decrypt
    exact ite_same rfl
  have h5 : sk_m.decapsulate (withOracles S G J) (front 1088 c)
      = .ok (kemDecaps S G J (expanded S sk).1 (expanded S sk).2.1 (partM c)) := h4'.trans (congrArg Res.ok e)
  rw [h5]
  rfl

variable {u t : Nat}

open Classical in
/-- Decapsulation with all keys, but for the challenges -/
noncomputable def decapsN {ι : Type} (G : B32 → B32 → B32 × B32) (J : B32 → Bytes 1088 → B32) (sk : ι → B32)
    (R : ι → Bytes 1120 → Prop) (i : ι) (c : Bytes 1120) : Option B32 :=
  if R i c then none else some (decapsBy S X G J (sk i) c)

/-- What an attacker says about ciphertexts and secrets -/
def SaysN (w : Fin t → Fin u) (A : (Fin u → Bytes 1216) → (Fin t → Bytes 1120) → (Fin t → B32) → XWingSpec.AttackerN (Fin u))
    (ch : Fin t → Bytes 1120 × B32) (sk : Fin u → B32) (G : B32 → B32 → B32 × B32) (J : B32 → Bytes 1088 → B32) : Prop :=
  (A (fun i => publicOf S X.publicKey (sk i)) (fun j => (ch j).1) (fun j => (ch j).2)).output G J
    (decapsN S X G J sk fun i c' => ∃ j, w j = i ∧ c' = (ch j).1) = true

theorem manyUsers_iff (w : Fin t → Fin u)
    (A : (Fin u → Bytes 1216) → (Fin t → Bytes 1120) → (Fin t → B32) → XWingSpec.AttackerN (Fin u))
    (key : (Fin t → B32) → Fin t → B32) {sk : Fin u → B32} (hs : ∀ i, MatrixOk S (sk i)) (m e : Fin t → B32)
    (G : B32 → B32 → B32 × B32) (J : B32 → Bytes 1088 → B32) :
    ManyUsers S X w A key sk m e G J ↔
      SaysN S X w A (fun j => ((madeFor S X G (sk (w j)) (m j) (e j)).1,
        key (fun j => (madeFor S X G (sk (w j)) (m j) (e j)).2) j)) sk G J := by
  have hr := fun i => run_ok S X (hs i) G J
  choose dk ek h1 h2 h3 h4 using hr
  choose ct h3 h5 using h3
  unfold ManyUsers SaysN
  constructor
  · rintro ⟨dk', ek', eb, ct', cb, ss, s, s', g1, g3, g4⟩
    have hdk : ∀ i, dk' i = dk i ∧ ek' i = ek i := fun i =>
      Prod.mk.inj (Prod.mk.inj (Res.ok.inj ((g1 i).1.symm.trans (h1 i)))).1
    obtain rfl : dk' = dk := funext fun i => (hdk i).1
    obtain rfl : ek' = ek := funext fun i => (hdk i).2
    obtain rfl : eb = _ := funext fun i => Res.ok.inj ((g1 i).2.symm.trans (h2 i))
    have hc := fun j => Prod.mk.inj (Prod.mk.inj (Res.ok.inj ((g3 j).1.symm.trans (h3 (w j) (m j) (e j))))).1
    have hcb := fun j => Res.ok.inj ((g3 j).2.symm.trans ((congrArg Ciphertext.as_bytes (hc j).1).trans (h5 (w j) (m j) (e j))))
    obtain rfl : cb = _ := funext hcb
    obtain rfl : ss = _ := funext fun j => (hc j).2
    simp only [h4] at g4
    refine Eq.trans ?_ g4
    unfold decapsN
    exact congrFun (congrArg (XWingSpec.AttackerN.output G J) (funext fun i => funext fun c => ite_same rfl)) _
  · intro g4
    refine ⟨dk, ek, _, _, _, _, _, _, fun i => ⟨h1 i, h2 i⟩, fun j => ⟨h3 (w j) (m j) (e j), h5 (w j) (m j) (e j)⟩, ?_⟩
    simp only [h4]
    refine Eq.trans ?_ g4
    unfold decapsN
    exact congrFun (congrArg (XWingSpec.AttackerN.output G J) (funext fun i => funext fun c => ite_same rfl)) _

theorem attack_iff (A : Bytes 1216 → Bytes 1120 → B32 → XWingSpec.Attacker) (key : B32 → B32) {sk : B32} (hs : MatrixOk S sk)
    (m e : B32) (G : B32 → B32 → B32 × B32) (J : B32 → Bytes 1088 → B32) :
    Attack S X A key sk m e G J ↔
      (A (publicOf S X.publicKey sk) (madeFor S X G sk m e).1 (key (madeFor S X G sk m e).2)).output G J
        (fun c => if c = (madeFor S X G sk m e).1 then none else some (decapsBy S X G J sk c)) = true := by
  obtain ⟨dk, ek, h1, h2, h3, h4⟩ := run_ok S X hs G J
  obtain ⟨ct, h3, h5⟩ := h3 m e
  unfold Attack
  constructor
  · rintro ⟨dk', ek', eb, ct', cb, ss, s, s', g1, g2, g3, g5, g4⟩
    obtain ⟨rfl, rfl⟩ := Prod.mk.inj (Prod.mk.inj (Res.ok.inj (g1.symm.trans h1))).1
    obtain rfl := Res.ok.inj (g2.symm.trans h2)
    obtain ⟨rfl, rfl⟩ := Prod.mk.inj (Prod.mk.inj (Res.ok.inj (g3.symm.trans h3))).1
    obtain rfl := Res.ok.inj (g5.symm.trans h5)
    simp only [h4] at g4
    exact g4
  · intro g4
    refine ⟨dk, ek, _, ct, _, _, _, _, h1, h2, h3, h5, ?_⟩
    simp only [h4]
    exact g4

/-! ### The attacker on one key -/

omit [Build] in
theorem atMost_mono (A : XWingSpec.Attacker) {q q' : Nat} (h : A.AtMost q) (hq : q ≤ q') : A.AtMost q' := by
  induction A generalizing q q' with
  | guess g => trivial
  | hashG m a next ih =>
    obtain ⟨q, rfl, h⟩ := h
    exact ⟨q' - 1, by omega, fun x => ih x (h x) (by omega)⟩
  | hashJ z c next ih =>
    obtain ⟨q, rfl, h⟩ := h
    exact ⟨q' - 1, by omega, fun x => ih x (h x) (by omega)⟩
  | decaps c next ih =>
    obtain ⟨q, rfl, h⟩ := h
    exact ⟨q' - 1, by omega, fun x => ih x (h x) (by omega)⟩

section
variable {ι : Type}

omit [Build] in
theorem withKeys_atMost (b : ι) (sk : ι → B32) (R : ι → Bytes 1120 → Prop) (A : XWingSpec.AttackerN ι) {q : Nat}
    (h : A.AtMost q) : (A.withKeys S X.x25519 X.publicKey b sk R).AtMost (2 * q) := by
  induction A generalizing q with
  | guess g => trivial
  | hashG m a next ih =>
    obtain ⟨q, rfl, h⟩ := h
    exact ⟨2 * q + 1, by ring, fun x => atMost_mono _ (ih x (h x)) (Nat.le_succ _)⟩
  | hashJ z' c next ih =>
    obtain ⟨q, rfl, h⟩ := h
    exact ⟨2 * q + 1, by ring, fun x => atMost_mono _ (ih x (h x)) (Nat.le_succ _)⟩
  | decaps i c next ih =>
    obtain ⟨q, rfl, h⟩ := h
    unfold XWingSpec.AttackerN.withKeys
    split
    · exact atMost_mono _ (ih _ (h _)) (by omega)
    · split
      · exact ⟨2 * q + 1, by ring, fun x => atMost_mono _ (ih x (h x)) (Nat.le_succ _)⟩
      · exact ⟨2 * q + 1, by ring, fun x => ⟨2 * q, rfl, fun y => ih _ (h _)⟩⟩

omit [Build] in
theorem withKeys_output [DecidableEq ι] (b : ι) (sk : ι → B32) (sk0 : B32) (R : ι → Bytes 1120 → Prop)
    (G : B32 → B32 → B32 × B32) (J : B32 → Bytes 1088 → B32) (c0 : Bytes 1120) (hR : R b c0) (A : XWingSpec.AttackerN ι) :
    (A.withKeys S X.x25519 X.publicKey b sk R).output G J (fun c => if c = c0 then none else some (decapsBy S X G J sk0 c))
      = A.output G J (decapsN S X G J (Function.update sk b sk0) R) := by
  induction A with
  | guess g => rfl
  | hashG m a next ih => exact ih _
  | hashJ z' c next ih => exact ih _
  | decaps i c next ih =>
    unfold XWingSpec.AttackerN.withKeys XWingSpec.AttackerN.output
    unfold decapsN
    by_cases hr : R i c
    · simp only [if_pos hr]
      exact ih _
    · simp only [if_neg hr]
      by_cases hi : i = b
      · subst hi
        have hc : c ≠ c0 := fun e => hr (e ▸ hR)
        rw [if_pos rfl, Function.update_self]
        unfold XWingSpec.Attacker.output
        rw [if_neg hc]
        exact ih _
      · rw [if_neg hi, Function.update_of_ne hi]
        simp only [XWingSpec.Attacker.output]
        rw [ih]
        refine congrArg (fun x => XWingSpec.AttackerN.output G J _ (next (some x))) ?_
        unfold decapsBy kemDecaps kemCipher hashKey
        generalize expanded S (sk i) = s
        obtain ⟨d, z, x⟩ := s
        exact congrArg (fun K => keyed S K (X.x25519 x (partX c), partX c, X.publicKey x)) (ite_same rfl)

end

omit [Build] in
theorem encapsAll_atMost (ek : Fin u → Bytes 1216) (w : Fin t → Fin u) (m e : Fin t → B32)
    (next : (Fin t → Bytes 1120 × B32) → XWingSpec.Attacker) {q : Nat} (h : ∀ ch, (next ch).AtMost q) (l : List (Fin t))
    (ch : Fin t → Bytes 1120 × B32) : (XWingSpec.encapsAll S X.x25519 ek w m e next l ch).AtMost (q + l.length) := by
  induction l generalizing ch with
  | nil => exact h ch
  | cons j l ih => exact ⟨q + l.length, rfl, fun a => ih _⟩

/-- The ciphertext and shared secret of an encapsulation for a public key -/
noncomputable def sealFor (G : B32 → B32 → B32 × B32) (ek : Bytes 1216) (m e : B32) : Bytes 1120 × B32 :=
  (join (encrypt S ML_KEM_768 1088 (keyM ek).toList m (G m (Fips203.bytes 32 (Fips203.H S (keyM ek).toList))).2)
      (X.x25519 e basePoint),
    keyed S (G m (Fips203.bytes 32 (Fips203.H S (keyM ek).toList))).1 (X.x25519 e (keyX ek), X.x25519 e basePoint, keyX ek))

omit [Build] in
theorem encapsAll_output (ek : Fin u → Bytes 1216) (w : Fin t → Fin u) (m e : Fin t → B32)
    (next : (Fin t → Bytes 1120 × B32) → XWingSpec.Attacker) (G : B32 → B32 → B32 × B32) (J : B32 → Bytes 1088 → B32)
    (D : Bytes 1120 → Option B32) (l : List (Fin t)) (ch : Fin t → Bytes 1120 × B32) :
    (XWingSpec.encapsAll S X.x25519 ek w m e next l ch).output G J D
      = (next fun j => if j ∈ l then sealFor S X G (ek (w j)) (m j) (e j) else ch j).output G J D := by
  induction l generalizing ch with
  | nil => simp [XWingSpec.encapsAll]
  | cons j l ih =>
    unfold XWingSpec.encapsAll
    simp only [XWingSpec.Attacker.output]
    rw [ih]
    refine congrArg (fun f => XWingSpec.Attacker.output G J D (next f)) (funext fun i => ?_)
    by_cases hl : i ∈ l
    · rw [if_pos hl, if_pos (List.mem_cons_of_mem _ hl)]
    · rw [if_neg hl]
      by_cases hi : i = j
      · subst hi
        rw [Function.update_self, if_pos List.mem_cons_self]
        rfl
      · rw [Function.update_of_ne hi, if_neg fun h => (List.mem_cons.1 h).elim hi hl]

omit [Build] in
theorem keyM_join (a : Bytes 1184) (b : Bytes 32) : keyM (joinKey a b) = a := by
  have : keyM (joinKey a b) = front 1184 (joinKey a b) := by
    apply Vector.ext
    intro i hi
    unfold keyM front Fips203.bytes bytesOf
    rw [Vector.getElem_ofFn, Vector.getElem_ofFn]
    simp only [List.getD_eq_getElem?_getD]
    rw [List.getElem?_take_of_lt hi]
  rw [this, joinKey_eq]
  exact front_cat (by decide) a b

omit [Build] in
theorem keyX_join (a : Bytes 1184) (b : Bytes 32) : keyX (joinKey a b) = b := by
  have : keyX (joinKey a b) = back 1184 32 (joinKey a b) := rfl
  rw [this, joinKey_eq]
  exact back_cat (by decide) a b

theorem sealFor_public (G : B32 → B32 → B32 × B32) (sk m e : B32) :
    sealFor S X G (publicOf S X.publicKey sk) m e = madeFor S X G sk m e := by
  unfold sealFor publicOf madeFor kemCipher hashKey
  rw [keyM_join, keyX_join]
  have : (Fips203.bytes 1184 (KPKE_KeyGen S ML_KEM_768 (expanded S sk).1.toList).1).toList
      = (KPKE_KeyGen S ML_KEM_768 (expanded S sk).1.toList).1 := MlKem.ek_toList S supported_768 _
  rw [this]

/-- The challenges when the secrets of the first `r` are replaced -/
noncomputable def mixed (r : Nat) (w : Fin t → Fin u) (sk : Fin u → B32) (m e K : Fin t → B32) (G : B32 → B32 → B32 × B32)
    (j : Fin t) : Bytes 1120 × B32 :=
  ((madeFor S X G (sk (w j)) (m j) (e j)).1, if j.val < r then K j else (madeFor S X G (sk (w j)) (m j) (e j)).2)

variable {Ω : Type}

theorem hybrid_output (w : Fin t → Fin u)
    (A : Ω → XofTable → (Fin u → Bytes 1216) → (Fin t → Bytes 1120) → (Fin t → B32) → XWingSpec.AttackerN (Fin u)) (r : Fin t)
    (T : XofTable) (o : Ω) (sk : Fin u → B32) (m e K : Fin t → B32) (sk0 m0 e0 ss : B32)
    (G : B32 → B32 → B32 × B32) (J : B32 → Bytes 1088 → B32) :
    (XWingSpec.hybrid S X.x25519 X.publicKey A w r (o, sk, m, e, K) T (publicOf (withXof S T) X.publicKey sk0)
        (madeFor (withXof S T) X G sk0 m0 e0).1 ss).output G J
        (fun c => if c = (madeFor (withXof S T) X G sk0 m0 e0).1 then none else
          some (decapsBy (withXof S T) X G J sk0 c)) = true ↔
      SaysN (withXof S T) X w (A o T)
        (fun j => ((mixed (withXof S T) X r w (Function.update sk (w r) sk0) (Function.update m r m0) (Function.update e r e0)
            K G j).1, if j = r then ss else
          (mixed (withXof S T) X r w (Function.update sk (w r) sk0) (Function.update m r m0) (Function.update e r e0) K G j).2))
        (Function.update sk (w r) sk0) G J := by
  generalize hS : withXof S T = S'
  have hek : (fun i => if i = w r then publicOf S' X.publicKey sk0 else publicOf S' X.publicKey (sk i))
      = fun i => publicOf S' X.publicKey (Function.update sk (w r) sk0 i) := by
    funext i
    by_cases hi : i = w r
    · subst hi; rw [if_pos rfl, Function.update_self]
    · rw [if_neg hi, Function.update_of_ne hi]
  have hch : (fun j => if j ∈ (List.finRange t).filter fun j => j ≠ r then
        sealFor S' X G (publicOf S' X.publicKey (Function.update sk (w r) sk0 (w j))) (m j) (e j)
        else ((madeFor S' X G sk0 m0 e0).1, ss))
      = fun j => if j = r then ((madeFor S' X G sk0 m0 e0).1, ss) else
          madeFor S' X G (Function.update sk (w r) sk0 (w j)) (m j) (e j) := by
    funext j
    rw [sealFor_public]
    by_cases hj : j = r
    · rw [if_neg (by simpa using hj), if_pos hj]
    · rw [if_pos (by simpa using hj), if_neg hj]
  have hfst : ∀ j, (if j = r then ((madeFor S' X G sk0 m0 e0).1, ss) else
          madeFor S' X G (Function.update sk (w r) sk0 (w j)) (m j) (e j)).1
      = (mixed S' X r w (Function.update sk (w r) sk0) (Function.update m r m0) (Function.update e r e0) K G j).1 := by
    intro j
    unfold mixed
    by_cases hj : j = r
    · subst hj
      rw [if_pos rfl, Function.update_self, Function.update_self, Function.update_self]
    · rw [if_neg hj, Function.update_of_ne hj, Function.update_of_ne hj]
  have hsnd : ∀ j, (if j < r then K j else (if j = r then ((madeFor S' X G sk0 m0 e0).1, ss) else
          madeFor S' X G (Function.update sk (w r) sk0 (w j)) (m j) (e j)).2)
      = if j = r then ss else
        (mixed S' X r w (Function.update sk (w r) sk0) (Function.update m r m0) (Function.update e r e0) K G j).2 := by
    intro j
    unfold mixed
    by_cases hj : j = r
    · subst hj
      rw [if_neg (lt_irrefl _), if_pos rfl, if_pos rfl]
    · rw [if_neg hj, if_neg hj, Function.update_of_ne hj, Function.update_of_ne hj]
      simp only [Fin.lt_def]
  unfold XWingSpec.hybrid
  simp only [hS]
  rw [hek, encapsAll_output, hch]
  simp only [hfst, hsnd]
  rw [withKeys_output]
  · rfl
  · refine ⟨r, rfl, ?_⟩
    unfold mixed
    simp only [Function.update_self]

theorem matrixOk_xof (T : XofTable) (sk : B32) : MatrixOk (withXof S T) sk
    = SeedOk (withXof S T) 3 (seeds (withXof S T) ML_KEM_768 (expanded S sk).1.toList).1 := by
  unfold MatrixOk
  rw [expanded_xof]

theorem real_point (w : Fin t → Fin u)
    (A : Ω → XofTable → (Fin u → Bytes 1216) → (Fin t → Bytes 1120) → (Fin t → B32) → XWingSpec.AttackerN (Fin u)) (r : Fin t)
    (T : XofTable) (o : Ω) (sk : Fin u → B32) (m e K : Fin t → B32) {sk0 : B32} (hs : MatrixOk (withXof S T) sk0) (m0 e0 : B32)
    (G : B32 → B32 → B32 × B32) (J : B32 → Bytes 1088 → B32) :
    Attack (withXof S T) X (XWingSpec.hybrid S X.x25519 X.publicKey A w r (o, sk, m, e, K) T) id sk0 m0 e0 G J ↔
      SaysN (withXof S T) X w (A o T)
        (mixed (withXof S T) X r w (Function.update sk (w r) sk0) (Function.update m r m0) (Function.update e r e0) K G)
        (Function.update sk (w r) sk0) G J := by
  rw [attack_iff (withXof S T) X _ _ hs, hybrid_output]
  refine iff_of_eq (congrArg (fun ch => SaysN (withXof S T) X w (A o T) ch (Function.update sk (w r) sk0) G J)
    (funext fun j => Prod.ext rfl ?_))
  dsimp only
  by_cases hj : j = r
  · subst hj
    rw [if_pos rfl]
    unfold mixed
    rw [if_neg (lt_irrefl _), Function.update_self, Function.update_self, Function.update_self]
    rfl
  · rw [if_neg hj]

theorem ideal_point (w : Fin t → Fin u)
    (A : Ω → XofTable → (Fin u → Bytes 1216) → (Fin t → Bytes 1120) → (Fin t → B32) → XWingSpec.AttackerN (Fin u)) (r : Fin t)
    (T : XofTable) (o : Ω) (sk : Fin u → B32) (m e K : Fin t → B32) {sk0 : B32} (hs : MatrixOk (withXof S T) sk0)
    (ss m0 e0 : B32) (G : B32 → B32 → B32 × B32) (J : B32 → Bytes 1088 → B32) :
    Attack (withXof S T) X (XWingSpec.hybrid S X.x25519 X.publicKey A w r (o, sk, m, e, K) T) (fun _ => ss) sk0 m0 e0 G J ↔
      SaysN (withXof S T) X w (A o T)
        (mixed (withXof S T) X (r + 1) w (Function.update sk (w r) sk0) (Function.update m r m0) (Function.update e r e0)
          (Function.update K r ss) G)
        (Function.update sk (w r) sk0) G J := by
  rw [attack_iff (withXof S T) X _ _ hs, hybrid_output]
  refine iff_of_eq (congrArg (fun ch => SaysN (withXof S T) X w (A o T) ch (Function.update sk (w r) sk0) G J)
    (funext fun j => Prod.ext rfl ?_))
  dsimp only
  unfold mixed
  by_cases hj : j = r
  · subst hj
    rw [if_pos rfl, if_pos (Nat.lt_succ_self _)]
    exact (Function.update_self j ss K).symm
  · have : (j.val < r.val + 1) ↔ j.val < r.val := by
      have := fun e => hj (Fin.ext e)
      omega
    rw [if_neg hj, Function.update_of_ne hj (f := K)]
    simp only [this]

variable [Fintype Ω] [Nonempty Ω]

/-- What the attack with some secrets replaced chooses at random -/
abbrev ManyCoins (u t : Nat) (Ω : Type) : Type :=
  XofTable × (Fin u → B32) × (Fin t → B32) × (Fin t → B32) × (Fin t → B32) × Ω × (B32 → B32 → B32 × B32) ×
    (B32 → Bytes 1088 → B32)

/-- The attack when the secrets of the first `r` challenges are replaced -/
noncomputable def game (w : Fin t → Fin u)
    (A : Ω → XofTable → (Fin u → Bytes 1216) → (Fin t → Bytes 1120) → (Fin t → B32) → XWingSpec.AttackerN (Fin u)) (r : Nat) : ℝ :=
  prob (fun ((T, sk, m, e, K, o, g, j) : ManyCoins u t Ω) =>
    SaysN (withXof S T) X w (A o T) (mixed (withXof S T) X r w sk m e K g) sk g j)

theorem prob_matrix_one : prob (fun ((T, sk) : XofTable × B32) => ¬ MatrixOk (withXof S T) sk) ≤ 9 * (2 : ℝ) ^ (-261 : ℤ) := by
  rw [prob_ind, expect_prod_type, Finset.expect_comm]
  refine (Finset.expect_le_expect fun sk _ => ?_).trans (le_of_eq (Fintype.expect_const _))
  have := expect_seed (p := ML_KEM_768) S (expanded S sk).1
  rw [show (ML_KEM_768.k : ℝ) = 3 from by norm_num [ML_KEM_768]] at this
  simp only [matrixOk_xof]
  refine this.trans (le_of_eq (by norm_num))

theorem prob_matrix_at (i : Fin u) :
    prob (fun x : XofTable × (Fin u → B32) => ¬ MatrixOk (withXof S x.1) (x.2 i)) ≤ 9 * (2 : ℝ) ^ (-261 : ℤ) := by
  have ev : MlKem.Even (fun (x : (XofTable × B32) × (Fin u → B32)) => (x.1.1, Function.update x.2 i x.1.2)) :=
    (MlKem.Even.map (MlKem.Even.id (α := XofTable)) (MlKem.Even.update (α := B32) i)).comp (MlKem.Even.equiv (Equiv.prodAssoc _ _ _))
  rw [← ev.prob]
  refine le_trans (le_of_eq ?_) (prob_matrix_one S)
  rw [← (MlKem.Even.fst (α := XofTable × B32) (β := Fin u → B32)).prob]
  refine congrArg prob (funext fun x => ?_)
  simp only [Function.update_self]

/-- Some user's matrix does not exist. -/
theorem prob_matrices (u : Nat) :
    prob (fun ((T, sk) : XofTable × (Fin u → B32)) => ¬ ∀ i, MatrixOk (withXof S T) (sk i))
      ≤ u * (9 * (2 : ℝ) ^ (-261 : ℤ)) := by
  have some := prob_exists_le _ (prob_matrix_at (u := u) S) (List.finRange u)
  rw [List.length_finRange] at some
  refine le_trans (prob_mono ?_) some
  intro x hx
  obtain ⟨i, hi⟩ := not_forall.1 hx
  exact ⟨i, List.mem_finRange i, hi⟩

theorem real_game (w : Fin t → Fin u)
    (A : Ω → XofTable → (Fin u → Bytes 1216) → (Fin t → Bytes 1120) → (Fin t → B32) → XWingSpec.AttackerN (Fin u)) (r : Fin t) :
    |prob (fun ((T, o, sk, m, e, g, j) : XofTable × HybridCoins u t Ω × _) => Attack (withXof S T) X
        (XWingSpec.hybrid S X.x25519 X.publicKey A w r o T) id sk m e g j) - game S X w A r| ≤ 9 * (2 : ℝ) ^ (-261 : ℤ) := by
  have ev : MlKem.Even (fun ((T, (o, sk, m, e, K), sk0, m0, e0, g, j) : XofTable × HybridCoins u t Ω × B32 × B32 × B32 ×
      (B32 → B32 → B32 × B32) × (B32 → Bytes 1088 → B32)) =>
      (T, Function.update sk (w r) sk0, Function.update m r m0, Function.update e r e0, K, o, g, j)) :=
    (MlKem.Even.map (MlKem.Even.id (α := XofTable)) (MlKem.Even.map (MlKem.Even.update (α := B32) (w r)) (MlKem.Even.map (MlKem.Even.update (α := B32) r)
      (MlKem.Even.map (MlKem.Even.update (α := B32) r) MlKem.Even.id)))).comp
      (MlKem.Even.equiv (α := XofTable × HybridCoins u t Ω × B32 × B32 × B32 × (B32 → B32 → B32 × B32) × (B32 → Bytes 1088 → B32))
        (β := XofTable × (B32 × (Fin u → B32)) × (B32 × (Fin t → B32)) × (B32 × (Fin t → B32)) ×
          (Fin t → B32) × Ω × (B32 → B32 → B32 × B32) × (B32 → Bytes 1088 → B32))
        { toFun := fun (T, (o, sk, m, e, K), sk0, m0, e0, g, j) => (T, (sk0, sk), (m0, m), (e0, e), K, o, g, j)
          invFun := fun (T, (sk0, sk), (m0, m), (e0, e), K, o, g, j) => (T, (o, sk, m, e, K), sk0, m0, e0, g, j)
          left_inv := fun _ => rfl
          right_inv := fun _ => rfl })
  have es : MlKem.Even (fun ((T, o, sk0, m0, e0, g, j) : XofTable × HybridCoins u t Ω × B32 × B32 × B32 ×
      (B32 → B32 → B32 × B32) × (B32 → Bytes 1088 → B32)) => (T, sk0)) :=
    (MlKem.Even.fst (β := HybridCoins u t Ω × B32 × B32 × (B32 → B32 → B32 × B32) × (B32 → Bytes 1088 → B32))).comp
      (MlKem.Even.equiv (α := XofTable × HybridCoins u t Ω × B32 × B32 × B32 × (B32 → B32 → B32 × B32) × (B32 → Bytes 1088 → B32))
        (β := (XofTable × B32) × HybridCoins u t Ω × B32 × B32 × (B32 → B32 → B32 × B32) × (B32 → Bytes 1088 → B32))
        { toFun := fun (T, o, sk0, m0, e0, g, j) => ((T, sk0), o, m0, e0, g, j)
          invFun := fun ((T, sk0), o, m0, e0, g, j) => (T, o, sk0, m0, e0, g, j)
          left_inv := fun _ => rfl
          right_inv := fun _ => rfl })
  unfold game
  rw [← ev.prob]
  refine (abs_prob_sub fun x hx => ?_).trans ((es.prob _).le.trans (prob_matrix_one S))
  obtain ⟨T, ⟨o, sk, m, e, K⟩, sk0, m0, e0, G, J⟩ := x
  exact real_point S X w A r T o sk m e K (not_not.1 hx) m0 e0 G J

theorem ideal_game (w : Fin t → Fin u)
    (A : Ω → XofTable → (Fin u → Bytes 1216) → (Fin t → Bytes 1120) → (Fin t → B32) → XWingSpec.AttackerN (Fin u)) (r : Fin t) :
    |prob (fun ((T, o, ss, sk, m, e, g, j) : XofTable × HybridCoins u t Ω × B32 × _) => Attack (withXof S T) X
        (XWingSpec.hybrid S X.x25519 X.publicKey A w r o T) (fun _ => ss) sk m e g j) - game S X w A (r + 1)|
      ≤ 9 * (2 : ℝ) ^ (-261 : ℤ) := by
  have ev : MlKem.Even (fun ((T, (o, sk, m, e, K), ss, sk0, m0, e0, g, j) : XofTable × HybridCoins u t Ω × B32 × B32 × B32 × B32 ×
      (B32 → B32 → B32 × B32) × (B32 → Bytes 1088 → B32)) =>
      (T, Function.update sk (w r) sk0, Function.update m r m0, Function.update e r e0, Function.update K r ss, o, g, j)) :=
    (MlKem.Even.map (MlKem.Even.id (α := XofTable)) (MlKem.Even.map (MlKem.Even.update (α := B32) (w r)) (MlKem.Even.map (MlKem.Even.update (α := B32) r)
      (MlKem.Even.map (MlKem.Even.update (α := B32) r) (MlKem.Even.map (MlKem.Even.update (α := B32) r) MlKem.Even.id))))).comp
      (MlKem.Even.equiv (α := XofTable × HybridCoins u t Ω × B32 × B32 × B32 × B32 × (B32 → B32 → B32 × B32) ×
          (B32 → Bytes 1088 → B32))
        (β := XofTable × (B32 × (Fin u → B32)) × (B32 × (Fin t → B32)) × (B32 × (Fin t → B32)) ×
          (B32 × (Fin t → B32)) × Ω × (B32 → B32 → B32 × B32) × (B32 → Bytes 1088 → B32))
        { toFun := fun (T, (o, sk, m, e, K), ss, sk0, m0, e0, g, j) => (T, (sk0, sk), (m0, m), (e0, e), (ss, K), o, g, j)
          invFun := fun (T, (sk0, sk), (m0, m), (e0, e), (ss, K), o, g, j) => (T, (o, sk, m, e, K), ss, sk0, m0, e0, g, j)
          left_inv := fun _ => rfl
          right_inv := fun _ => rfl })
  have es : MlKem.Even (fun ((T, o, ss, sk0, m0, e0, g, j) : XofTable × HybridCoins u t Ω × B32 × B32 × B32 × B32 ×
      (B32 → B32 → B32 × B32) × (B32 → Bytes 1088 → B32)) => (T, sk0)) :=
    (MlKem.Even.fst (β := HybridCoins u t Ω × B32 × B32 × B32 × (B32 → B32 → B32 × B32) × (B32 → Bytes 1088 → B32))).comp
      (MlKem.Even.equiv (α := XofTable × HybridCoins u t Ω × B32 × B32 × B32 × B32 × (B32 → B32 → B32 × B32) ×
          (B32 → Bytes 1088 → B32))
        (β := (XofTable × B32) × HybridCoins u t Ω × B32 × B32 × B32 × (B32 → B32 → B32 × B32) × (B32 → Bytes 1088 → B32))
        { toFun := fun (T, o, ss, sk0, m0, e0, g, j) => ((T, sk0), o, ss, m0, e0, g, j)
          invFun := fun ((T, sk0), o, ss, m0, e0, g, j) => (T, o, ss, sk0, m0, e0, g, j)
          left_inv := fun _ => rfl
          right_inv := fun _ => rfl })
  unfold game
  rw [← ev.prob]
  refine (abs_prob_sub fun x hx => ?_).trans ((es.prob _).le.trans (prob_matrix_one S))
  obtain ⟨T, ⟨o, sk, m, e, K⟩, ss, sk0, m0, e0, G, J⟩ := x
  exact ideal_point S X w A r T o sk m e K (not_not.1 hx) ss m0 e0 G J

theorem first_game (w : Fin t → Fin u)
    (A : Ω → XofTable → (Fin u → Bytes 1216) → (Fin t → Bytes 1120) → (Fin t → B32) → XWingSpec.AttackerN (Fin u)) :
    |prob (fun ((T, sk, m, e, o, g, j) : XofTable × _ × _ × _ × Ω × _) => ManyUsers (withXof S T) X w (A o T) id sk m e g j)
        - game S X w A 0| ≤ u * (9 * (2 : ℝ) ^ (-261 : ℤ)) := by
  have ev : MlKem.Even (fun ((T, sk, m, e, K, o, g, j) : ManyCoins u t Ω) => (T, sk, m, e, o, g, j)) :=
    (MlKem.Even.fst (β := Fin t → B32)).comp
      (MlKem.Even.equiv (α := ManyCoins u t Ω)
        (β := (XofTable × (Fin u → B32) × (Fin t → B32) × (Fin t → B32) × Ω × (B32 → B32 → B32 × B32) ×
          (B32 → Bytes 1088 → B32)) × (Fin t → B32))
        { toFun := fun (T, sk, m, e, K, o, g, j) => ((T, sk, m, e, o, g, j), K)
          invFun := fun ((T, sk, m, e, o, g, j), K) => (T, sk, m, e, K, o, g, j)
          left_inv := fun _ => rfl
          right_inv := fun _ => rfl })
  have es : MlKem.Even (fun ((T, sk, m, e, K, o, g, j) : ManyCoins u t Ω) => (T, sk)) := MlKem.Even.map MlKem.Even.id MlKem.Even.fst
  unfold game
  rw [← ev.prob]
  refine (abs_prob_sub fun x hx => ?_).trans ((es.prob _).le.trans (prob_matrices S u))
  obtain ⟨T, sk, m, e, K, o, G, J⟩ := x
  exact manyUsers_iff (withXof S T) X w (A o T) id (not_not.1 hx) m e G J

theorem last_game (w : Fin t → Fin u)
    (A : Ω → XofTable → (Fin u → Bytes 1216) → (Fin t → Bytes 1120) → (Fin t → B32) → XWingSpec.AttackerN (Fin u)) :
    |prob (fun ((T, sk, m, e, K, o, g, j) : ManyCoins u t Ω) => ManyUsers (withXof S T) X w (A o T) (fun _ => K) sk m e g j)
        - game S X w A t| ≤ u * (9 * (2 : ℝ) ^ (-261 : ℤ)) := by
  have es : MlKem.Even (fun ((T, sk, m, e, K, o, g, j) : ManyCoins u t Ω) => (T, sk)) := MlKem.Even.map MlKem.Even.id MlKem.Even.fst
  unfold game
  refine (abs_prob_sub fun x hx => ?_).trans ((es.prob _).le.trans (prob_matrices S u))
  obtain ⟨T, sk, m, e, K, o, G, J⟩ := x
  refine (manyUsers_iff (withXof S T) X w (A o T) (fun _ => K) (not_not.1 hx) m e G J).trans ?_
  have : mixed (withXof S T) X t w sk m e K G = fun j => ((madeFor (withXof S T) X G (sk (w j)) (m j) (e j)).1, K j) :=
    funext fun j => Prod.ext rfl (if_pos j.2)
  rw [← this]

/-- One more secret replaced -/
theorem many_step (w : Fin t → Fin u)
    (A : Ω → XofTable → (Fin u → Bytes 1216) → (Fin t → Bytes 1120) → (Fin t → B32) → XWingSpec.AttackerN (Fin u))
    {q : Nat} (hA : ∀ o T eb cb ss, (A o T eb cb ss).AtMost q) (r : Fin t) :
    |game S X w A r - game S X w A (r + 1)|
      ≤ hybridUniform S X (XWingSpec.hybrid S X.x25519 X.publicKey A w r) (fun _ => id)
        + hybridUniform S X (fun ((o, _) : HybridCoins u t Ω × B32) => XWingSpec.hybrid S X.x25519 X.publicKey A w r o)
            (fun ((_, ss) : HybridCoins u t Ω × B32) => fun _ => ss)
        + 54 * (2 : ℝ) ^ (-261 : ℤ) + (12 * q + 6 * t + 8) * (correctnessAssumptions S ML_KEM_768 + 2 ^ (-152 : ℤ))
        + (12 * q + 6 * t) * 2 ^ (-256 : ℤ) := by
  have hq : ∀ (o : HybridCoins u t Ω) (T : XofTable) eb cb ss,
      (XWingSpec.hybrid S X.x25519 X.publicKey A w r o T eb cb ss).AtMost (2 * q + t) := by
    rintro ⟨o, sk, m, e, Ks⟩ T eb cb ss
    refine atMost_mono _ (encapsAll_atMost _ _ _ _ _ _ _ (fun ch => withKeys_atMost _ _ _ _ _ _ (hA _ _ _ _ _)) _ _) ?_
    have := List.length_filter_le (fun j => decide (j ≠ r)) (List.finRange t)
    rw [List.length_finRange] at this
    omega
  have h1 := C86_xwing S X (XWingSpec.hybrid S X.x25519 X.publicKey A w r) hq
  have h2 := real_game S X w A r
  have h3 := ideal_game S X w A r
  push_cast at h1
  generalize prob (fun ((T, o, sk, m, e, g, j) : XofTable × HybridCoins u t Ω × _) => Attack (withXof S T) X
        (XWingSpec.hybrid S X.x25519 X.publicKey A w r o T) id sk m e g j) = x at *
  generalize prob (fun ((T, o, ss, sk, m, e, g, j) : XofTable × HybridCoins u t Ω × B32 × _) => Attack (withXof S T) X
        (XWingSpec.hybrid S X.x25519 X.publicKey A w r o T) (fun _ => ss) sk m e g j) = y at *
  rw [abs_le] at *
  constructor <;> linarith [h1.1, h1.2, h2.1, h2.2, h3.1, h3.2]

/-- The bound for `u` users, `t` messages and `q` questions: what attacks on single keys need, for every message, and
statistical terms -/
noncomputable def manyBound
    (A : Ω → XofTable → (Fin u → Bytes 1216) → (Fin t → Bytes 1120) → (Fin t → B32) → XWingSpec.AttackerN (Fin u))
    (w : Fin t → Fin u) (q : Nat) : ℝ :=
  ∑ r, (hybridUniform S X (XWingSpec.hybrid S X.x25519 X.publicKey A w r) (fun _ => id)
      + hybridUniform S X (fun ((o, _) : HybridCoins u t Ω × B32) => XWingSpec.hybrid S X.x25519 X.publicKey A w r o)
          (fun ((_, ss) : HybridCoins u t Ω × B32) => fun _ => ss))
    + (54 * t + 18 * u) * (2 : ℝ) ^ (-261 : ℤ)
    + t * (12 * q + 6 * t + 8) * (correctnessAssumptions S ML_KEM_768 + 2 ^ (-152 : ℤ))
    + t * (12 * q + 6 * t) * 2 ^ (-256 : ℤ)

/-- **C90** X-Wing, for many users and many messages. `u` users generate keys, and somebody encapsulates `t` times, the
`j`th time for the user `w j`. SHAKE128 on 34-byte strings is a random table `T`, which the attacker can read; the attacker
also uses coins `o`. It asks at most `q` questions, also for decapsulations with all users' keys, of all ciphertexts but the
challenges for that user. It tells the shared secrets from independent uniform strings with an advantage of at most the
bound. Nothing is assumed about X25519. -/
theorem C90_secure (w : Fin t → Fin u)
    (A : Ω → XofTable → (Fin u → Bytes 1216) → (Fin t → Bytes 1120) → (Fin t → B32) → XWingSpec.AttackerN (Fin u))
    {q : Nat} (hA : ∀ o T eb cb ss, (A o T eb cb ss).AtMost q) :
    |prob (fun ((T, sk, m, e, o, g, j) : XofTable × _ × _ × _ × Ω × _) => ManyUsers (withXof S T) X w (A o T) id sk m e g j)
        - prob (fun ((T, sk, m, e, K, o, g, j) : ManyCoins u t Ω) =>
            ManyUsers (withXof S T) X w (A o T) (fun _ => K) sk m e g j)|
      ≤ manyBound S X A w q := by
  have h1 := first_game S X w A
  have h2 := last_game S X w A
  have h3 : |game S X w A 0 - game S X w A t| ≤ ∑ r : Fin t, |game S X w A r - game S X w A (r + 1)| := by
    rw [← Finset.sum_range_sub' (fun r => game S X w A r) t, ← Fin.sum_univ_eq_sum_range
      (fun r => game S X w A r - game S X w A (r + 1))]
    exact Finset.abs_sum_le_sum_abs _ _
  have h4 := h3.trans (Finset.sum_le_sum fun r _ => many_step S X w A hA r)
  simp only [Finset.sum_add_distrib, Finset.sum_const, Finset.card_univ, Fintype.card_fin, nsmul_eq_mul] at h4
  unfold manyBound
  simp only [Finset.sum_add_distrib]
  generalize prob (fun ((T, sk, m, e, o, g, j) : XofTable × _ × _ × _ × Ω × _) =>
    ManyUsers (withXof S T) X w (A o T) id sk m e g j) = x at *
  generalize prob (fun ((T, sk, m, e, K, o, g, j) : ManyCoins u t Ω) =>
            ManyUsers (withXof S T) X w (A o T) (fun _ => K) sk m e g j) = y at *
  rw [abs_le] at *
  constructor <;> linarith [h1.1, h1.2, h2.1, h2.2, h4.1, h4.2]

/-! ### The hypotheses hold for an attacker that tells -/

/-- Decapsulates a challenge with a key that it was not made for; then, knowing the secrets `o` of the second user's key and
of the last challenge, looks at that one -/
noncomputable def insiderN (S : Sha3) (X : X25519) (o : B32 × B32 × B32) (_ : Fin 2 → Bytes 1216) (cb : Fin 3 → Bytes 1120)
    (ss : Fin 3 → B32) : XWingSpec.AttackerN (Fin 2) :=
  .decaps 0 (cb 1) fun _ => .hashG o.2.1 (hashKey S (expanded S o.1).1) fun a => .guess (decide (ss 2 = keyed S a.1
    (X.x25519 o.2.2 (X.publicKey (expanded S o.1).2.2), X.x25519 o.2.2 basePoint, X.publicKey (expanded S o.1).2.2)))

/-- The hypothesis of C90 holds for two users, three messages, one of them for the first user, and an attacker that knows
the secrets of one execution, as its coins. It asks two questions, one of them a decapsulation. If both matrices exist,
which they do but for a probability of `18 / 2^261`, and the coins are right, it always answers `true` on the right secrets;
on other secrets it answers `true` just if the last one is right. -/
example : (∀ (o : B32 × B32 × B32) (T : XofTable) eb cb ss, (insiderN (withXof S T) X o eb cb ss).AtMost 2) ∧
    ∀ (T : XofTable) (sk : Fin 2 → B32), (∀ i, MatrixOk (withXof S T) (sk i)) → ∀ (m e : Fin 3 → B32) G J,
      ManyUsers (withXof S T) X ![0, 1, 1] (insiderN (withXof S T) X (sk 1, m 2, e 2)) id sk m e G J ∧
      ∃ x : B32, ∀ K : Fin 3 → B32,
        ManyUsers (withXof S T) X ![0, 1, 1] (insiderN (withXof S T) X (sk 1, m 2, e 2)) (fun _ => K) sk m e G J ↔ K 2 = x := by
  refine ⟨fun o T eb cb ss => ⟨1, rfl, fun _ => ⟨0, rfl, fun _ => trivial⟩⟩, fun T sk hs m e G J => ⟨?_, ?_⟩⟩
  · rw [manyUsers_iff _ _ _ _ _ hs]
    exact decide_eq_true_iff.2 rfl
  · refine ⟨(madeFor (withXof S T) X G (sk 1) (m 2) (e 2)).2, fun K => ?_⟩
    rw [manyUsers_iff _ _ _ _ _ hs]
    exact decide_eq_true_iff

end XWing
