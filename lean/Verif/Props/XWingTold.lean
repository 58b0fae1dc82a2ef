import Verif.Props.Told
import Verif.Props.XWingManyDh
import Verif.Spec.XWingTold
/-! C93: ciphertexts of the modelled X-Wing do not show which of two keys they were made for, even to somebody who is told
what they decapsulate to with each of the keys. -/
set_option linter.unusedSectionVars false
set_option synthInstance.maxSize 1000

namespace XWing
open Rust MlKem Fips203 XWingSpec Finset BigOperators Fo

variable [Build]

/-- The attacker is given the two public keys generated from `sk`, the ciphertext that encapsulation for the key `b` returns
when it draws `m` and `e`, and what decapsulating this ciphertext with each of the keys returns. It may ask for ML-KEM's
`G` and `J`, and for the decapsulation of all other ciphertexts with both keys. It ends with the guess `true`. -/
def Told (S : Sha3) (X : X25519) (A : (Bool → Bytes 1216) → Bytes 1120 → (Bool → B32) → XWingSpec.AttackerN Bool) (b : Bool)
    (sk : Bool → B32) (m e : B32) (G : B32 → B32 → B32 × B32) (J : B32 → Bytes 1088 → B32) : Prop :=
  ∃ (dk : Bool → DecapsulationKey) (ek : Bool → EncapsulationKey) (eb : Bool → Bytes 1216) (ct : Ciphertext)
    (cb : Bytes 1120) (ss : SharedSecret) (ss' : Bool → SharedSecret) (s : Bool → _) (s' : _),
    (∀ i, generate_key_pair (withOracles S G J) X blocks [sk i] = .ok ((dk i, ek i), s i) ∧ (ek i).as_bytes = .ok (eb i)) ∧
    (ek b).encapsulate (withOracles S G J) X blocks [m, e] = .ok ((ct, ss), s') ∧ ct.as_bytes = .ok cb ∧
    (∀ i, (do let ct ← Ciphertext.from_bytes cb; (dk i).decapsulate (withOracles S G J) X ct) = .ok (ss' i)) ∧
    (A eb cb ss').output G J (fun i c =>
      if c = cb then none else
        match (do let ct ← Ciphertext.from_bytes c; (dk i).decapsulate (withOracles S G J) X ct) with
        | .ok ss => some ss
        | _ => none) = true

variable (S : Sha3) (X : X25519)

theorem told_iff (A : (Bool → Bytes 1216) → Bytes 1120 → (Bool → B32) → XWingSpec.AttackerN Bool) (b : Bool)
    {sk : Bool → B32} (hs : ∀ i, MatrixOk S (sk i)) (m e : B32) (G : B32 → B32 → B32 × B32) (J : B32 → Bytes 1088 → B32) :
    Told S X A b sk m e G J ↔
      (A (fun i => publicOf S X.publicKey (sk i)) (madeFor S X G (sk b) m e).1
        (fun i => decapsBy S X G J (sk i) (madeFor S X G (sk b) m e).1)).output G J
        (fun i c => if c = (madeFor S X G (sk b) m e).1 then none else some (decapsBy S X G J (sk i) c)) = true := by
  have hr := fun i => run_ok S X (hs i) G J
  choose dk ek h1 h2 h3 h4 using hr
  choose ct h3 h5 using h3
  unfold Told
  constructor
  · rintro ⟨dk', ek', eb, ct', cb, ss, ss', s, s', g1, g3, g5, g6, g4⟩
    have hdk : ∀ i, dk' i = dk i ∧ ek' i = ek i := fun i =>
      Prod.mk.inj (Prod.mk.inj (Res.ok.inj ((g1 i).1.symm.trans (h1 i)))).1
    obtain rfl : dk' = dk := funext fun i => (hdk i).1
    obtain rfl : ek' = ek := funext fun i => (hdk i).2
    obtain rfl : eb = _ := funext fun i => Res.ok.inj ((g1 i).2.symm.trans (h2 i))
    obtain ⟨rfl, rfl⟩ := Prod.mk.inj (Prod.mk.inj (Res.ok.inj (g3.symm.trans (h3 b m e)))).1
    obtain rfl := Res.ok.inj (g5.symm.trans (h5 b m e))
    obtain rfl : ss' = _ := funext fun i => Res.ok.inj ((g6 i).symm.trans (h4 i _))
    simp only [h4] at g4
    exact g4
  · intro g4
    refine ⟨dk, ek, _, _, _, _, _, _, _, fun i => ⟨h1 i, h2 i⟩, h3 b m e, h5 b m e, fun i => h4 i _, ?_⟩
    simp only [h4]
    exact g4

theorem told_none (A : (Bool → Bytes 1216) → Bytes 1120 → (Bool → B32) → XWingSpec.AttackerN Bool) (b : Bool)
    {sk : Bool → B32} (hs : ¬ ∀ i, MatrixOk S (sk i)) (m e : B32) (G : B32 → B32 → B32 × B32) (J : B32 → Bytes 1088 → B32) :
    ¬ Told S X A b sk m e G J := by
  rintro ⟨dk, ek, eb, ct, cb, ss, ss', s, s', g1, -⟩
  exact hs fun i => matrix_of_generate S X (g1 i).1

omit [Build] in
theorem answerTold_output (x : Bool → B32) (c : Bytes 1120) (K : Bool → B32) (G : B32 → B32 → B32 × B32)
    (J : B32 → Bytes 1088 → B32) {D : Bool → Bytes 1120 → Option B32} {D' : Bool → Bytes 1088 → Option B32}
    (h0 : ∀ i, D i c = none)
    (h1 : ∀ i c', c' ≠ c → partM c' = partM c → D i c' = some (keyed S (K i) (X.x25519 (x i) (partX c'), partX c', X.publicKey (x i))))
    (h2 : ∀ i c', partM c' ≠ partM c →
      D i c' = (D' i (partM c')).map fun K => keyed S K (X.x25519 (x i) (partX c'), partX c', X.publicKey (x i)))
    (B : XWingSpec.AttackerN Bool) :
    (answerTold S X.x25519 X.publicKey x c K B).output G J D' = B.output G J D := by
  induction B with
  | guess g => rfl
  | hashG m a next ih => exact ih _
  | hashJ z' c next ih => exact ih _
  | decaps i c' next ih =>
    unfold answerTold XWingSpec.AttackerN.output
    by_cases hc : c' = c
    · rw [if_pos hc, ih, hc, h0]
    · rw [if_neg hc]
      by_cases hm : partM c' = partM c
      · rw [if_pos hm, ih, h1 i c' hc hm]
      · rw [if_neg hm, h2 i c' hm]
        exact ih _

omit [Build] in
theorem attacker2_mono {n : Nat} (A : Attacker2 n) {q q' : Nat} (h : A.AtMost q) (hq : q ≤ q') : A.AtMost q' := by
  induction A generalizing q q' with
  | guess g => trivial
  | hashG m a next ih =>
    obtain ⟨q, rfl, h⟩ := h
    exact ⟨q' - 1, by omega, fun x => ih x (h x) (by omega)⟩
  | hashJ z c next ih =>
    obtain ⟨q, rfl, h⟩ := h
    exact ⟨q' - 1, by omega, fun x => ih x (h x) (by omega)⟩
  | decaps i c next ih =>
    obtain ⟨q, rfl, h⟩ := h
    exact ⟨q' - 1, by omega, fun x => ih x (h x) (by omega)⟩

omit [Build] in
theorem answerTold_atMost (x : Bool → B32) (c : Bytes 1120) (K : Bool → B32) (B : XWingSpec.AttackerN Bool) {q : Nat}
    (h : B.AtMost q) : (answerTold S X.x25519 X.publicKey x c K B).AtMost q := by
  induction B generalizing q with
  | guess g => trivial
  | hashG m a next ih => obtain ⟨q, rfl, h⟩ := h; exact ⟨q, rfl, fun x => ih x (h x)⟩
  | hashJ z' c next ih => obtain ⟨q, rfl, h⟩ := h; exact ⟨q, rfl, fun x => ih x (h x)⟩
  | decaps i c' next ih =>
    obtain ⟨q, rfl, h⟩ := h
    unfold answerTold
    by_cases hc : c' = c
    · rw [if_pos hc]; exact attacker2_mono _ (ih _ (h _)) (Nat.le_succ _)
    by_cases hm : partM c' = partM c
    · rw [if_neg hc, if_pos hm]; exact attacker2_mono _ (ih _ (h _)) (Nat.le_succ _)
    · rw [if_neg hc, if_neg hm]; exact ⟨_, rfl, fun a => ih _ (h _)⟩

theorem kemDecaps_eq (G : B32 → B32 → B32 × B32) (J : B32 → Bytes 1088 → B32) (d z : B32) (c : Bytes 1088) :
    MlKem.decapsBy S ML_KEM_768 G J d z c = kemDecaps S G J d z c := by
  unfold MlKem.decapsBy Fo.keyOf kemDecaps kemCipher decrypt
  exact ite_same rfl

theorem told_point (A : (Bool → Bytes 1216) → Bytes 1120 → (Bool → B32) → XWingSpec.AttackerN Bool) (sk : Bool → B32)
    (c : Bytes 1088) (e : B32) (G : B32 → B32 → B32 × B32) (J : B32 → Bytes 1088 → B32) :
    (A (fun i => publicOf S X.publicKey (sk i)) (join c (X.x25519 e basePoint))
        (fun i => decapsBy S X G J (sk i) (join c (X.x25519 e basePoint)))).output G J
        (fun i c' => if c' = join c (X.x25519 e basePoint) then none else some (decapsBy S X G J (sk i) c'))
      = (toldKem S X.x25519 X.publicKey A (fun i => (expanded S (sk i)).2.2) e
          (fun i => Fips203.bytes 1184 (KPKE_KeyGen S ML_KEM_768 (expanded S (sk i)).1.toList).1) c
          (fun i => MlKem.decapsBy S ML_KEM_768 G J (expanded S (sk i)).1 (expanded S (sk i)).2.1 c)).output G J
        (fun i => simD c (MlKem.decapsBy S ML_KEM_768 G J (expanded S (sk i)).1 (expanded S (sk i)).2.1)) := by
  have hk : ∀ i c', decapsBy S X G J (sk i) c' = keyed S (MlKem.decapsBy S ML_KEM_768 G J (expanded S (sk i)).1 (expanded S (sk i)).2.1 (partM c'))
      (X.x25519 (expanded S (sk i)).2.2 (partX c'), partX c', X.publicKey (expanded S (sk i)).2.2) := fun i c' => by
    rw [kemDecaps_eq]
    rfl
  have hss : (fun i => decapsBy S X G J (sk i) (join c (X.x25519 e basePoint)))
      = fun i => keyed S (MlKem.decapsBy S ML_KEM_768 G J (expanded S (sk i)).1 (expanded S (sk i)).2.1 c)
        (X.x25519 (expanded S (sk i)).2.2 (X.x25519 e basePoint), X.x25519 e basePoint, X.publicKey (expanded S (sk i)).2.2) := by
    funext i
    rw [hk, partM_join, partX_join]
  rw [hss]
  unfold toldKem
  refine (answerTold_output S X _ _ _ G J (fun i => if_pos rfl) (fun i c' h1 h2 => ?_) (fun i c' h2 => ?_) _).symm
  · rw [if_neg h1, hk, h2, partM_join]
  · rw [if_neg fun h => h2 (congrArg partM h)]
    rw [partM_join] at h2
    unfold simD
    rw [if_neg h2, hk]
    rfl

/-- The X-Wing attack is an attack on ML-KEM. -/
theorem told_kem (A : (Bool → Bytes 1216) → Bytes 1120 → (Bool → B32) → XWingSpec.AttackerN Bool) (b : Bool)
    (sk : Bool → B32) (m e : B32) (G : B32 → B32 → B32 × B32) (J : B32 → Bytes 1088 → B32) :
    Told S X A b sk m e G J ↔
      MlKem.Told S MlKem768Params (toldKem S X.x25519 X.publicKey A (fun i => (expanded S (sk i)).2.2) e) b
        (fun i => (expanded S (sk i)).1) (fun i => (expanded S (sk i)).2.1) m G J := by
  by_cases hs : ∀ i, MatrixOk S (sk i)
  · refine (told_iff S X A b hs m e G J).trans (Iff.trans ?_ (MlKem.told_iff S supported_768
      (toldKem S X.x25519 X.publicKey A (fun i => (expanded S (sk i)).2.2) e) b hs _ m G J).symm)
    exact iff_of_eq (congrArg (· = true) (told_point S X A sk (kemCipher S G (expanded S (sk b)).1 m) e G J))
  · exact iff_of_false (told_none S X A b hs _ _ _ _) (MlKem.told_none S supported_768 _ b hs _ _ _ _)

variable {Ω : Type}

/-- The attack, as a test of whether two triples of ML-KEM seeds and X25519 secrets were expanded from secret keys -/
def onExpanded (A : Ω → XofTable → (Bool → Bytes 1216) → Bytes 1120 → (Bool → B32) → XWingSpec.AttackerN Bool) (b : Bool)
    (s : Bool → B32 × B32 × B32) :
    XofTable × B32 × B32 × Ω × (B32 → B32 → B32 × B32) × (B32 → Bytes 1088 → B32) → Prop
  | (T, m, e, o, g, j) =>
    MlKem.Told (withXof S T) MlKem768Params (toldKem (withXof S T) X.x25519 X.publicKey (A o T) (fun i => (s i).2.2) e) b
      (fun i => (s i).1) (fun i => (s i).2.1) m g j

variable [Fintype Ω] [Nonempty Ω]

theorem expand_hop (A : Ω → XofTable → (Bool → Bytes 1216) → Bytes 1120 → (Bool → B32) → XWingSpec.AttackerN Bool) (b : Bool) :
    |prob (fun ((T, sk, m, e, o, g, j) : XofTable × (Bool → B32) × B32 × B32 × Ω × _ × _) =>
          Told (withXof S T) X (A o T) b sk m e g j)
        - prob (fun (T, d, z, m, o, g, j) =>
          MlKem.Told (withXof S T) MlKem768Params (toldAttack S X.x25519 X.publicKey A o T) b d z m g j)|
      = Fips203.advantage (onExpanded S X A b) (fun (sk : Bool → B32) i => expanded S (sk i)) id := by
  have e1 : MlKem.Even (fun ((sk, T, m, e, o, g, j) : (Bool → B32) × XofTable × B32 × B32 × Ω × (B32 → B32 → B32 × B32) ×
      (B32 → Bytes 1088 → B32)) => (T, sk, m, e, o, g, j)) :=
    MlKem.Even.equiv (α := (Bool → B32) × XofTable × B32 × B32 × Ω × (B32 → B32 → B32 × B32) × (B32 → Bytes 1088 → B32))
      (β := XofTable × (Bool → B32) × B32 × B32 × Ω × (B32 → B32 → B32 × B32) × (B32 → Bytes 1088 → B32))
        { toFun := fun (sk, T, m, e, o, g, j) => (T, sk, m, e, o, g, j)
          invFun := fun (T, sk, m, e, o, g, j) => (sk, T, m, e, o, g, j)
          left_inv := fun _ => rfl
          right_inv := fun _ => rfl }
  have e2 : MlKem.Even (fun ((s, T, m, e, o, g, j) : (Bool → B32 × B32 × B32) × XofTable × B32 × B32 × Ω ×
      (B32 → B32 → B32 × B32) × (B32 → Bytes 1088 → B32)) =>
      (T, (fun i => (s i).1), (fun i => (s i).2.1), m, (o, (fun i => (s i).2.2), e), g, j)) :=
    MlKem.Even.equiv (α := (Bool → B32 × B32 × B32) × XofTable × B32 × B32 × Ω × (B32 → B32 → B32 × B32) × (B32 → Bytes 1088 → B32))
      (β := XofTable × (Bool → B32) × (Bool → B32) × B32 × (Ω × (Bool → B32) × B32) × (B32 → B32 → B32 × B32) ×
        (B32 → Bytes 1088 → B32))
        { toFun := fun (s, T, m, e, o, g, j) => (T, (fun i => (s i).1), (fun i => (s i).2.1), m, (o, (fun i => (s i).2.2), e), g, j)
          invFun := fun (T, d, z, m, (o, x, e), g, j) => ((fun i => (d i, z i, x i)), T, m, e, o, g, j)
          left_inv := fun _ => rfl
          right_inv := fun _ => rfl }
  unfold Fips203.advantage
  rw [← e1.prob]
  refine congrArg₂ (fun x y => |x - y|) (congrArg prob (funext fun x => ?_)) (e2.prob _).symm
  obtain ⟨sk, T, m, e, o, g, j⟩ := x
  refine (propext (told_kem (withXof S T) X (A o T) b sk m e g j)).trans ?_
  simp only [expanded_xof]
  rfl

/-- **C93** X-Wing ciphertexts do not show whom they are for, not even to somebody who sees what both recipients make of
them. The attacker is given two public keys, the ciphertext that encapsulation returns for one of them, and what
decapsulating this ciphertext with each of the two keys returns. SHAKE128 on 34-byte strings is a random table `T`, which
the attacker can read; the attacker also uses coins `o`. It asks at most `q` questions, also for decapsulations of other
ciphertexts with both keys. It tells which key was used with an advantage of at most what C92 states for the attacker on
ML-KEM-768 built from it, and the advantages of two tests whether seeds and secrets are expanded from secret keys. Nothing
is assumed about X25519 and the combiner. -/
theorem C93_anonymous (A : Ω → XofTable → (Bool → Bytes 1216) → Bytes 1120 → (Bool → B32) → XWingSpec.AttackerN Bool) {q : Nat}
    (hA : ∀ o T e c K, (A o T e c K).AtMost q) :
    |prob (fun ((T, sk, m, e, o, g, j) : XofTable × (Bool → B32) × B32 × B32 × Ω × _ × _) =>
          Told (withXof S T) X (A o T) false sk m e g j)
        - prob (fun ((T, sk, m, e, o, g, j) : XofTable × (Bool → B32) × B32 × B32 × Ω × _ × _) =>
          Told (withXof S T) X (A o T) true sk m e g j)|
      ≤ Fips203.advantage (onExpanded S X A false) (fun (sk : Bool → B32) i => expanded S (sk i)) id
        + Fips203.advantage (onExpanded S X A true) (fun (sk : Bool → B32) i => expanded S (sk i)) id
        + challengeAssumptions S ML_KEM_768 (againstTold S ML_KEM_768 (toldAttack S X.x25519 X.publicKey A) false)
        + challengeAssumptions S ML_KEM_768 (againstTold S ML_KEM_768 (toldAttack S X.x25519 X.publicKey A) true)
        + 162 * (2 : ℝ) ^ (-261 : ℤ)
        + (12 * q + 18) * (correctnessAssumptions S ML_KEM_768 + 2 ^ (-152 : ℤ)) + (20 * q + 16) * 2 ^ (-256 : ℤ) := by
  generalize h0 : challengeAssumptions S ML_KEM_768 (againstTold S ML_KEM_768 (toldAttack S X.x25519 X.publicKey A) false) = a0
  generalize h1 : challengeAssumptions S ML_KEM_768 (againstTold S ML_KEM_768 (toldAttack S X.x25519 X.publicKey A) true) = a1
  have c : |prob (fun (T, d, z, m, o, g, j) =>
          MlKem.Told (withXof S T) MlKem768Params (toldAttack S X.x25519 X.publicKey A o T) false d z m g j)
        - prob (fun (T, d, z, m, o, g, j) =>
          MlKem.Told (withXof S T) MlKem768Params (toldAttack S X.x25519 X.publicKey A o T) true d z m g j)|
      ≤ a0 + a1 + 18 * ML_KEM_768.k ^ 2 * (2 : ℝ) ^ (-261 : ℤ)
        + (12 * q + 18) * (correctnessAssumptions S ML_KEM_768 + 2 ^ (-failureBits ML_KEM_768 : ℤ))
        + (20 * q + 16) * 2 ^ (-256 : ℤ) := by
    rw [← h0, ← h1]
    exact C92_anonymous (P := MlKem768Params) S supported_768 (.inr (.inl rfl)) (toldAttack S X.x25519 X.publicKey A) (q := q)
      (fun o T ek c K => answerTold_atMost (withXof S T) X _ _ _ _ (hA _ _ _ _ _))
  have e0 := (expand_hop S X A false).le
  have e1 := (expand_hop S X A true).le
  rw [show failureBits ML_KEM_768 = 152 from rfl, show (ML_KEM_768.k : ℝ) = 3 from by norm_num [ML_KEM_768]] at c
  push_cast at c
  have tri : ∀ {a b c u v : ℝ}, |a - b| ≤ u → |b - c| ≤ v → |a - c| ≤ u + v := fun h h' =>
    (abs_sub_le _ _ _).trans (add_le_add h h')
  rw [abs_sub_comm] at e1
  refine (tri (tri e0 c) e1).trans (le_of_eq ?_)
  ring

open Classical in
/-- Decapsulates some string with the key `false`; then, knowing a secret key and the randomness of the challenge, looks
whether the challenge was made for this key -/
noncomputable def insiderTold (S : Sha3) (o : B32 × B32) (_ : Bool → Bytes 1216) (cb : Bytes 1120) (_ : Bool → B32) :
    XWingSpec.AttackerN Bool :=
  .decaps false default fun _ => .hashG o.2 (hashKey S (expanded S o.1).1) fun a => .guess (decide (partM cb =
    kemCipher S (fun _ _ => a) (expanded S o.1).1 o.2))

theorem insiderTold_output (o : B32 × B32) (eb : Bool → Bytes 1216) (cb : Bytes 1120) (ss : Bool → B32)
    (G : B32 → B32 → B32 × B32) (J : B32 → Bytes 1088 → B32) (D : Bool → Bytes 1120 → Option B32) :
    (insiderTold S o eb cb ss).output G J D = true ↔ partM cb = kemCipher S G (expanded S o.1).1 o.2 := by
  unfold insiderTold
  rw [XWingSpec.AttackerN.output, XWingSpec.AttackerN.output, XWingSpec.AttackerN.output, decide_eq_true_iff]
  unfold kemCipher
  with_reducible rfl

/-- The hypothesis of C93 holds for an attacker that knows secrets of one execution, as its coins, and asks two questions,
one of them a decapsulation. If both matrices exist, which they do but for a probability of `18 / 2^261`, and the coins are
right, it always answers `true` when the challenge was made for the key `true`. When it was made for the key `false`, it
answers `true` just if the ML-KEM ciphertexts for both keys are equal. -/
example : (∀ (o : B32 × B32) (T : XofTable) eb cb ss, (insiderTold (withXof S T) o eb cb ss).AtMost 2) ∧
    ∀ (T : XofTable) (sk : Bool → B32), (∀ i, MatrixOk (withXof S T) (sk i)) → ∀ (m e : B32) G J,
      Told (withXof S T) X (insiderTold (withXof S T) (sk true, m)) true sk m e G J ∧
      (Told (withXof S T) X (insiderTold (withXof S T) (sk true, m)) false sk m e G J ↔
        kemCipher (withXof S T) G (expanded (withXof S T) (sk false)).1 m
          = kemCipher (withXof S T) G (expanded (withXof S T) (sk true)).1 m) := by
  have made : ∀ S G sk m e, (madeFor S X G sk m e).1 = join (kemCipher S G (expanded S sk).1 m) (X.x25519 e basePoint) := by
    intro S G sk m e
    unfold madeFor
    with_reducible rfl
  refine ⟨fun o T eb cb ss => ⟨1, rfl, fun _ => ⟨0, rfl, fun _ => trivial⟩⟩, fun T sk hs m e G J => ⟨?_, ?_⟩⟩
  · rw [told_iff _ _ _ _ hs, made, insiderTold_output, partM_join]
  · rw [told_iff _ _ _ _ hs, made, insiderTold_output, partM_join]

end XWing
