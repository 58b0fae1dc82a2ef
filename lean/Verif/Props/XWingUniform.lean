import Verif.Props.Pseudorandom
import Verif.Props.XWingCca
/-! C84: chosen-ciphertext security of the modelled X-Wing from learning with errors with uniform matrices. -/
set_option linter.unusedSectionVars false

namespace MlKem
open Rust Fips203 Finset BigOperators Fo

section
variable [Build] (S : Sha3) {P : ParameterSet} {p : Params} {Ω : Type} [Fintype Ω] [Nonempty Ω]

/-- C81 for attackers with coins -/
theorem C81_randomised (h : Supported P p)
    (A : Ω → XofTable → P.EncodedEncryptionKey → P.EncodedCiphertext → B32 → Attacker P.CiphertextSize) {q : Nat}
    (hA : ∀ o T e c K, (A o T e c K).AtMost q) {δ : XofTable → B32 → ℝ}
    (hδ : ∀ T d m, prob (fun r : B32 => Incorrect (withXof S T) p d m r) ≤ δ T d) :
    |prob (fun (T, o, d, m, G, z, J) => Attack (withXof S T) P (A o T) id d z m G J)
        - prob (fun (T, o, d, m, K1, G, z, J) => Attack (withXof S T) P (A o T) (fun _ => K1) d z m G J)|
      ≤ assumptionsM S p (collectT S p A) + 2 * p.k ^ 2 * (2 : ℝ) ^ (-261 : ℤ) + 3 * (q + 1) * (𝔼 T, 𝔼 d, δ T d)
        + 3 * q * 2 ^ (-256 : ℤ) := by
  have he : ∀ x : CbdSize, x.toNat ≤ 3 := by intro x; cases x <;> decide
  have h1 := fun T o => C66_chosen_ciphertext (withXof S T) h (A o T) (hA o T) (hδ T)
  have h2 := C81_one_way S (collectT S p A) h.k_le (h.eta1 ▸ he _) (h.eta2 ▸ he _)
    (e := P.EncryptionKeySize) (by obtain rfl := h.eq; rfl) (q := q) fun T ek c o => hashed_length _ _ _ _ (hA o.1 T _ _ _)
  have e1 : prob (fun (T, o, d, m, G, z, J) => Attack (withXof S T) P (A o T) id d z m G J)
      = 𝔼 T, 𝔼 o, prob (fun (d, m, G, z, J) => Attack (withXof S T) P (A o T) id d z m G J) := by
    simp only [prob_ind]
    exact (expect_prod_type _).trans (Finset.expect_congr rfl fun T _ => expect_prod_type _)
  have e2 : prob (fun (T, o, d, m, K1, G, z, J) => Attack (withXof S T) P (A o T) (fun _ => K1) d z m G J)
      = 𝔼 T, 𝔼 o, prob (fun (d, m, K1, G, z, J) => Attack (withXof S T) P (A o T) (fun _ => K1) d z m G J) := by
    simp only [prob_ind]
    exact (expect_prod_type _).trans (Finset.expect_congr rfl fun T _ => expect_prod_type _)
  have e3 : prob (fun ((T, d, m, r, coins) : XofTable × B32 × B32 × B32 × Ω × SimulatorCoins P.CiphertextSize) =>
        m ∈ collectT S p A T (Fips203.bytes _ (KPKE_KeyGen (withXof S T) p d.toList).1)
          (encrypt (withXof S T) p _ (KPKE_KeyGen (withXof S T) p d.toList).1 m r) coins)
      = 𝔼 T, 𝔼 o, prob (fun ((d, m, r, coins) : B32 × B32 × B32 × SimulatorCoins P.CiphertextSize) =>
        m ∈ simulate (withXof S T) p (A o T) (Fips203.bytes _ (KPKE_KeyGen (withXof S T) p d.toList).1)
          (encrypt (withXof S T) p _ (KPKE_KeyGen (withXof S T) p d.toList).1 m r) coins) := by
    simp only [prob_ind]
    refine (expect_prod_type _).trans (Finset.expect_congr rfl fun T _ => ?_)
    have l : ∀ f : B32 × B32 × B32 × Ω × SimulatorCoins P.CiphertextSize → ℝ,
        𝔼 x, f x = 𝔼 o, 𝔼 y : B32 × B32 × B32 × SimulatorCoins P.CiphertextSize, f (y.1, y.2.1, y.2.2.1, o, y.2.2.2) := by
      intro f
      rw [← expect_prod_type fun x : Ω × B32 × B32 × B32 × SimulatorCoins P.CiphertextSize =>
        f (x.2.1, x.2.2.1, x.2.2.2.1, x.1, x.2.2.2.2)]
      exact Fintype.expect_equiv ⟨fun x => (x.2.2.2.1, x.1, x.2.1, x.2.2.1, x.2.2.2.2),
        fun x => (x.2.1, x.2.2.1, x.2.2.2.1, x.1, x.2.2.2.2), fun _ => rfl, fun _ => rfl⟩ _ _ fun _ => rfl
    exact l _
  have h3 := abs_expect_sub fun T => abs_expect_sub (h1 T)
  simp only [Finset.expect_add_distrib, Fintype.expect_const] at h3
  rw [← Finset.mul_expect, ← e3] at h3
  rw [e1, e2]
  refine h3.trans ?_
  unfold assumptionsM keyAssumptionsM
  linarith

end
end MlKem

namespace XWing
open Rust MlKem Fips203 XWingSpec Finset BigOperators Fo

section
variable [Build] (S : Sha3) (X : X25519) {Ω : Type} [Fintype Ω] [Nonempty Ω]
  (A : Ω → XofTable → Bytes 1216 → Bytes 1120 → B32 → XWingSpec.Attacker) (key : Ω → B32 → B32)

/-- What an attack on X-Wing needs when SHAKE128 on 34-byte strings is a random table, which the attacker `A` can read:
the advantages against the expansion of the secret key by SHAKE128, against `G`, `PRF` and module learning with errors with
uniform matrices, and against the combiner as a pseudorandom function of `ss_M`. The attacker uses coins `o` and is shown
`key o ss`. -/
noncomputable def hybridUniform : ℝ :=
  Fips203.advantage (fun ((d, z, x) : B32 × B32 × B32) ((T, o, m, e, g, j) : XofTable × Ω × _) =>
      Expanded (withXof S T) X (A o T) (key o) d z x m e g j) (expanded S) id
  + assumptionsM S ML_KEM_768 (collectT S ML_KEM_768 (e := 1184) (n := 1088) fun ((o, x, e) : Ω × B32 × B32) (T : XofTable) =>
      toKem (withXof S T) X.x25519 X.publicKey (keyed S) (A o T) (key o) x e)
  + Fips203.advantage (fun (F : Exchange → B32) ((T, o, d, z, m, x, e, g, j) : XofTable × Ω × _) =>
      MlKem.Attack (withXof S T) MlKem768Params
        (toKem (withXof S T) X.x25519 X.publicKey (fun _ => F) (A o T) (key o) x e) id d z m g j) (keyed S) id

theorem expanded_xof (T : XofTable) (sk : B32) : expanded (withXof S T) sk = expanded S sk := by
  have : (withXof S T).shake128 sk.toList = S.shake128 sk.toList := by
    funext n
    unfold withXof
    dsimp only
    rw [dif_neg]
    simp
  unfold expanded seedD seedZ secretX expand
  rw [this]

section
variable {a b c d e : Type} [Fintype a] [Fintype b] [Fintype c] [Fintype d] [Fintype e]

omit [Build] in
theorem last_first (f : a → b → c → ℝ) : 𝔼 x, 𝔼 y, 𝔼 z, f x y z = 𝔼 z, 𝔼 x, 𝔼 y, f x y z := by
  have := Fintype.expect_equiv (M := ℝ)
    (⟨fun (x, y, z) => (z, x, y), fun (z, x, y) => (x, y, z), fun _ => rfl, fun _ => rfl⟩ : a × b × c ≃ c × a × b)
    (fun (x, y, z) => f x y z) (fun (z, x, y) => f x y z) fun _ => rfl
  simpa only [expect_prod_type] using this

omit [Build] in
theorem first_three_last (f : a → b → c → d → e → ℝ) :
    𝔼 x, 𝔼 y, 𝔼 z, 𝔼 u, 𝔼 v, f x y z u v = 𝔼 u, 𝔼 v, 𝔼 x, 𝔼 y, 𝔼 z, f x y z u v := by
  have := Fintype.expect_equiv (M := ℝ)
    (⟨fun (x, y, z, u, v) => (u, v, x, y, z), fun (u, v, x, y, z) => (x, y, z, u, v), fun _ => rfl, fun _ => rfl⟩ :
      a × b × c × d × e ≃ d × e × a × b × c)
    (fun (x, y, z, u, v) => f x y z u v) (fun (u, v, x, y, z) => f x y z u v) fun _ => rfl
  simpa only [expect_prod_type] using this

end

theorem half_uniform {q : Nat} (hA : ∀ o T eb cb ss, (A o T eb cb ss).AtMost q) {δ : XofTable → B32 → ℝ}
    (hδ : ∀ T d m, prob (fun r : B32 => Incorrect (withXof S T) ML_KEM_768 d m r) ≤ δ T d) :
    |(𝔼 T, 𝔼 o, 𝔼 sk, 𝔼 m, 𝔼 e, 𝔼 g, 𝔼 j, ind (Attack (withXof S T) X (A o T) (key o) sk m e g j))
        - 𝔼 T, 𝔼 o, 𝔼 F : Exchange → B32, 𝔼 d, 𝔼 z, 𝔼 m, 𝔼 x, 𝔼 e, 𝔼 g, 𝔼 j, ind (MlKem.Attack (withXof S T) MlKem768Params
            (toKem (withXof S T) X.x25519 X.publicKey (fun _ => F) (A o T) (key o) x e) id d z m g j)|
      ≤ hybridUniform S X A key + 18 * (2 : ℝ) ^ (-261 : ℤ) + (3 * q + 4) * (𝔼 T, 𝔼 d, δ T d) + 3 * q * 2 ^ (-256 : ℤ) := by
  have c2 := C81_randomised S supported_768 (fun ((o, x, e) : Ω × B32 × B32) (T : XofTable) =>
      toKem (withXof S T) X.x25519 X.publicKey (keyed S) (A o T) (key o) x e) (q := q)
    (fun o T eb c K => answer_atMost (withXof S T) X o.2.1 _ _ _ (hA _ _ _ _ _)) hδ
  simp only [prob_ind, expect_prod_type] at c2
  have c1 := abs_expect_sub fun T => abs_expect_sub fun o => kem_hop (withXof S T) X (A o T) (key o) (hδ T)
  simp only [Fintype.expect_const] at c1
  have a1 : Fips203.advantage (fun ((d, z, x) : B32 × B32 × B32) ((T, o, m, e, g, j) : XofTable × Ω × _) =>
      Expanded (withXof S T) X (A o T) (key o) d z x m e g j) (expanded S) id
      = |(𝔼 T, 𝔼 o, 𝔼 sk, 𝔼 m, 𝔼 e, 𝔼 g, 𝔼 j, ind (Attack (withXof S T) X (A o T) (key o) sk m e g j))
        - 𝔼 T, 𝔼 o, 𝔼 d, 𝔼 z, 𝔼 x, 𝔼 m, 𝔼 e, 𝔼 g, 𝔼 j, ind (Expanded (withXof S T) X (A o T) (key o) d z x m e g j)| := by
    simp only [advantage_eq, expect_prod_type, attack_expanded, expanded_xof, id]
    exact congrArg₂ (fun x y => |x - y|) (last_first _).symm (first_three_last _)
  have a3 : Fips203.advantage (fun (F : Exchange → B32) ((T, o, d, z, m, x, e, g, j) : XofTable × Ω × _) =>
      MlKem.Attack (withXof S T) MlKem768Params
        (toKem (withXof S T) X.x25519 X.publicKey (fun _ => F) (A o T) (key o) x e) id d z m g j) (keyed S) id
      = |(𝔼 T, 𝔼 o, 𝔼 K, 𝔼 d, 𝔼 z, 𝔼 m, 𝔼 x, 𝔼 e, 𝔼 g, 𝔼 j, ind (MlKem.Attack (withXof S T) MlKem768Params
            (toKem (withXof S T) X.x25519 X.publicKey (fun _ => keyed S K) (A o T) (key o) x e) id d z m g j))
        - 𝔼 T, 𝔼 o, 𝔼 F : Exchange → B32, 𝔼 d, 𝔼 z, 𝔼 m, 𝔼 x, 𝔼 e, 𝔼 g, 𝔼 j, ind (MlKem.Attack (withXof S T) MlKem768Params
            (toKem (withXof S T) X.x25519 X.publicKey (fun _ => F) (A o T) (key o) x e) id d z m g j)| := by
    simp only [advantage_eq, expect_prod_type, id]
    exact congrArg₂ (fun x y => |x - y|) (last_first _).symm (last_first _).symm
  set P : XofTable → Ω → B32 → B32 → B32 → B32 → (B32 → B32 → B32 × B32) → B32 → (B32 → Bytes 1088 → B32) → ℝ :=
    fun T o x e d m g z j => ind (MlKem.Attack (withXof S T) MlKem768Params
      (toKem (withXof S T) X.x25519 X.publicKey (keyed S) (A o T) (key o) x e) id d z m g j) with hP
  set P1 : XofTable → Ω → B32 → B32 → B32 → B32 → B32 → (B32 → B32 → B32 × B32) → B32 → (B32 → Bytes 1088 → B32) → ℝ :=
    fun T o x e d m K g z j => ind (MlKem.Attack (withXof S T) MlKem768Params
      (toKem (withXof S T) X.x25519 X.publicKey (fun _ => keyed S K) (A o T) (key o) x e) id d z m g j) with hP1
  have b1 : |(𝔼 T, 𝔼 o, 𝔼 d, 𝔼 z, 𝔼 x, 𝔼 m, 𝔼 e, 𝔼 g, 𝔼 j, ind (Expanded (withXof S T) X (A o T) (key o) d z x m e g j))
      - 𝔼 T, 𝔼 o, 𝔼 x, 𝔼 e, 𝔼 d, 𝔼 m, 𝔼 g, 𝔼 z, 𝔼 j, P T o x e d m g z j| ≤ 𝔼 T, 𝔼 d, δ T d := by
    have : ∀ T o, 𝔼 x, 𝔼 e, 𝔼 d, 𝔼 m, 𝔼 g, 𝔼 z, 𝔼 j, P T o x e d m g z j = _ := fun T o => reorder7 (P T o)
    simp only [this]
    exact c1
  have b2 : |(𝔼 T, 𝔼 o, 𝔼 x, 𝔼 e, 𝔼 d, 𝔼 m, 𝔼 g, 𝔼 z, 𝔼 j, P T o x e d m g z j)
      - 𝔼 T, 𝔼 o, 𝔼 x, 𝔼 e, 𝔼 d, 𝔼 m, 𝔼 K, 𝔼 g, 𝔼 z, 𝔼 j, P1 T o x e d m K g z j| ≤ _ := c2
  have b3 : 𝔼 T, 𝔼 o, 𝔼 x, 𝔼 e, 𝔼 d, 𝔼 m, 𝔼 K, 𝔼 g, 𝔼 z, 𝔼 j, P1 T o x e d m K g z j = _ :=
    Finset.expect_congr rfl fun T _ => Finset.expect_congr rfl fun o _ => reorder8 (P1 T o)
  have tri : ∀ {a b c u v : ℝ}, |a - b| ≤ u → |b - c| ≤ v → |a - c| ≤ u + v := fun h h' =>
    (abs_sub_le _ _ _).trans (add_le_add h h')
  rw [b3] at b2
  have := tri (tri (tri (le_of_eq a1.symm) b1) b2) (le_of_eq a3.symm)
  unfold hybridUniform
  rw [show (ML_KEM_768.k : ℝ) = 3 from by norm_num [ML_KEM_768]] at this
  have fin : ∀ a b c D s t q : ℝ, a + D + (b + 2 * 3 ^ 2 * s + 3 * (q + 1) * D + 3 * q * t) + c
      = a + b + c + 18 * s + (3 * q + 4) * D + 3 * q * t := fun a b c D s t q => by ring
  exact this.trans (le_of_eq (fin ..))

/-- **C84** Chosen-ciphertext security of the modelled X-Wing from module learning with errors *with uniform matrices*:
SHAKE128 on the 34-byte strings that expand to the matrix is a random table `T`, which the attacker can read. Beyond
`hybridUniform`, for the attacker shown the right secret and for the attacker shown a random one, the bound has only the
probability that ML-KEM decryption fails and two negligible terms. Nothing is assumed about X25519. -/
theorem C84_secure {Ω : Type} [Fintype Ω] [Nonempty Ω] (A : Ω → XofTable → Bytes 1216 → Bytes 1120 → B32 → XWingSpec.Attacker)
    {q : Nat} (hA : ∀ o T eb cb ss, (A o T eb cb ss).AtMost q) {δ : XofTable → B32 → ℝ}
    (hδ : ∀ T d m, prob (fun r : B32 => Incorrect (withXof S T) ML_KEM_768 d m r) ≤ δ T d) :
    |prob (fun ((T, o, sk, m, e, g, j) : XofTable × Ω × _) => Attack (withXof S T) X (A o T) id sk m e g j)
        - prob (fun ((T, o, ss, sk, m, e, g, j) : XofTable × Ω × B32 × _) =>
            Attack (withXof S T) X (A o T) (fun _ => ss) sk m e g j)|
      ≤ hybridUniform S X A (fun _ => id)
        + hybridUniform S X (fun ((o, _) : Ω × B32) => A o) (fun ((_, ss) : Ω × B32) => fun _ => ss)
        + 36 * 2 ^ (-261 : ℤ) + (6 * q + 8) * (𝔼 T, 𝔼 d, δ T d) + 6 * q * 2 ^ (-256 : ℤ) := by
  have h1 := half_uniform S X A (fun _ => id) hA hδ
  have h2 := half_uniform S X (fun ((o, _) : Ω × B32) => A o) (fun ((_, ss) : Ω × B32) => fun _ => ss)
    (fun o => hA o.1) hδ
  simp only [prob_ind, expect_prod_type] at h1 h2 ⊢
  have e1 : ∀ T o, 𝔼 F, 𝔼 d, 𝔼 z, 𝔼 m, 𝔼 x, 𝔼 e, 𝔼 g, 𝔼 j,
      ind (MlKem.Attack (withXof S T) MlKem768Params
        (toKem (withXof S T) X.x25519 X.publicKey (fun _ => F) (A o T) id x e) id d z m g j)
      = 𝔼 ss, 𝔼 F, 𝔼 d, 𝔼 z, 𝔼 m, 𝔼 x, 𝔼 e, 𝔼 g, 𝔼 j,
        ind (MlKem.Attack (withXof S T) MlKem768Params
          (toKem (withXof S T) X.x25519 X.publicKey (fun _ => F) (A o T) (fun _ => ss) x e) id d z m g j) := by
    intro T o
    exact swap_all (withXof S T) X (A o T)
  simp only [e1] at h1
  have tri : ∀ {a b c u v : ℝ}, |a - b| ≤ u → |b - c| ≤ v → |a - c| ≤ u + v := fun h h' =>
    (abs_sub_le _ _ _).trans (add_le_add h h')
  rw [abs_sub_comm] at h2
  have := tri h1 h2
  linarith

theorem insider_xof (T : XofTable) (key : B32 → B32) (sk m e : B32) (G : B32 → B32 → B32 × B32) (J : B32 → Bytes 1088 → B32)
    (hs : SeedOk (withXof Toy.S T) ML_KEM_768.k (seeds Toy.S ML_KEM_768 (expanded Toy.S sk).1.toList).1) :
    Attack (withXof Toy.S T) X (insider (withXof Toy.S T) X sk m e) key sk m e G J ↔
      key (keyed Toy.S (G m (keyHash (withXof Toy.S T) ML_KEM_768 (expanded Toy.S sk).1)).1
        (X.x25519 e (X.publicKey (expanded Toy.S sk).2.2), X.x25519 e basePoint, X.publicKey (expanded Toy.S sk).2.2))
      = keyed Toy.S (G m (keyHash (withXof Toy.S T) ML_KEM_768 (expanded Toy.S sk).1)).1
        (X.x25519 e (X.publicKey (expanded Toy.S sk).2.2), X.x25519 e basePoint, X.publicKey (expanded Toy.S sk).2.2) := by
  rw [attack_expanded, expanded_kem (withXof Toy.S T) X _ _ _ _ _ _ _ _ _ (toy_correct_xof T _ _ _), expanded_xof]
  refine (attack_iff (withXof Toy.S T) supported_768 (toKem (withXof Toy.S T) X.x25519 X.publicKey (keyed Toy.S)
    (insider (withXof Toy.S T) X sk m e) key (expanded Toy.S sk).2.2 e) id hs _ _ _ _).trans ?_
  unfold insider
  rw [expanded_xof]
  exact decide_eq_true_iff

/-- The hypotheses of C84 hold for the attacker that knows the secrets of one execution, as its coins: it asks one
question and ML-KEM decryption never fails for these hash functions. If the matrix exists, which it does but for a
probability of `9 / 2^261`, it always answers `true` on the right secret and almost never on another one. -/
example : (∀ (o : B32 × B32 × B32) (T : XofTable) eb cb ss, (insider (withXof Toy.S T) X o.1 o.2.1 o.2.2 eb cb ss).AtMost 1) ∧
    (∀ (T : XofTable) d m, prob (fun r : B32 => Incorrect (withXof Toy.S T) ML_KEM_768 d m r) ≤ 0) ∧
    (∀ sk : B32, prob (fun T : XofTable => ¬ SeedOk (withXof Toy.S T) ML_KEM_768.k (seeds Toy.S ML_KEM_768 (expanded Toy.S sk).1.toList).1)
      ≤ (ML_KEM_768.k : ℝ) ^ 2 * (2 : ℝ) ^ (-261 : ℤ)) ∧
    ∀ (T : XofTable) (sk m e : B32) g j, SeedOk (withXof Toy.S T) ML_KEM_768.k (seeds Toy.S ML_KEM_768 (expanded Toy.S sk).1.toList).1 →
      Attack (withXof Toy.S T) X (insider (withXof Toy.S T) X sk m e) id sk m e g j ∧
      prob (fun ss => Attack (withXof Toy.S T) X (insider (withXof Toy.S T) X sk m e) (fun _ => ss) sk m e g j)
        ≤ 2 ^ (-256 : ℤ) := by
  refine ⟨fun _ _ _ _ _ => ⟨0, rfl, fun _ => trivial⟩, fun T d m => le_of_eq ?_, fun sk => ?_,
    fun T sk m e g j hs => ⟨(insider_xof X T id sk m e g j hs).2 rfl, ?_⟩⟩
  · rw [prob_ind]
    exact (Finset.expect_congr rfl fun r _ => if_neg (toy_correct_xof T d m r)).trans (Fintype.expect_const (0 : ℝ))
  · exact prob_seed Toy.S ML_KEM_768.k (seeds_length Toy.S ML_KEM_768 _).1
  · rw [prob_ind]
    have := mem_prob [keyed Toy.S (g m (keyHash (withXof Toy.S T) ML_KEM_768 (expanded Toy.S sk).1)).1
      (X.x25519 e (X.publicKey (expanded Toy.S sk).2.2), X.x25519 e basePoint, X.publicKey (expanded Toy.S sk).2.2)]
    refine le_trans (le_of_eq (Finset.expect_congr rfl fun ss _ => ind_congr ?_)) (this.trans (by simp))
    rw [insider_xof X T _ sk m e g j hs, List.mem_singleton]

end

end XWing
