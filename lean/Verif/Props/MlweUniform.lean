import Verif.Proofs.Reprogram
/-! C81: chosen-ciphertext security of the modelled code from module learning with errors with uniform matrices. -/
set_option linter.unusedSectionVars false

namespace MlKem
open Rust Fips203 Finset BigOperators Fo

section
variable (S : Sha3) {p : Params} {e n : Nat} {Ω : Type} [Fintype Ω] [Nonempty Ω]

/-- The tables of SHAKE128: 840 bytes for each 34-byte string -/
abbrev XofTable : Type := Bytes 34 → Bytes (3 * 280)

/-! ### Matrices in the NTT domain -/

theorem expect_map {κ X Y : Type} [Fintype κ] [DecidableEq κ] [Fintype X] [Fintype Y] {g : X → Y}
    (hg : Function.Bijective g) (f : (κ → Y) → ℝ) : 𝔼 b : κ → X, f (fun i => g (b i)) = 𝔼 t, f t :=
  Fintype.expect_equiv (Equiv.piCongrRight fun _ => Equiv.ofBijective g hg) _ _ fun _ => rfl

theorem expect_ntt {κ : Type} [Fintype κ] [DecidableEq κ] (f : (κ → Poly) → ℝ) :
    𝔼 b : κ → Poly, f (fun i => NTT (b i)) = 𝔼 t, f t := expect_map NTT_bijective f

theorem expect_ntt2 {κ μ : Type} [Fintype κ] [DecidableEq κ] [Fintype μ] [DecidableEq μ] (f : (κ → μ → Poly) → ℝ) :
    𝔼 M : κ → μ → Poly, f (fun i j => NTT (M i j)) = 𝔼 A, f A :=
  expect_map (g := fun (r : μ → Poly) j => NTT (r j)) (Function.Bijective.piMap fun _ => NTT_bijective) f

theorem expect_snoc {k : Nat} {X : Type} [Fintype X] (f : (Fin k → X) → X → ℝ) :
    𝔼 b : Fin (k + 1) → X, f (fun i => b i.castSucc) (b (Fin.last k)) = 𝔼 u, 𝔼 v, f u v := by
  rw [← expect_prod_type fun y : (Fin k → X) × X => f y.1 y.2]
  refine Fintype.expect_equiv
    { toFun := fun b => (fun i => b i.castSucc, b (Fin.last k))
      invFun := fun y => Fin.snoc (α := fun _ => X) y.1 y.2
      left_inv := fun b => Fin.snoc_init_self b
      right_inv := fun y => by simp } _ _ fun _ => rfl

theorem expect_flip {κ μ X : Type} [Fintype κ] [DecidableEq κ] [Fintype μ] [DecidableEq μ] [Fintype X]
    (f : (κ → μ → X) → ℝ) : 𝔼 M : μ → κ → X, f (fun j i => M i j) = 𝔼 A, f A :=
  Fintype.expect_equiv ⟨fun M j i => M i j, fun M j i => M i j, fun _ => rfl, fun _ => rfl⟩ _ _ fun _ => rfl

/-- The rows of a matrix with one more row: a transposed matrix and a vector -/
theorem expect_rows {k : Nat} (f : (Fin k → Fin k → Poly) → (Fin k → Poly) → ℝ) :
    𝔼 M : Fin (k + 1) → Fin k → Poly, f (fun j i => NTT (M i.castSucc j)) (fun j => NTT (M (Fin.last k) j))
      = 𝔼 A, 𝔼 t, f A t := by
  refine (expect_snoc fun (u : Fin k → Fin k → Poly) v => f (fun j i => NTT (u i j)) fun j => NTT (v j)).trans ?_
  refine Eq.trans ?_ ((expect_flip fun A => 𝔼 t, f (fun i j => NTT (A i j)) t).trans (expect_ntt2 fun A => 𝔼 t, f A t))
  exact Finset.expect_congr rfl fun u _ => expect_ntt fun t => f (fun j i => NTT (u i j)) t

/-- `lweKey` for a given matrix -/
noncomputable def keyOf (A : Fin p.k → Fin p.k → Poly) (xs xe : Fin p.k → Bytes 192) (i : Fin p.k) : Poly :=
  (∑ j : Fin p.k, MultiplyNTTs (A i j) (NTT (SamplePolyCBD p.eta1 (xs j).toList)))
    + NTT (SamplePolyCBD p.eta1 (xe i).toList)

/-- `lweU` for a given matrix -/
noncomputable def uOf (A : Fin p.k → Fin p.k → Poly) (xy xe : Fin p.k → Bytes 192) (i : Fin p.k) : Poly :=
  NTTinv (∑ j : Fin p.k, MultiplyNTTs (A j i) (NTT (SamplePolyCBD p.eta1 (xy j).toList)))
    + SamplePolyCBD p.eta2 (xe i).toList

theorem NTT_sum {κ : Type} (s : Finset κ) (f : κ → Poly) : NTT (∑ i ∈ s, f i) = ∑ i ∈ s, NTT (f i) :=
  map_sum nttEquiv f s

theorem mlwe_key (M : Fin p.k → Fin p.k → Poly) (xs xe : Fin p.k → Bytes 192) (i : Fin p.k) :
    NTT ((mlwe p.k p.k p.eta1 p.eta1 (M, xs, xe)).2 i) = keyOf (fun i j => NTT (M i j)) xs xe i := by
  simp only [mlwe, keyOf, NTT_add, NTT_sum, NTT_ringMul]

theorem mlwe_u (M : Fin (p.k + 1) → Fin p.k → Poly) (xs : Fin p.k → Bytes 192) (xe : Fin (p.k + 1) → Bytes 192)
    (i : Fin p.k) : (mlwe (p.k + 1) p.k p.eta1 p.eta2 (M, xs, xe)).2 i.castSucc
      = uOf (fun j i => NTT (M i.castSucc j)) xs (fun i => xe i.castSucc) i := by
  simp only [mlwe, uOf, NTTinv_sum, NTTinv_mul]

theorem mlwe_v (M : Fin (p.k + 1) → Fin p.k → Poly) (xs : Fin p.k → Bytes 192) (xe : Fin (p.k + 1) → Bytes 192) :
    (mlwe (p.k + 1) p.k p.eta1 p.eta2 (M, xs, xe)).2 (Fin.last _)
      = lweV p (fun j => NTT (M (Fin.last _) j)) xs (xe (Fin.last _)) := by
  simp only [mlwe, lweV, NTTinv_sum, NTTinv_mul]

theorem expect_ind {X : Type} [Fintype X] [Nonempty X] {f : X → ℝ} (h : ∀ x, 0 ≤ f x ∧ f x ≤ 1) :
    0 ≤ 𝔼 x, f x ∧ 𝔼 x, f x ≤ 1 :=
  ⟨Finset.expect_nonneg fun x _ => (h x).1, (Finset.expect_le_expect fun x _ => (h x).2).trans (le_of_eq (Fintype.expect_const 1))⟩

theorem ind_le (E : Prop) : 0 ≤ ind E ∧ ind E ≤ 1 := ⟨ind_nonneg E, by unfold ind; split <;> norm_num⟩

variable (B : XofTable → Bytes e → Bytes n → Ω → List B32)

theorem key_real [Build] (hk : p.k ≤ 255) :
    |𝔼 T, 𝔼 w, 𝔼 o, ind (onKey (withXof S T) p (B T) (lwe1 (withXof S T) p w) o)
      - 𝔼 w, 𝔼 o, ind (onKeyM S p B (mlwe p.k p.k p.eta1 p.eta1 w) o)| ≤ p.k ^ 2 * (2 : ℝ) ^ (-261 : ℤ) := by
  let F : B32 → XofTable → (Fin p.k → Fin p.k → Poly) → ℝ := fun rho T A =>
    𝔼 xs, 𝔼 xe, 𝔼 o, ind (onKey (withXof S T) p (B T) (rho, keyOf A xs xe) o)
  have l : 𝔼 T, 𝔼 w, 𝔼 o, ind (onKey (withXof S T) p (B T) (lwe1 (withXof S T) p w) o)
      = 𝔼 rho : B32, 𝔼 T : XofTable, F rho T fun i j => matA (withXof S T) rho.toList i.val j.val := by
    rw [Finset.expect_comm]
    refine (expect_prod_type _).trans (Finset.expect_congr rfl fun rho _ => ?_)
    refine (expect_prod_type _).trans ?_
    refine Eq.trans ?_ (Finset.expect_comm ..)
    refine Finset.expect_congr rfl fun xs _ => ?_
    exact Finset.expect_comm ..
  have r : 𝔼 w, 𝔼 o, ind (onKeyM S p B (mlwe p.k p.k p.eta1 p.eta1 w) o)
      = 𝔼 rho : B32, 𝔼 T : XofTable, 𝔼 A : Fin p.k → Fin p.k → Poly, F rho (plantTable T rho A) A := by
    have c : 𝔼 rho : B32, 𝔼 T : XofTable, 𝔼 A : Fin p.k → Fin p.k → Poly, F rho (plantTable T rho A) A
        = 𝔼 M : Fin p.k → Fin p.k → Poly, 𝔼 xs, 𝔼 xe, 𝔼 T : XofTable, 𝔼 rho : B32, 𝔼 o,
          ind (onKeyM S p B (mlwe p.k p.k p.eta1 p.eta1 (M, xs, xe)) (T, rho, o)) := by
      have h : ∀ rho T, 𝔼 A : Fin p.k → Fin p.k → Poly, F rho (plantTable T rho A) A
          = 𝔼 M : Fin p.k → Fin p.k → Poly, 𝔼 xs, 𝔼 xe, 𝔼 o,
            ind (onKeyM S p B (mlwe p.k p.k p.eta1 p.eta1 (M, xs, xe)) (T, rho, o)) := by
        intro rho T
        refine (expect_ntt2 fun A => F rho (plantTable T rho A) A).symm.trans ?_
        refine Finset.expect_congr rfl fun M _ => Finset.expect_congr rfl fun xs _ =>
          Finset.expect_congr rfl fun xe _ => Finset.expect_congr rfl fun o _ => ?_
        rw [← funext (mlwe_key M xs xe)]
        rfl
      simp only [h]
      refine (Finset.expect_comm ..).trans ?_
      refine (Finset.expect_congr rfl fun T _ => Finset.expect_comm ..).trans ((Finset.expect_comm ..).trans ?_)
      refine Finset.expect_congr rfl fun M _ => ?_
      refine (Finset.expect_congr rfl fun T _ => Finset.expect_comm ..).trans ((Finset.expect_comm ..).trans ?_)
      refine Finset.expect_congr rfl fun xs _ => ?_
      refine (Finset.expect_congr rfl fun T _ => Finset.expect_comm ..).trans ((Finset.expect_comm ..).trans ?_)
      rfl
    rw [c]
    simp only [expect_prod_type]
  rw [l, r]
  refine (abs_expect_sub fun rho => expect_matrix S hk rho (F rho) ?_ ?_).trans (le_of_eq (Fintype.expect_const _))
  · exact fun T A => (expect_ind fun xs => expect_ind fun xe => expect_ind fun o => ind_le _).1
  · exact fun T A => (expect_ind fun xs => expect_ind fun xe => expect_ind fun o => ind_le _).2

theorem key_ideal (hk : p.k ≤ 255) :
    𝔼 T, 𝔼 w, 𝔼 o, ind (onKey (withXof S T) p (B T) w o) = 𝔼 w, 𝔼 o, ind (onKeyM S p B w o) := by
  let Φ : B32 → XofTable → ℝ := fun rho T => 𝔼 t, 𝔼 o, ind (onKey (withXof S T) p (B T) (rho, t) o)
  have l : 𝔼 T, 𝔼 w, 𝔼 o, ind (onKey (withXof S T) p (B T) w o) = 𝔼 rho : B32, 𝔼 T : XofTable, Φ rho T := by
    rw [Finset.expect_comm]
    refine (expect_prod_type _).trans (Finset.expect_congr rfl fun rho _ => ?_)
    exact Finset.expect_comm ..
  have c : 𝔼 rho : B32, 𝔼 T : XofTable, Φ rho T
      = 𝔼 M : Fin p.k → Fin p.k → Poly, 𝔼 b, 𝔼 T : XofTable, 𝔼 rho : B32, 𝔼 o, ind (onKeyM S p B (M, b) (T, rho, o)) := by
    have h : ∀ rho, 𝔼 T : XofTable, Φ rho T
        = 𝔼 T : XofTable, 𝔼 M : Fin p.k → Fin p.k → Poly, 𝔼 b, 𝔼 o, ind (onKeyM S p B (M, b) (T, rho, o)) := by
      intro rho
      refine (expect_plantTable hk rho (Φ rho)).symm.trans (Finset.expect_congr rfl fun T _ => ?_)
      refine (expect_ntt2 fun A => Φ rho (plantTable T rho A)).symm.trans ?_
      refine Finset.expect_congr rfl fun M _ => ?_
      refine (expect_ntt fun t => 𝔼 o, ind (onKey (withXof S (plantTable T rho fun i j => NTT (M i j))) p
        (B (plantTable T rho fun i j => NTT (M i j))) (rho, t) o)).symm.trans ?_
      rfl
    simp only [h]
    refine (Finset.expect_comm ..).trans ?_
    refine (Finset.expect_congr rfl fun T _ => Finset.expect_comm ..).trans ((Finset.expect_comm ..).trans ?_)
    refine Finset.expect_congr rfl fun M _ => ?_
    refine (Finset.expect_congr rfl fun T _ => Finset.expect_comm ..).trans ((Finset.expect_comm ..).trans ?_)
    rfl
  rw [l, c]
  simp only [expect_prod_type]

theorem cipher_real [Build] (hk : p.k ≤ 255) :
    |𝔼 T, 𝔼 w, 𝔼 o, ind (onCipher p (B T) (lwe2 (withXof S T) p w) o)
      - 𝔼 w, 𝔼 o, ind (onCipherM p B (mlwe (p.k + 1) p.k p.eta1 p.eta2 w) o)| ≤ p.k ^ 2 * (2 : ℝ) ^ (-261 : ℤ) := by
  let F : B32 → XofTable → (Fin p.k → Fin p.k → Poly) → ℝ := fun rho T A =>
    𝔼 t, 𝔼 xy, 𝔼 xe, 𝔼 x2, 𝔼 o, ind (onCipher p (B T) (rho, t, uOf A xy xe, lweV p t xy x2) o)
  have l : 𝔼 T, 𝔼 w, 𝔼 o, ind (onCipher p (B T) (lwe2 (withXof S T) p w) o)
      = 𝔼 rho : B32, 𝔼 T : XofTable, F rho T fun i j => matA (withXof S T) rho.toList i.val j.val := by
    refine Eq.trans ?_ (Finset.expect_comm ..)
    refine Finset.expect_congr rfl fun T _ => ?_
    refine (expect_prod_type _).trans (Finset.expect_congr rfl fun rho _ => ?_)
    refine (expect_prod_type _).trans (Finset.expect_congr rfl fun t _ => ?_)
    refine (expect_prod_type _).trans (Finset.expect_congr rfl fun xy _ => ?_)
    exact expect_prod_type _
  have r : 𝔼 w, 𝔼 o, ind (onCipherM p B (mlwe (p.k + 1) p.k p.eta1 p.eta2 w) o)
      = 𝔼 rho : B32, 𝔼 T : XofTable, 𝔼 A : Fin p.k → Fin p.k → Poly, F rho (plantTable T rho A) A := by
    have c : 𝔼 rho : B32, 𝔼 T : XofTable, 𝔼 A : Fin p.k → Fin p.k → Poly, F rho (plantTable T rho A) A
        = 𝔼 M : Fin (p.k + 1) → Fin p.k → Poly, 𝔼 xs, 𝔼 xe, 𝔼 T : XofTable, 𝔼 rho : B32, 𝔼 o,
          ind (onCipherM p B (mlwe (p.k + 1) p.k p.eta1 p.eta2 (M, xs, xe)) (T, rho, o)) := by
      have h : ∀ rho T, 𝔼 A : Fin p.k → Fin p.k → Poly, F rho (plantTable T rho A) A
          = 𝔼 M : Fin (p.k + 1) → Fin p.k → Poly, 𝔼 xs, 𝔼 xe, 𝔼 o,
            ind (onCipherM p B (mlwe (p.k + 1) p.k p.eta1 p.eta2 (M, xs, xe)) (T, rho, o)) := by
        intro rho T
        refine (expect_rows fun A t => 𝔼 xy, 𝔼 xe, 𝔼 x2, 𝔼 o,
          ind (onCipher p (B (plantTable T rho A)) (rho, t, uOf A xy xe, lweV p t xy x2) o)).symm.trans ?_
        refine Finset.expect_congr rfl fun M _ => Finset.expect_congr rfl fun xs _ => ?_
        refine (expect_snoc fun xe x2 => 𝔼 o,
          ind (onCipher p (B (plantTable T rho fun j i => NTT (M i.castSucc j))) (rho, (fun j => NTT (M (Fin.last _) j)),
            uOf (fun j i => NTT (M i.castSucc j)) xs xe, lweV p (fun j => NTT (M (Fin.last _) j)) xs x2) o)).symm.trans ?_
        refine Finset.expect_congr rfl fun xe _ => Finset.expect_congr rfl fun o _ => ?_
        rw [← funext (mlwe_u M xs xe), ← mlwe_v M xs xe]
        rfl
      simp only [h]
      refine (Finset.expect_comm ..).trans ?_
      refine (Finset.expect_congr rfl fun T _ => Finset.expect_comm ..).trans ((Finset.expect_comm ..).trans ?_)
      refine Finset.expect_congr rfl fun M _ => ?_
      refine (Finset.expect_congr rfl fun T _ => Finset.expect_comm ..).trans ((Finset.expect_comm ..).trans ?_)
      refine Finset.expect_congr rfl fun xs _ => ?_
      refine (Finset.expect_congr rfl fun T _ => Finset.expect_comm ..).trans ((Finset.expect_comm ..).trans ?_)
      rfl
    rw [c]
    simp only [expect_prod_type]
  rw [l, r]
  refine (abs_expect_sub fun rho => expect_matrix S hk rho (F rho) ?_ ?_).trans (le_of_eq (Fintype.expect_const _))
  · exact fun T A => (expect_ind fun t => expect_ind fun xs => expect_ind fun xe => expect_ind fun x2 =>
      expect_ind fun o => ind_le _).1
  · exact fun T A => (expect_ind fun t => expect_ind fun xs => expect_ind fun xe => expect_ind fun x2 =>
      expect_ind fun o => ind_le _).2

theorem cipher_ideal (hk : p.k ≤ 255) :
    𝔼 T, 𝔼 w, 𝔼 o, ind (onCipher p (B T) w o) = 𝔼 w, 𝔼 o, ind (onCipherM p B w o) := by
  let Φ : B32 → XofTable → ℝ := fun rho T => 𝔼 t, 𝔼 u, 𝔼 v, 𝔼 o, ind (onCipher p (B T) (rho, t, u, v) o)
  have l : 𝔼 T, 𝔼 w, 𝔼 o, ind (onCipher p (B T) w o) = 𝔼 rho : B32, 𝔼 T : XofTable, Φ rho T := by
    refine Eq.trans ?_ (Finset.expect_comm ..)
    refine Finset.expect_congr rfl fun T _ => ?_
    refine (expect_prod_type _).trans (Finset.expect_congr rfl fun rho _ => ?_)
    refine (expect_prod_type _).trans (Finset.expect_congr rfl fun t _ => ?_)
    exact expect_prod_type _
  have c : 𝔼 rho : B32, 𝔼 T : XofTable, Φ rho T
      = 𝔼 M : Fin (p.k + 1) → Fin p.k → Poly, 𝔼 b, 𝔼 T : XofTable, 𝔼 rho : B32, 𝔼 o, ind (onCipherM p B (M, b) (T, rho, o)) := by
    have h : ∀ rho, 𝔼 T : XofTable, Φ rho T
        = 𝔼 T : XofTable, 𝔼 M : Fin (p.k + 1) → Fin p.k → Poly, 𝔼 b, 𝔼 o, ind (onCipherM p B (M, b) (T, rho, o)) := by
      intro rho
      refine (expect_plantTable hk rho (Φ rho)).symm.trans (Finset.expect_congr rfl fun T _ => ?_)
      refine (expect_rows fun A t => 𝔼 u, 𝔼 v, 𝔼 o,
          ind (onCipher p (B (plantTable T rho A)) (rho, t, u, v) o)).symm.trans ?_
      refine Finset.expect_congr rfl fun M _ => ?_
      refine (expect_snoc fun u v => 𝔼 o,
          ind (onCipher p (B (plantTable T rho fun j i => NTT (M i.castSucc j))) (rho, (fun j => NTT (M (Fin.last _) j)),
            u, v) o)).symm.trans ?_
      rfl
    simp only [h]
    refine (Finset.expect_comm ..).trans ?_
    refine (Finset.expect_congr rfl fun T _ => Finset.expect_comm ..).trans ((Finset.expect_comm ..).trans ?_)
    refine Finset.expect_congr rfl fun M _ => ?_
    refine (Finset.expect_congr rfl fun T _ => Finset.expect_comm ..).trans ((Finset.expect_comm ..).trans ?_)
    rfl
  rw [l, c]
  simp only [expect_prod_type]

/-- Moving the table to the coins of a distinguisher -/
theorem expect_coins {X Y W C : Type} [Fintype W] [Fintype C] [Fintype Y] (D : Y → X → C → Prop) (f : W → X) :
    𝔼 T, 𝔼 w, 𝔼 o, ind (D T (f w) o) = 𝔼 w, 𝔼 o : Y × C, ind (D o.1 (f w) o.2) := by
  rw [Finset.expect_comm]
  exact Finset.expect_congr rfl fun w _ => (expect_prod_type fun o : Y × C => ind (D o.1 (f w) o.2)).symm

/-- **C81** K-PKE, with SHAKE128 on 34-byte strings a random table `T` that the attack can read: the probability that `B`,
given a public key and an encryption of a random message, lists the message among at most `q` guesses is bounded by
the advantages of five distinguishers. Two are for module learning with errors over `Z_q[X]/(X^256 + 1)` with uniform
matrices: `k` equations in `k` unknowns, and `k + 1` equations in `k` unknowns. -/
theorem C81_one_way [Build] (hk : 2 * p.k ≤ 255) (h1 : p.eta1 ≤ 3) (h2 : p.eta2 ≤ 3) (he : e = 384 * p.k + 32) {q : Nat}
    (hB : ∀ T ek c o, (B T ek c o).length ≤ q) :
    prob (fun ((T, d, m, r, coins) : XofTable × B32 × B32 × B32 × Ω) =>
        m ∈ B T (Fips203.bytes e (KPKE_KeyGen (withXof S T) p d.toList).1)
          (encrypt (withXof S T) p n (KPKE_KeyGen (withXof S T) p d.toList).1 m r) coins)
      ≤ Fips203.advantage (onSeedsT S p B) (seedPair S p) id
        + Fips203.advantage (onKeyNoiseT S p B) (prfTable S) id
        + Fips203.advantage (onKeyM S p B) (mlwe p.k p.k p.eta1 p.eta1) id
        + Fips203.advantage (onCipherNoiseT S p B) (prfTable S) id
        + Fips203.advantage (onCipherM p B) (mlwe (p.k + 1) p.k p.eta1 p.eta2) id
        + 2 * p.k ^ 2 * (2 : ℝ) ^ (-261 : ℤ) + q * 2 ^ (-256 : ℤ) := by
  have hg := fun T => C67_games (withXof S T) hk h1 h2 he (B T) (hB T)
  have av : ∀ {f g : XofTable → ℝ}, (∀ T, f T = g T) → 𝔼 T, f T = 𝔼 T, g T := fun h => Finset.expect_congr rfl fun T _ => h T
  have c0 := av fun T => (hg T).1
  have c1 := av fun T => (hg T).2.1
  have c2 := av fun T => (hg T).2.2.1
  have c3 := av fun T => (hg T).2.2.2.1
  have c4 := av fun T => (hg T).2.2.2.2.1
  have c5 : 𝔼 T, 𝔼 w, 𝔼 o, ind (onCipher p (B T) w o) ≤ q * 2 ^ (-256 : ℤ) :=
    (Finset.expect_le_expect fun T _ => (hg T).2.2.2.2.2).trans (le_of_eq (Fintype.expect_const _))
  have kr := (abs_le.1 (key_real S B (by omega : p.k ≤ 255))).2
  have cr := (abs_le.1 (cipher_real S B (by omega : p.k ≤ 255))).2
  have ki := key_ideal S B (by omega : p.k ≤ 255)
  have ci := cipher_ideal (p := p) B (by omega)
  have s1 : 𝔼 T, 𝔼 w, 𝔼 o, ind (onSeeds (withXof S T) p (B T) (seedPair (withXof S T) p w) o)
      = 𝔼 w, 𝔼 o, ind (onSeedsT S p B (seedPair S p w) o) :=
    expect_coins (fun T => onSeeds (withXof S T) p (B T)) (seedPair S p)
  have s2 : 𝔼 T, 𝔼 w, 𝔼 o, ind (onSeeds (withXof S T) p (B T) w o) = 𝔼 w, 𝔼 o, ind (onSeedsT S p B w o) :=
    expect_coins (fun T => onSeeds (withXof S T) p (B T)) id
  have s3 : 𝔼 T, 𝔼 w, 𝔼 o, ind (onKeyNoise (withXof S T) p (B T) (prfTable (withXof S T) w) o)
      = 𝔼 w, 𝔼 o, ind (onKeyNoiseT S p B (prfTable S w) o) :=
    expect_coins (fun T => onKeyNoise (withXof S T) p (B T)) (prfTable S)
  have s4 : 𝔼 T, 𝔼 w, 𝔼 o, ind (onKeyNoise (withXof S T) p (B T) w o) = 𝔼 w, 𝔼 o, ind (onKeyNoiseT S p B w o) :=
    expect_coins (fun T => onKeyNoise (withXof S T) p (B T)) id
  have s5 : 𝔼 T, 𝔼 w, 𝔼 o, ind (onCipherNoise (withXof S T) p (B T) (prfTable (withXof S T) w) o)
      = 𝔼 w, 𝔼 o, ind (onCipherNoiseT S p B (prfTable S w) o) :=
    expect_coins (fun T => onCipherNoise (withXof S T) p (B T)) (prfTable S)
  have s6 : 𝔼 T, 𝔼 w, 𝔼 o, ind (onCipherNoise (withXof S T) p (B T) w o) = 𝔼 w, 𝔼 o, ind (onCipherNoiseT S p B w o) :=
    expect_coins (fun T => onCipherNoise (withXof S T) p (B T)) id
  have a1 := (le_abs_self _).trans_eq (advantage_eq (onSeedsT S p B) (seedPair S p) id).symm
  have a2 := (le_abs_self _).trans_eq (advantage_eq (onKeyNoiseT S p B) (prfTable S) id).symm
  have a3 := (le_abs_self _).trans_eq (advantage_eq (onKeyM S p B) (mlwe p.k p.k p.eta1 p.eta1) id).symm
  have a4 := (le_abs_self _).trans_eq (advantage_eq (onCipherNoiseT S p B) (prfTable S) id).symm
  have a5 := (le_abs_self _).trans_eq (advantage_eq (onCipherM p B) (mlwe (p.k + 1) p.k p.eta1 p.eta2) id).symm
  simp only [id] at a1 a2 a3 a4 a5
  have c : prob (fun ((T, d, m, r, coins) : XofTable × B32 × B32 × B32 × Ω) =>
        m ∈ B T (Fips203.bytes e (KPKE_KeyGen (withXof S T) p d.toList).1)
          (encrypt (withXof S T) p n (KPKE_KeyGen (withXof S T) p d.toList).1 m r) coins)
      = 𝔼 T, prob (fun ((d, m, r, coins) : B32 × B32 × B32 × Ω) =>
        m ∈ B T (Fips203.bytes e (KPKE_KeyGen (withXof S T) p d.toList).1)
          (encrypt (withXof S T) p n (KPKE_KeyGen (withXof S T) p d.toList).1 m r) coins) := by
    simp only [prob_ind]
    exact expect_prod_type _
  rw [c, c0, s1]
  rw [s2, s3] at c1
  rw [s4] at c2
  rw [s5, ki] at c3
  rw [s6] at c4
  rw [ci] at c5
  linarith

open Classical in
/-- **C81** Chosen-ciphertext security of the modelled code from module learning with errors with uniform matrices.
SHAKE128 on 34-byte strings is a random table `T`, which the attacker can read. An attacker that asks at most `q`
questions tells the key that encapsulation returns from a random one with an advantage of at most the advantages
of five distinguishers built from it, which are given no secret key and no decapsulation: against `G` as a generator,
twice against `PRF`, and twice against module learning with errors; plus `2 k² / 2^261`, the probability that 840 bytes
do not determine the matrix; plus `3 (q + 1) 𝔼 δ + 3 q / 2^256`, where `δ T d` bounds the probability that K-PKE decryption
with the key generated from `d` returns another message than was encrypted. -/
theorem C81_secure [Build] {P : ParameterSet} (h : Supported P p)
    (A : XofTable → P.EncodedEncryptionKey → P.EncodedCiphertext → B32 → Attacker P.CiphertextSize) {q : Nat}
    (hA : ∀ T e c K, (A T e c K).AtMost q) {δ : XofTable → B32 → ℝ}
    (hδ : ∀ T d m, prob (fun r : B32 => Incorrect (withXof S T) p d m r) ≤ δ T d) :
    |prob (fun (T, d, m, G, z, J) => Attack (withXof S T) P (A T) id d z m G J)
        - prob (fun (T, d, m, K1, G, z, J) => Attack (withXof S T) P (A T) (fun _ => K1) d z m G J)|
      ≤ Fips203.advantage (onSeedsT S p fun T => simulate (withXof S T) p (A T)) (seedPair S p) id
        + Fips203.advantage (onKeyNoiseT S p fun T => simulate (withXof S T) p (A T)) (prfTable S) id
        + Fips203.advantage (onKeyM S p fun T => simulate (withXof S T) p (A T)) (mlwe p.k p.k p.eta1 p.eta1) id
        + Fips203.advantage (onCipherNoiseT S p fun T => simulate (withXof S T) p (A T)) (prfTable S) id
        + Fips203.advantage (onCipherM p fun T => simulate (withXof S T) p (A T)) (mlwe (p.k + 1) p.k p.eta1 p.eta2) id
        + 2 * p.k ^ 2 * (2 : ℝ) ^ (-261 : ℤ) + 3 * (q + 1) * (𝔼 T, 𝔼 d, δ T d) + 3 * q * 2 ^ (-256 : ℤ) := by
  have he : ∀ x : CbdSize, x.toNat ≤ 3 := by intro x; cases x <;> decide
  have h1 := fun T => C66_chosen_ciphertext (withXof S T) h (A T) (hA T) (hδ T)
  have h2 := C81_one_way S (fun T => simulate (withXof S T) p (A T)) h.k_le (h.eta1 ▸ he _) (h.eta2 ▸ he _)
    (e := P.EncryptionKeySize) (by obtain rfl := h.eq; rfl) (q := q) fun T ek c o => hashed_length _ _ _ _ (hA T _ _ _)
  have e1 : prob (fun (T, d, m, G, z, J) => Attack (withXof S T) P (A T) id d z m G J)
      = 𝔼 T, prob (fun (d, m, G, z, J) => Attack (withXof S T) P (A T) id d z m G J) := by
    simp only [prob_ind]
    exact expect_prod_type _
  have e2 : prob (fun (T, d, m, K1, G, z, J) => Attack (withXof S T) P (A T) (fun _ => K1) d z m G J)
      = 𝔼 T, prob (fun (d, m, K1, G, z, J) => Attack (withXof S T) P (A T) (fun _ => K1) d z m G J) := by
    simp only [prob_ind]
    exact expect_prod_type _
  have e3 : prob (fun ((T, d, m, r, coins) : XofTable × B32 × B32 × B32 × SimulatorCoins P.CiphertextSize) =>
        m ∈ simulate (withXof S T) p (A T) (Fips203.bytes _ (KPKE_KeyGen (withXof S T) p d.toList).1)
          (encrypt (withXof S T) p _ (KPKE_KeyGen (withXof S T) p d.toList).1 m r) coins)
      = 𝔼 T, prob (fun ((d, m, r, coins) : B32 × B32 × B32 × SimulatorCoins P.CiphertextSize) =>
        m ∈ simulate (withXof S T) p (A T) (Fips203.bytes _ (KPKE_KeyGen (withXof S T) p d.toList).1)
          (encrypt (withXof S T) p _ (KPKE_KeyGen (withXof S T) p d.toList).1 m r) coins) := by
    simp only [prob_ind]
    exact expect_prod_type _
  have h3 := abs_expect_sub h1
  rw [Finset.expect_add_distrib, Finset.expect_add_distrib, Fintype.expect_const, ← Finset.mul_expect, ← e3] at h3
  rw [e1, e2]
  refine h3.trans ?_
  linarith

theorem noiseBound_xof {L : Nat} (T : Bytes 34 → Bytes L) (d : List UInt8) :
    noiseBound (withXof S T) p d = noiseBound S p d := rfl

theorem toy_correct_xof (T : XofTable) (d m r : B32) : ¬ Incorrect (withXof Toy.S T) ML_KEM_768 d m r := by
  refine fun hne => hne ?_
  rw [KPKE_KeyGen_eq, KPKE_Encrypt_enc12 (withXof Toy.S T) ML_KEM_768 _ _ _ _ (seeds_length (withXof Toy.S T) ML_KEM_768 _).1,
    KPKE_Decrypt_enc12]
  refine (decT_honest_iff (withXof Toy.S T) ML_KEM_768 (by decide) (by decide) (by decide) (by decide) _ _ _ (by simp)).2 ?_
  refine noiseOk_of_bound (withXof Toy.S T) ML_KEM_768 (by decide) (by decide) (by decide) (by decide) _ _ _ ?_
  rw [noiseBound_xof]
  exact Toy.noiseBound_le (p := ML_KEM_768) (by simp) _

/-- The hypotheses of C81 hold for the attacker that searches for the secret key of the toy hash functions, with one
question and `δ = 0`. If the matrix exists, which it does but for a probability of `9 / 2^261`, it always answers `true`
on the right key and almost never on another one. So the left-hand side of C81 is almost 1. -/
example [Build] : (∀ (T : XofTable) (eb : MlKem768Params.EncodedEncryptionKey) c K,
      (searcher (withXof Toy.S T) ML_KEM_768 eb c K : Attacker MlKem768Params.CiphertextSize).AtMost 1) ∧
    (∀ (T : XofTable) d m, prob (fun r : B32 => Incorrect (withXof Toy.S T) ML_KEM_768 d m r) ≤ 0) ∧
    (∀ d : B32, prob (fun T : XofTable => ¬ SeedOk (withXof Toy.S T) ML_KEM_768.k (seeds Toy.S ML_KEM_768 d.toList).1)
      ≤ (ML_KEM_768.k : ℝ) ^ 2 * 2 ^ (-261 : ℤ)) ∧
    ∀ (T : XofTable) d, SeedOk (withXof Toy.S T) ML_KEM_768.k (seeds Toy.S ML_KEM_768 d.toList).1 →
      (∀ z m G J, Attack (withXof Toy.S T) MlKem768Params (searcher (withXof Toy.S T) ML_KEM_768) id d z m G J) ∧
      ∀ z m G J, prob (fun K1 => Attack (withXof Toy.S T) MlKem768Params (searcher (withXof Toy.S T) ML_KEM_768)
        (fun _ => K1) d z m G J) ≤ 2 ^ (-256 : ℤ) := by
  refine ⟨fun T eb c K => ⟨0, rfl, fun a => trivial⟩, fun T d m => le_of_eq ?_, fun d => ?_, fun T d hs =>
    ⟨fun z m G J => (searcher_attack supported_768 (toy_correct_xof T) id d z m G J hs).2 rfl, fun z m G J => ?_⟩⟩
  · rw [prob_ind]
    exact (Finset.expect_congr rfl fun r _ => if_neg (toy_correct_xof T d m r)).trans (Fintype.expect_const (0 : ℝ))
  · exact prob_seed Toy.S ML_KEM_768.k (seeds_length Toy.S ML_KEM_768 d.toList).1
  · rw [prob_ind]
    have := mem_prob [(G m (keyHash (withXof Toy.S T) ML_KEM_768 d)).1]
    refine le_trans (le_of_eq (Finset.expect_congr rfl fun K1 _ => ind_congr ?_)) (this.trans (by simp))
    rw [searcher_attack supported_768 (toy_correct_xof T) _ d z m G J hs, List.mem_singleton, eq_comm]

end

end MlKem
