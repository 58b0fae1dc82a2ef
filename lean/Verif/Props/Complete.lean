import Verif.Spec.Correctness
import Verif.Props.FailureUniform
import Verif.Props.Anonymity
import Verif.Props.XWingUniform
/-! C86: the security bounds with the failure probability bounded. -/
set_option linter.unusedSectionVars false

namespace MlKem
open Rust Fips203 Finset BigOperators Fo

section
variable (S : Sha3) {p : Params}

/-- Key generation's noise strings from a table -/
def keyStrings (F : UInt8 → Bytes 192) : KeyNoise p.k :=
  Sum.elim (fun i => F (.ofNat i.val)) fun i => F (.ofNat (p.k + i.val))

/-- Encryption's noise strings from a table -/
def encStrings (F' : UInt8 → Bytes 192) : EncNoise p.k :=
  Sum.elim (fun i => F' (.ofNat i.val)) (Sum.elim (fun i => F' (.ofNat (p.k + i.val))) fun _ => F' (.ofNat (2 * p.k)))

theorem innerNoise_eq (rho : B32) (F F' : UInt8 → Bytes 192) (n : Fin 256) :
    innerNoise S p rho F F' n = ((linear p.eta1 (keyStrings (p := p) F) (encStrings (p := p) F')
        (spreadOf p.eta2 (rounding p.du) (matU p.eta1 fun i j : Fin p.k => matA S rho.toList i.val j.val)
          (encStrings (p := p) F')) n : ℤ) : Zq)
      + SamplePolyCBD p.eta2 (F' (.ofNat (2 * p.k))).toList n := by
  set x := keyStrings (p := p) F with hx
  set y := encStrings (p := p) F' with hy
  set w := spreadOf p.eta2 (rounding p.du) (matU p.eta1 fun i j : Fin p.k => matA S rho.toList i.val j.val) y with hw'
  have hw : ∀ i n, ((w i n : ℤ) : Zq) = (SamplePolyCBD p.eta2 (F' (.ofNat (p.k + i.val))).toList
      + lossOf p.du (lweU S p rho (fun i => F' (.ofNat i.val)) (fun i => F' (.ofNat (p.k + i.val))) i)) n := by
    intro i n
    rw [hw']
    unfold spreadOf rounding lossOf
    push_cast
    rw [cbdZ_cast]
    rfl
  unfold innerNoise linear
  simp only [Pi.sub_apply, Pi.add_apply, Finset.sum_apply]
  push_cast
  have e1 : ∀ i : Fin p.k, ringMul (SamplePolyCBD p.eta1 (F (.ofNat (p.k + i.val))).toList)
      (SamplePolyCBD p.eta1 (F' (.ofNat i.val)).toList) n
      = ∑ j, ((cbdZ p.eta1 (x (.inr i)).toList j : ℤ) : Zq) * ((rot (cbdZ p.eta1 (y (.inl i)).toList) n j : ℤ) : Zq) := by
    intro i
    rw [ringMul_cast (fun n => cbdZ_cast _ _ n) (fun n => cbdZ_cast _ _ n)]
    push_cast
    rfl
  have e2 : ∀ i : Fin p.k, ringMul (SamplePolyCBD p.eta1 (F (.ofNat i.val)).toList)
      (SamplePolyCBD p.eta2 (F' (.ofNat (p.k + i.val))).toList
        + lossOf p.du (lweU S p rho (fun i => F' (.ofNat i.val)) (fun i => F' (.ofNat (p.k + i.val))) i)) n
      = ∑ j, ((cbdZ p.eta1 (x (.inl i)).toList j : ℤ) : Zq) * ((rot (w i) n j : ℤ) : Zq) := by
    intro i
    rw [ringMul_cast (fun n => cbdZ_cast _ _ n) (hw i)]
    push_cast
    rfl
  simp only [e1, e2]
  ring

/-- If the linear part of the noise is small, so is the noise. -/
theorem linear_of_loud (rho : B32) {F F' : UInt8 → Bytes 192} {T : ℤ} (h0 : 0 ≤ round ((3329 : ℚ) / 2 ^ (p.dv + 1)))
    (hT : 832 - (p.eta2 : ℤ) - round ((3329 : ℚ) / 2 ^ (p.dv + 1)) = T) (h : Loud S p rho F F') :
    ∃ n, T ≤ |linear p.eta1 (keyStrings (p := p) F) (encStrings (p := p) F')
        (spreadOf p.eta2 (rounding p.du) (matU p.eta1 fun i j : Fin p.k => matA S rho.toList i.val j.val)
          (encStrings (p := p) F')) n| := by
  obtain ⟨n, hn⟩ := h
  refine ⟨n, ?_⟩
  by_contra hc
  push Not at hc
  have hb := (Bnd.add ⟨_, rfl, Int.le_sub_one_of_lt hc⟩ (cbd_bnd p.eta2 (F' (.ofNat (2 * p.k))).toList n) : Bnd _ _)
  rw [← innerNoise_eq] at hb
  have := hb.le (by omega)
  omega

/-- If a message is decrypted incorrectly, the noise was large. -/
theorem loud_of_incorrect {P : ParameterSet} (h : Supported P p) (h1 : p.eta1 ≤ 3) (h2 : p.eta2 ≤ 3) (hdu : p.du ≤ 11) (hdv : p.dv ≤ 11)
    {d m r : B32} (hi : Incorrect S p d m r) :
    Loud S p (seedPair S p d).1 (prfTable S (seedPair S p d).2) (prfTable S r) := by
  have s1 : (seedPair S p d).1.toList = (seeds S p d.toList).1 := toList_bytesOf (seeds_length S p _).1
  have s2 : (seedPair S p d).2.toList = (seeds S p d.toList).2 := toList_bytesOf (seeds_length S p _).2
  by_contra hl
  refine hi ?_
  rw [KPKE_KeyGen_eq, KPKE_Encrypt_enc12 S p _ _ _ _ (seeds_length S p _).1, KPKE_Decrypt_enc12]
  refine (decT_honest_iff S p h.du_pos hdu h.dv_pos hdv _ _ _ (by simp)).2 fun n => ?_
  unfold Loud at hl
  push Not at hl
  have hl := hl n
  set F := prfTable S (seedPair S p d).2
  set F' := prfTable S r
  have eS : ∀ i, secretS S p d.toList i = SamplePolyCBD p.eta1 (F (.ofNat i.val)).toList := fun i => by
    unfold secretS
    rw [← s2, prf_table S h1]
  have eE : ∀ i, errorE S p d.toList i = SamplePolyCBD p.eta1 (F (.ofNat (p.k + i.val))).toList := fun i => by
    unfold errorE
    rw [← s2, prf_table S h1]
  have eY : ∀ i, ephemeralY S p r.toList i = SamplePolyCBD p.eta1 (F' (.ofNat i.val)).toList := fun i => prf_table S h1 r _
  have eE1 : ∀ i, errorE1 S p r.toList i = SamplePolyCBD p.eta2 (F' (.ofNat (p.k + i.val))).toList := fun i => prf_table S h2 r _
  have eE2 : errorE2 S p r.toList = SamplePolyCBD p.eta2 (F' (.ofNat (2 * p.k))).toList := prf_table S h2 r _
  have eU : ∀ i, cipherU S p d.toList r.toList i
      = lweU S p (seedPair S p d).1 (fun i => F' (.ofNat i.val)) (fun i => F' (.ofNat (p.k + i.val))) i := fun i => by
    unfold cipherU lweU
    simp only [eY, eE1, s1]
  have e : noise S p d.toList m.toList r.toList n
      = innerNoise S p (seedPair S p d).1 F F' n + lossOf p.dv (cipherV S p d.toList m.toList r.toList) n := by
    unfold noise innerNoise
    simp only [eS, eE, eY, eE1, eE2, eU, Pi.sub_apply, Pi.add_apply]
    ring
  have hb := Bnd.add (Bnd.valMinAbs (innerNoise S p (seedPair S p d).1 F F' n)) (loss_bnd h.dv_pos hdv
    (cipherV S p d.toList m.toList r.toList) n)
  rw [← e] at hb
  have hb := (hb.mono (C := 831) (by omega)).le (by omega)
  rw [abs_le] at hb
  have : ((bit m.toList n.val).toNat : ℤ) ≤ 1 := by cases bit m.toList n.val <;> simp
  exact ⟨by omega, by omega⟩

theorem expect_keyStrings (hk : 2 * p.k ≤ 255) (f : KeyNoise p.k → ℝ) : 𝔼 F, f (keyStrings (p := p) F) = 𝔼 x, f x := by
  refine (expect_keyNoise hk fun xs xe => f (Sum.elim xs xe)).trans ?_
  rw [← expect_prod_type fun y : (Fin p.k → Bytes 192) × (Fin p.k → Bytes 192) => f (Sum.elim y.1 y.2)]
  exact (Fintype.expect_equiv (Equiv.sumArrowEquivProdArrow (Fin p.k) (Fin p.k) (Bytes 192)) _ _
    fun x => congrArg f (Sum.elim_comp_inl_inr x).symm).symm

theorem expect_encStrings (hk : 2 * p.k ≤ 255) (f : EncNoise p.k → ℝ) : 𝔼 F, f (encStrings (p := p) F) = 𝔼 y, f y := by
  refine (expect_encNoise hk fun xs xe x2 => f (Sum.elim xs (Sum.elim xe fun _ => x2))).trans ?_
  have e : ∀ xs : Fin p.k → Bytes 192, 𝔼 xe : Fin p.k → Bytes 192, 𝔼 x2, f (Sum.elim xs (Sum.elim xe fun _ => x2))
      = 𝔼 z : Fin p.k ⊕ Unit → Bytes 192, f (Sum.elim xs z) := by
    intro xs
    rw [← expect_prod_type fun y : (Fin p.k → Bytes 192) × Bytes 192 => f (Sum.elim xs (Sum.elim y.1 fun _ => y.2))]
    refine (Fintype.expect_equiv ((Equiv.sumArrowEquivProdArrow (Fin p.k) Unit (Bytes 192)).trans
      (Equiv.prodCongr (Equiv.refl _) (Equiv.funUnique Unit (Bytes 192)))) _ _ fun z => congrArg f (congrArg _ ?_)).symm
    funext t
    rcases t with t | t <;> rfl
  simp only [e]
  rw [← expect_prod_type fun y : (Fin p.k → Bytes 192) × (Fin p.k ⊕ Unit → Bytes 192) => f (Sum.elim y.1 y.2)]
  exact (Fintype.expect_equiv (Equiv.sumArrowEquivProdArrow (Fin p.k) (Fin p.k ⊕ Unit) (Bytes 192)) _ _
    fun x => congrArg f (Sum.elim_comp_inl_inr x).symm).symm

/-- With uniform noise -/
theorem loud_average (hk : 2 * p.k ≤ 255) {T : ℤ} (h0 : 0 ≤ round ((3329 : ℚ) / 2 ^ (p.dv + 1)))
    (hT : 832 - (p.eta2 : ℤ) - round ((3329 : ℚ) / 2 ^ (p.dv + 1)) = T) (rho : B32) :
    𝔼 F, 𝔼 F', ind (Loud S p rho F F') ≤ loudness p T (fun i j => matA S rho.toList i.val j.val) := by
  have h : ∀ F F', ind (Loud S p rho F F') ≤ ∑ n, if T ≤ |linear p.eta1 (keyStrings (p := p) F) (encStrings (p := p) F')
        (spreadOf p.eta2 (rounding p.du) (matU p.eta1 fun i j : Fin p.k => matA S rho.toList i.val j.val)
          (encStrings (p := p) F')) n| then (1 : ℝ) else 0 := by
    intro F F'
    have hp : ∀ n ∈ Finset.univ, (0 : ℝ) ≤ if T ≤ |linear p.eta1 (keyStrings (p := p) F) (encStrings (p := p) F')
        (spreadOf p.eta2 (rounding p.du) (matU p.eta1 fun i j : Fin p.k => matA S rho.toList i.val j.val)
          (encStrings (p := p) F')) n| then (1 : ℝ) else 0 := fun n _ => by split <;> norm_num
    by_cases hl : Loud S p rho F F'
    · obtain ⟨n, hn⟩ := linear_of_loud S rho h0 hT hl
      refine le_trans ?_ (Finset.single_le_sum hp (Finset.mem_univ n))
      rw [if_pos hn]
      exact (ind_le _).2
    · rw [ind, if_neg hl]
      exact Finset.sum_nonneg hp
  refine (Finset.expect_le_expect fun F _ => Finset.expect_le_expect fun F' _ => h F F').trans (le_of_eq ?_)
  unfold loudness
  rw [← expect_keyStrings hk]
  refine Finset.expect_congr rfl fun F _ => ?_
  rw [← expect_encStrings hk]

/-- One of the three parameter sets of FIPS 203 -/
def Standard (p : Params) : Prop := p = ML_KEM_512 ∨ p = ML_KEM_768 ∨ p = ML_KEM_1024

/-- The probability, for the key generated from `d`, that the noise of a ciphertext is large -/
noncomputable def loudFor (T : XofTable) (d : B32) : ℝ :=
  prob fun r : B32 => Loud (withXof S T) p (seedPair S p d).1 (prfTable S (seedPair S p d).2) (prfTable S r)

theorem loudness_standard [Build] (h : Standard p) :
    ∃ T : ℤ, 0 ≤ round ((3329 : ℚ) / 2 ^ (p.dv + 1)) ∧ 832 - (p.eta2 : ℤ) - round ((3329 : ℚ) / 2 ^ (p.dv + 1)) = T ∧
      ∀ rho : B32, 𝔼 X : XofTable, loudness p T (fun i j => matA (withXof S X) rho.toList i.val j.val)
        ≤ 2 ^ (-failureBits p : ℤ) := by
  have h2 : (0 : ℝ) ≤ 2 ^ (-256 : ℤ) := by positivity
  rcases h with rfl | rfl | rfl
  · exact ⟨(726 : ℕ), by norm_num [ML_KEM_512, round_eq], by norm_num [ML_KEM_512, round_eq], fun rho =>
      (loudness_512 S rho).trans (by rw [show failureBits ML_KEM_512 = 120 from rfl]; push_cast; linarith)⟩
  · exact ⟨(726 : ℕ), by norm_num [ML_KEM_768, round_eq], by norm_num [ML_KEM_768, round_eq], fun rho =>
      (loudness_768 S rho).trans (by rw [show failureBits ML_KEM_768 = 152 from rfl]; push_cast; linarith)⟩
  · exact ⟨(778 : ℕ), by norm_num [ML_KEM_1024, round_eq], by norm_num [ML_KEM_1024, round_eq], fun rho =>
      (loudness_1024 S rho).trans (by rw [show failureBits ML_KEM_1024 = 163 from rfl]; push_cast; linarith)⟩

theorem standard_small (h : Standard p) : 2 * p.k ≤ 255 ∧ p.eta1 ≤ 3 ∧ p.eta2 ≤ 3 ∧ p.du ≤ 11 ∧ p.dv ≤ 11 := by
  rcases h with rfl | rfl | rfl <;> decide

/-- **C86** The average probability of large noise, over tables and keys -/
theorem C86_loud [Build] (h : Standard p) :
    𝔼 T, 𝔼 d, loudFor (p := p) S T d ≤ correctnessAssumptions S p + 2 ^ (-failureBits p : ℤ) := by
  obtain ⟨hk, -⟩ := standard_small h
  obtain ⟨t, h0, ht, hb⟩ := loudness_standard S h
  let L : XofTable → B32 → (UInt8 → Bytes 192) → (UInt8 → Bytes 192) → ℝ := fun T rho F F' => ind (Loud (withXof S T) p rho F F')
  have c0 : 𝔼 T, 𝔼 d, loudFor (p := p) S T d = 𝔼 w, 𝔼 o, ind (loudSeeds (N := 280) S p (seedPair S p w) o) := by
    unfold loudFor
    simp only [prob_ind]
    rw [Finset.expect_comm]
    exact Finset.expect_congr rfl fun d _ => (expect_prod_type fun o : XofTable × B32 =>
      ind (loudSeeds S p (seedPair S p d) o)).symm
  have c1 : 𝔼 w, 𝔼 o, ind (loudSeeds (N := 280) S p (id w) o) = 𝔼 w, 𝔼 o, ind (loudKeyNoise (N := 280) S p (prfTable S w) o) := by
    have l : 𝔼 w, 𝔼 o, ind (loudSeeds (N := 280) S p (id w) o)
        = 𝔼 rho, 𝔼 sigma, 𝔼 T, 𝔼 r, L T rho (prfTable S sigma) (prfTable S r) := by
      refine (expect_prod_type _).trans (Finset.expect_congr rfl fun rho _ => Finset.expect_congr rfl fun sigma _ => ?_)
      exact expect_prod_type _
    have r : 𝔼 w, 𝔼 o, ind (loudKeyNoise (N := 280) S p (prfTable S w) o)
        = 𝔼 sigma, 𝔼 T, 𝔼 rho, 𝔼 r, L T rho (prfTable S sigma) (prfTable S r) := by
      refine Finset.expect_congr rfl fun sigma _ => (expect_prod_type _).trans (Finset.expect_congr rfl fun T _ => ?_)
      exact expect_prod_type _
    rw [l, r, Finset.expect_comm]
    exact Finset.expect_congr rfl fun sigma _ => Finset.expect_comm ..
  have c2 : 𝔼 w, 𝔼 o, ind (loudKeyNoise (N := 280) S p (id w) o) = 𝔼 w, 𝔼 o, ind (loudCipherNoise (N := 280) S p (prfTable S w) o) := by
    have l : 𝔼 w, 𝔼 o, ind (loudKeyNoise (N := 280) S p (id w) o) = 𝔼 F, 𝔼 T, 𝔼 rho, 𝔼 r, L T rho F (prfTable S r) := by
      refine Finset.expect_congr rfl fun F _ => (expect_prod_type _).trans (Finset.expect_congr rfl fun T _ => ?_)
      exact expect_prod_type _
    have r : 𝔼 w, 𝔼 o, ind (loudCipherNoise (N := 280) S p (prfTable S w) o) = 𝔼 r, 𝔼 T, 𝔼 rho, 𝔼 F, L T rho F (prfTable S r) := by
      refine Finset.expect_congr rfl fun r _ => (expect_prod_type _).trans (Finset.expect_congr rfl fun T _ => ?_)
      exact expect_prod_type _
    rw [l, r]
    calc 𝔼 F, 𝔼 T, 𝔼 rho, 𝔼 r, L T rho F (prfTable S r) = 𝔼 T, 𝔼 F, 𝔼 rho, 𝔼 r, L T rho F (prfTable S r) := Finset.expect_comm ..
      _ = 𝔼 T, 𝔼 rho, 𝔼 F, 𝔼 r, L T rho F (prfTable S r) := Finset.expect_congr rfl fun T _ => Finset.expect_comm ..
      _ = 𝔼 T, 𝔼 rho, 𝔼 r, 𝔼 F, L T rho F (prfTable S r) := Finset.expect_congr rfl fun T _ =>
          Finset.expect_congr rfl fun rho _ => Finset.expect_comm ..
      _ = 𝔼 T, 𝔼 r, 𝔼 rho, 𝔼 F, L T rho F (prfTable S r) := Finset.expect_congr rfl fun T _ => Finset.expect_comm ..
      _ = 𝔼 r, 𝔼 T, 𝔼 rho, 𝔼 F, L T rho F (prfTable S r) := Finset.expect_comm ..
  have c3 : 𝔼 w, 𝔼 o, ind (loudCipherNoise (N := 280) S p (id w) o) ≤ 2 ^ (-failureBits p : ℤ) := by
    have l : 𝔼 w, 𝔼 o, ind (loudCipherNoise (N := 280) S p (id w) o) = 𝔼 F', 𝔼 T, 𝔼 rho, 𝔼 F, L T rho F F' := by
      refine Finset.expect_congr rfl fun r _ => (expect_prod_type _).trans (Finset.expect_congr rfl fun T _ => ?_)
      exact expect_prod_type _
    have r : 𝔼 F', 𝔼 T, 𝔼 rho, 𝔼 F, L T rho F F' = 𝔼 rho, 𝔼 T, 𝔼 F, 𝔼 F', L T rho F F' := by
      calc 𝔼 F', 𝔼 T, 𝔼 rho, 𝔼 F, L T rho F F' = 𝔼 T, 𝔼 F', 𝔼 rho, 𝔼 F, L T rho F F' := Finset.expect_comm ..
        _ = 𝔼 T, 𝔼 rho, 𝔼 F', 𝔼 F, L T rho F F' := Finset.expect_congr rfl fun T _ => Finset.expect_comm ..
        _ = 𝔼 T, 𝔼 rho, 𝔼 F, 𝔼 F', L T rho F F' := Finset.expect_congr rfl fun T _ =>
            Finset.expect_congr rfl fun rho _ => Finset.expect_comm ..
        _ = 𝔼 rho, 𝔼 T, 𝔼 F, 𝔼 F', L T rho F F' := Finset.expect_comm ..
    rw [l, r]
    refine (Finset.expect_le_expect (g := fun _ => (2 : ℝ) ^ (-failureBits p : ℤ)) fun rho _ => ?_).trans
      (le_of_eq (Fintype.expect_const _))
    exact (Finset.expect_le_expect fun T _ => loud_average (withXof S T) hk h0 ht rho).trans (hb rho)
  unfold correctnessAssumptions
  simp only [advantage_eq]
  rw [c0]
  have tri : ∀ {a b c : ℝ}, b ≤ c → a ≤ |a - b| + c := fun {a b c} h => by have := le_abs_self (a - b); linarith
  have t1 := (tri (a := 𝔼 w, 𝔼 o, ind (loudSeeds (N := 280) S p (seedPair S p w) o))
    (c1.trans_le (tri (c2.trans_le (tri c3)))))
  simp only [← add_assoc] at t1
  exact t1

theorem incorrect_le {P : ParameterSet} (hP : Supported P p) (h : Standard p) (T : XofTable) (d m : B32) :
    prob (fun r : B32 => Incorrect (withXof S T) p d m r) ≤ loudFor (p := p) S T d := by
  obtain ⟨-, h1, h2, hu, hv⟩ := standard_small h
  exact prob_mono fun r hr => loud_of_incorrect (withXof S T) hP h1 h2 hu hv hr

/-- **C86** Decryption is correct: however the message is chosen, for an average table of SHAKE128 and key, encryption with
random coins is decrypted to another message with a probability of at most `2^-120`, `2^-152` or `2^-163`, but for the
advantages of three distinguishers against `G` as a generator and `PRF`. (The message may depend on the key and the
table.) -/
theorem C86_correct [Build] {P : ParameterSet} (hP : Supported P p) (h : Standard p) (m : XofTable → B32 → B32) :
    prob (fun ((T, d, r) : XofTable × B32 × B32) => Incorrect (withXof S T) p d (m T d) r)
      ≤ correctnessAssumptions S p + 2 ^ (-failureBits p : ℤ) := by
  refine le_trans ?_ (C86_loud S h)
  rw [prob_ind]
  refine (le_of_eq ((expect_prod_type _).trans (Finset.expect_congr rfl fun T _ => expect_prod_type _))).trans ?_
  refine Finset.expect_le_expect fun T _ => Finset.expect_le_expect fun d _ => ?_
  have := incorrect_le S hP h T d (m T d)
  rwa [prob_ind] at this

/-- **C86** Chosen-ciphertext security of the modelled code, C81, with the failure probability bounded: all that remains
are advantages against `G` as a generator, `PRF` and module learning with errors, and numbers. -/
theorem C86_secure [Build] {P : ParameterSet} (hP : Supported P p) (h : Standard p)
    (A : XofTable → P.EncodedEncryptionKey → P.EncodedCiphertext → B32 → Attacker P.CiphertextSize) {q : Nat}
    (hA : ∀ T e c K, (A T e c K).AtMost q) :
    |prob (fun (T, d, m, G, z, J) => Attack (withXof S T) P (A T) id d z m G J)
        - prob (fun (T, d, m, K1, G, z, J) => Attack (withXof S T) P (A T) (fun _ => K1) d z m G J)|
      ≤ Fips203.advantage (onSeedsT S p fun T => simulate (withXof S T) p (A T)) (seedPair S p) id
        + Fips203.advantage (onKeyNoiseT S p fun T => simulate (withXof S T) p (A T)) (prfTable S) id
        + Fips203.advantage (onKeyM S p fun T => simulate (withXof S T) p (A T)) (mlwe p.k p.k p.eta1 p.eta1) id
        + Fips203.advantage (onCipherNoiseT S p fun T => simulate (withXof S T) p (A T)) (prfTable S) id
        + Fips203.advantage (onCipherM p fun T => simulate (withXof S T) p (A T)) (mlwe (p.k + 1) p.k p.eta1 p.eta2) id
        + 2 * p.k ^ 2 * (2 : ℝ) ^ (-261 : ℤ)
        + 3 * (q + 1) * (correctnessAssumptions S p + 2 ^ (-failureBits p : ℤ)) + 3 * q * 2 ^ (-256 : ℤ) := by
  have h1 := C81_secure S hP A hA (incorrect_le S hP h)
  have h2 := mul_le_mul_of_nonneg_left (C86_loud (p := p) S h) (show (0 : ℝ) ≤ 3 * (q + 1) by positivity)
  linarith

/-- The hypotheses of C86 hold for the searching attacker of C81. -/
example [Build] : Supported MlKem768Params ML_KEM_768 ∧ Standard ML_KEM_768 ∧
    ∀ (T : XofTable) (eb : MlKem768Params.EncodedEncryptionKey) c K,
      (searcher (withXof Toy.S T) ML_KEM_768 eb c K : Attacker MlKem768Params.CiphertextSize).AtMost 1 :=
  ⟨supported_768, .inr (.inl rfl), fun T eb c K => ⟨0, rfl, fun a => trivial⟩⟩

/-- The noise can be large: it is for the table of the noise for which decapsulation fails. -/
example (d r : B32) (hr : r.toList ≠ (seeds (withDerive Toy.S id) ML_KEM_768 d.toList).2) :
    ∃ S : Sha3, Loud S ML_KEM_768 (seedPair S ML_KEM_768 d).1 (prfTable S (seedPair S ML_KEM_768 d).2) (prfTable S r) := by
  refine ⟨withPrf (withDerive Toy.S id) (Fails.table (seeds (withDerive Toy.S id) ML_KEM_768 d.toList).2), ?_⟩
  refine loud_of_incorrect _ supported_768 (by decide) (by decide) (by decide) (by decide) (m := Fails.m0) fun hi => ?_
  rw [KPKE_KeyGen_eq, KPKE_Encrypt_enc12 _ ML_KEM_768 _ _ _ _ (seeds_length _ ML_KEM_768 _).1, KPKE_Decrypt_enc12] at hi
  exact Fails.badNoise (withDerive Toy.S id) d.toList Fails.m0.toList r.toList (by simp) hr
    ((decT_honest_iff _ ML_KEM_768 (by decide) (by decide) (by decide) (by decide) _ _ _ (by simp)).1 hi)

/-- And it need not be: it is zero when all noise strings are. -/
example (S : Sha3) (rho : B32) : ¬ Loud S ML_KEM_768 rho (fun _ => Fails.zeros) fun _ => Fails.zeros := by
  rintro ⟨n, hn⟩
  have h0 : SamplePolyCBD 2 Fails.zeros.toList = 0 := by
    funext j
    rw [← cbdZ_cast, Fails.coeff_zeros j]
    rfl
  have hz : ∀ f : Poly, ringMul 0 f = 0 := by
    intro f
    funext j
    simp [ringMul]
  have : innerNoise S ML_KEM_768 rho (fun _ => Fails.zeros) (fun _ => Fails.zeros) = 0 := by
    unfold innerNoise
    simp only [show ML_KEM_768.eta1 = 2 from rfl, show ML_KEM_768.eta2 = 2 from rfl, h0, hz]
    simp
  rw [this] at hn
  have e : 832 - round ((3329 : ℚ) / 2 ^ (ML_KEM_768.dv + 1)) = 728 := by norm_num [ML_KEM_768, round_eq]
  rw [e] at hn
  simp at hn

variable {Ω : Type} [Fintype Ω] [Nonempty Ω]

/-- **C86** Ciphertexts and shared keys look random, C82, with the failure probability bounded -/
theorem C86_pseudorandom [Build] {P : ParameterSet} (hP : Supported P p) (h : Standard p)
    (A : Ω → XofTable → P.EncodedEncryptionKey → P.EncodedCiphertext → B32 → Attacker P.CiphertextSize) {q : Nat}
    (hA : ∀ o T e c K, (A o T e c K).AtMost q) :
    |prob (fun (T, d, m, o, G, z, J) => Attack (withXof S T) P (A o T) id d z m G J)
        - prob (fun (T, d, u, v, o, K, G, z, J) => AttackOn (withXof S T) P (A o T) (packCipher p _ u v) K d z G J)|
      ≤ challengeAssumptions S p A + 7 * p.k ^ 2 * (2 : ℝ) ^ (-261 : ℤ)
        + (3 * q + 2) * (correctnessAssumptions S p + 2 ^ (-failureBits p : ℤ)) + 3 * q * 2 ^ (-256 : ℤ) := by
  have h1 := C82_pseudorandom S hP A hA (incorrect_le S hP h)
  have h2 := mul_le_mul_of_nonneg_left (C86_loud (p := p) S h) (show (0 : ℝ) ≤ 3 * q + 2 by positivity)
  linarith

/-- **C86** Ciphertexts do not show whom they are for, C83, with the failure probability bounded -/
theorem C86_anonymous [Build] {P : ParameterSet} (hP : Supported P p) (h : Standard p)
    (A : Ω → XofTable → (Bool → P.EncodedEncryptionKey) → P.EncodedCiphertext → B32 → Attacker2 P.CiphertextSize) {q : Nat}
    (hA : ∀ o T e c K, (A o T e c K).AtMost q) :
    |prob (fun (T, d, z, m, o, G, J) => TwoKeys (withXof S T) P (A o T) false d z m G J)
        - prob (fun (T, d, z, m, o, G, J) => TwoKeys (withXof S T) P (A o T) true d z m G J)|
      ≤ challengeAssumptions S p (against S p A false) + challengeAssumptions S p (against S p A true)
        + 18 * p.k ^ 2 * (2 : ℝ) ^ (-261 : ℤ)
        + (12 * q + 4) * (correctnessAssumptions S p + 2 ^ (-failureBits p : ℤ)) + 12 * q * 2 ^ (-256 : ℤ) := by
  have h1 := C83_anonymous S hP A hA (incorrect_le S hP h)
  have h2 := mul_le_mul_of_nonneg_left (C86_loud (p := p) S h) (show (0 : ℝ) ≤ 12 * q + 4 by positivity)
  linarith

end
end MlKem

namespace XWing
open Rust MlKem Fips203 XWingSpec

variable [Build] (S : Sha3) (X : X25519)

/-- **C86** X-Wing is secure, C84, with the failure probability bounded -/
theorem C86_xwing {Ω : Type} [Fintype Ω] [Nonempty Ω] (A : Ω → XofTable → Bytes 1216 → Bytes 1120 → B32 → XWingSpec.Attacker)
    {q : Nat} (hA : ∀ o T eb cb ss, (A o T eb cb ss).AtMost q) :
    |prob (fun ((T, o, sk, m, e, g, j) : XofTable × Ω × _) => Attack (withXof S T) X (A o T) id sk m e g j)
        - prob (fun ((T, o, ss, sk, m, e, g, j) : XofTable × Ω × B32 × _) =>
            Attack (withXof S T) X (A o T) (fun _ => ss) sk m e g j)|
      ≤ hybridUniform S X A (fun _ => id)
        + hybridUniform S X (fun ((o, _) : Ω × B32) => A o) (fun ((_, ss) : Ω × B32) => fun _ => ss)
        + 36 * 2 ^ (-261 : ℤ) + (6 * q + 8) * (correctnessAssumptions S ML_KEM_768 + 2 ^ (-152 : ℤ))
        + 6 * q * 2 ^ (-256 : ℤ) := by
  have h1 := C84_secure S X A hA (incorrect_le S supported_768 (.inr (.inl rfl)))
  have h2 := mul_le_mul_of_nonneg_left (C86_loud (p := ML_KEM_768) S (.inr (.inl rfl))) (show (0 : ℝ) ≤ 6 * q + 8 by positivity)
  rw [show failureBits ML_KEM_768 = 152 from rfl] at h2
  push_cast at h2
  linarith

end XWing
