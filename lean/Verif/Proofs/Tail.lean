import Verif.Proofs.CbdAverage
import Verif.Proofs.NoiseBound
/-! A tail bound for the decryption noise, averaged over uniform noise bytes. -/
namespace MlKem
open Rust Fips203 Finset BigOperators

/-! ### Products in `R_q` as integer sums -/

/-- Coefficient `j` of the row of `g` that gives coefficient `n` of a product with `g` -/
def rot (g : Fin 256 → ℤ) (n j : Fin 256) : ℤ :=
  if h : j.val ≤ n.val then g ⟨n.val - j.val, by omega⟩ else - g ⟨n.val + 256 - j.val, by omega⟩

theorem ringMul_cast {f g : Poly} {f' g' : Fin 256 → ℤ} (hf : ∀ n, ((f' n : ℤ) : Zq) = f n)
    (hg : ∀ n, ((g' n : ℤ) : Zq) = g n) (n : Fin 256) :
    ringMul f g n = ((∑ j, f' j * rot g' n j : ℤ) : Zq) := by
  rw [ringMul]
  push_cast
  refine Finset.sum_congr rfl fun j _ => ?_
  rw [ringMul_row]
  unfold rot
  split
  · rw [hf, hg]
  · push_cast
    rw [hf, hg, mul_neg]

theorem rot_cases (g : Fin 256 → ℤ) (n j : Fin 256) : rot g n j = g (n - j) ∨ rot g n j = - g (n - j) := by
  unfold rot
  split
  case isTrue h =>
    have : (⟨n.val - j.val, by omega⟩ : Fin 256) = n - j := by
      apply Fin.ext
      rw [Fin.sub_def]
      simp only
      omega
    exact .inl (by rw [this])
  case isFalse h =>
    have : (⟨n.val + 256 - j.val, by omega⟩ : Fin 256) = n - j := by
      apply Fin.ext
      rw [Fin.sub_def]
      simp only
      omega
    exact .inr (by rw [this])

/-- A product of even functions of a row is the product over the coefficients. -/
theorem rot_prod (g : Fin 256 → ℤ) (n : Fin 256) {f : ℤ → ℝ} (hf : ∀ z, f (-z) = f z) :
    ∏ j, f (rot g n j) = ∏ j, f (g j) := by
  have : ∀ j, f (rot g n j) = f (g (n - j)) := fun j => by
    rcases rot_cases g n j with h | h
    · rw [h]
    · rw [h, hf]
  simp only [this]
  exact Fintype.prod_equiv (Equiv.subLeft n) _ _ fun j => rfl

/-! ### Averages over several noise polynomials -/

section
variable {τ : Type} [Fintype τ] [DecidableEq τ]

theorem expect_noise (eta : τ → Nat) (h0 : ∀ t, 0 < eta t) (h3 : ∀ t, eta t ≤ 3) (g : τ → Fin 256 → ℤ → ℝ) :
    𝔼 x : τ → Bytes 192, ∏ t, ∏ j, g t j (cbdZ (eta t) (x t).toList j)
      = ∏ t, ∏ j, 𝔼 z : Fin (2 * eta t) → Bool, g t j (diff (eta t) z) := by
  rw [expect_pi_prod fun t (b : Bytes 192) => ∏ j, g t j (cbdZ (eta t) b.toList j)]
  exact Finset.prod_congr rfl fun t _ => expect_cbd (h0 t) (h3 t) (g t)

end

theorem zpow_sum {ι : Type} {t : ℝ} (ht : t ≠ 0) (s : Finset ι) (f : ι → ℤ) : t ^ (∑ i ∈ s, f i) = ∏ i ∈ s, t ^ f i := by
  classical
  induction s using Finset.induction_on with
  | empty => simp
  | insert a s ha ih => rw [Finset.sum_insert ha, Finset.prod_insert ha, zpow_add₀ ht, ih]

/-- The average of `t^(z·a)` over a centred binomial `a` -/
noncomputable def mgf (eta : Nat) (t : ℝ) (z : ℤ) : ℝ := 𝔼 b : Fin (2 * eta) → Bool, t ^ (z * diff eta b)

theorem mgf_inv (eta : Nat) (t : ℝ) (z : ℤ) : mgf eta t⁻¹ z = mgf eta t (-z) := by
  unfold mgf
  simp only [inv_zpow', neg_mul]

/-- The centred binomial distribution is symmetric. -/
theorem expect_neg (eta : Nat) (f : ℤ → ℝ) :
    𝔼 b : Fin (2 * eta) → Bool, f (- diff eta b) = 𝔼 b : Fin (2 * eta) → Bool, f (diff eta b) := by
  refine Fintype.expect_equiv ⟨fun b j => !b j, fun b j => !b j, fun b => by simp, fun b => by simp⟩ _ _
    fun b => congrArg f ?_
  unfold diff
  have h : ∑ j, half eta j * ((b j).toNat : ℤ) + ∑ j, half eta j * ((!b j).toNat : ℤ) = 0 := by
    rw [← Finset.sum_add_distrib, ← half_sum (eta := eta)]
    refine Finset.sum_congr rfl fun j _ => ?_
    cases b j <;> simp
  show -∑ j, half eta j * ((b j).toNat : ℤ) = ∑ j, half eta j * ((!b j).toNat : ℤ)
  linarith

theorem mgf_neg (eta : Nat) (t : ℝ) (z : ℤ) : mgf eta t (-z) = mgf eta t z := by
  have := expect_neg eta fun a => t ^ (z * a)
  unfold mgf
  rw [← this]
  simp only [neg_mul, mul_neg]

theorem mgf_nonneg (eta : Nat) {t : ℝ} (ht : 0 < t) (z : ℤ) : 0 ≤ mgf eta t z :=
  Finset.expect_nonneg fun _ _ => (zpow_pos ht _).le

/-- The average of `t^(a·a')` over independent centred binomials -/
noncomputable def mgf2 (eta : Nat) (t : ℝ) : ℝ := 𝔼 b : Fin (2 * eta) → Bool, mgf eta t (diff eta b)

/-- The average of `t^(a·W(u, e))` over independent centred binomials `a`, `e` -/
noncomputable def spread (eta1 eta2 : Nat) (t : ℝ) (W : Zq → ℤ → ℤ) (u : Zq) : ℝ :=
  𝔼 b : Fin (2 * eta2) → Bool, mgf eta1 t (W u (diff eta2 b))

/-! ### The tail bound -/

/-- Key generation's noise strings: `s`, then `e` -/
abbrev KeyNoise (k : Nat) := Fin k ⊕ Fin k → Bytes 192
/-- Encryption's noise strings: `y`, then `e₁`, then `e₂` -/
abbrev EncNoise (k : Nat) := Fin k ⊕ Fin k ⊕ Unit → Bytes 192

variable {k eta1 eta2 : Nat}

/-- `eᵀy - sᵀw` at coefficient `n`, as an integer -/
def linear (eta1 : Nat) (x : KeyNoise k) (y : EncNoise k) (w : Fin k → Fin 256 → ℤ) (n : Fin 256) : ℤ :=
  (∑ i, ∑ j, cbdZ eta1 (x (.inr i)).toList j * rot (cbdZ eta1 (y (.inl i)).toList) n j)
    - ∑ i, ∑ j, cbdZ eta1 (x (.inl i)).toList j * rot (w i) n j

/-- Averaged over the key's noise -/
theorem mgf_key (h0 : 0 < eta1) (h3 : eta1 ≤ 3) {t : ℝ} (ht : t ≠ 0) (y : EncNoise k) (w : Fin k → Fin 256 → ℤ) (n : Fin 256) :
    𝔼 x : KeyNoise k, t ^ linear eta1 x y w n
      = (∏ i, ∏ j, mgf eta1 t (cbdZ eta1 (y (.inl i)).toList j)) * ∏ i, ∏ j, mgf eta1 t (w i j) := by
  have e : ∀ x : KeyNoise k, t ^ linear eta1 x y w n = ∏ s : Fin k ⊕ Fin k, ∏ j, (Sum.elim (fun i j (a : ℤ) => t ^ (-rot (w i) n j * a))
      (fun i j (a : ℤ) => t ^ (rot (cbdZ eta1 (y (.inl i)).toList) n j * a)) s j (cbdZ eta1 (x s).toList j) : ℝ) := by
    intro x
    rw [Fintype.prod_sum_type]
    simp only [Sum.elim_inl, Sum.elim_inr, linear, sub_eq_add_neg, zpow_add₀ ht, ← Finset.sum_neg_distrib, zpow_sum ht]
    rw [mul_comm]
    congr 1 <;>
    · refine Finset.prod_congr rfl fun i _ => Finset.prod_congr rfl fun j _ => congrArg (t ^ ·) ?_
      ring
  simp only [e]
  rw [expect_noise (fun _ => eta1) (fun _ => h0) (fun _ => h3), Fintype.prod_sum_type, mul_comm]
  simp only [Sum.elim_inl, Sum.elim_inr]
  congr 1
  · exact Finset.prod_congr rfl fun i _ => rot_prod (cbdZ eta1 (y (.inl i)).toList) n (mgf_neg eta1 t)
  · refine Finset.prod_congr rfl fun i _ => Eq.trans (Finset.prod_congr rfl fun j _ => ?_) (rot_prod (w i) n (mgf_neg eta1 t))
    exact mgf_neg eta1 t _

theorem expect_enc (f : (Fin k → Bytes 192) → (Fin k → Bytes 192) → ℝ) :
    𝔼 y : EncNoise k, f (fun i => y (.inl i)) (fun i => y (.inr (.inl i))) = 𝔼 r, 𝔼 e, f r e := by
  have hj : Function.Injective (Sum.elim Sum.inl fun i => Sum.inr (Sum.inl i) : Fin k ⊕ Fin k → Fin k ⊕ Fin k ⊕ Unit) := by
    rintro (i | i) (j | j) h <;> simp_all
  have := expect_comp_injective (α := Bytes 192) hj fun z => f (fun i => z (.inl i)) fun i => z (.inr i)
  refine this.trans ?_
  refine (Fintype.expect_equiv (Equiv.sumArrowEquivProdArrow (Fin k) (Fin k) (Bytes 192)) _ (fun z => f z.1 z.2)
    fun z => rfl).trans (expect_prod_type _)

/-- What encryption's noise does to `sᵀ(e₁ + c_u)`, where `c_u` may depend on `y` -/
def spreadOf (eta2 : Nat) (W : Zq → ℤ → ℤ) (u : (Fin k → Bytes 192) → Fin k → Fin 256 → Zq) (y : EncNoise k)
    (i : Fin k) (j : Fin 256) : ℤ :=
  W (u (fun i => y (.inl i)) i j) (cbdZ eta2 (y (.inr (.inl i))).toList j)

/-- Averaged over all noise, with weights that depend on `y` -/
theorem mgf_all (h0 : 0 < eta1) (h3 : eta1 ≤ 3) (h0' : 0 < eta2) (h3' : eta2 ≤ 3) {t : ℝ} (ht : t ≠ 0) (W : Zq → ℤ → ℤ)
    (u : (Fin k → Bytes 192) → Fin k → Fin 256 → Zq) (φ : (Fin k → Bytes 192) → ℝ) (n : Fin 256) :
    𝔼 y : EncNoise k, 𝔼 x : KeyNoise k, φ (fun i => y (.inl i)) * t ^ linear eta1 x y (spreadOf eta2 W u y) n
      = 𝔼 r, φ r * (∏ i, ∏ j, mgf eta1 t (cbdZ eta1 (r i).toList j)) * ∏ i, ∏ j, spread eta1 eta2 t W (u r i j) := by
  simp only [← Finset.mul_expect, mgf_key h0 h3 ht]
  refine (expect_enc fun r e => φ r * ((∏ i, ∏ j, mgf eta1 t (cbdZ eta1 (r i).toList j))
    * ∏ i, ∏ j, mgf eta1 t (W (u r i j) (cbdZ eta2 (e i).toList j)))).trans ?_
  refine Finset.expect_congr rfl fun r _ => ?_
  rw [← Finset.mul_expect, ← Finset.mul_expect, ← mul_assoc]
  congr 1
  exact expect_noise (fun _ => eta2) (fun _ => h0') (fun _ => h3') fun i j a => mgf eta1 t (W (u r i j) a)

theorem tail_weighted (h0 : 0 < eta1) (h3 : eta1 ≤ 3) (h0' : 0 < eta2) (h3' : eta2 ≤ 3) {t : ℝ} (ht : 1 ≤ t) (W : Zq → ℤ → ℤ)
    (u : (Fin k → Bytes 192) → Fin k → Fin 256 → Zq) {φ : (Fin k → Bytes 192) → ℝ} (hφ : ∀ r, 0 ≤ φ r) (T : ℤ) (n : Fin 256) :
    𝔼 x : KeyNoise k, 𝔼 y : EncNoise k, φ (fun i => y (.inl i))
        * (if T ≤ |linear eta1 x y (spreadOf eta2 W u y) n| then (1 : ℝ) else 0)
      ≤ 2 * t ^ (-T) * 𝔼 r, φ r * (∏ i, ∏ j, mgf eta1 t (cbdZ eta1 (r i).toList j)) * ∏ i, ∏ j, spread eta1 eta2 t W (u r i j) := by
  have ht0 : 0 < t := by linarith
  have h1 : ∀ L : ℤ, (if T ≤ |L| then (1 : ℝ) else 0) ≤ t ^ (-T) * (t ^ L + t⁻¹ ^ L) := by
    intro L
    have p1 := zpow_pos ht0 (-T + L)
    have p2 := zpow_pos ht0 (-T - L)
    rw [mul_add, inv_zpow', ← zpow_add₀ ht0.ne', ← zpow_add₀ ht0.ne', ← sub_eq_add_neg]
    split
    case isTrue h =>
      rcases le_total 0 L with hs | hs
      · rw [abs_of_nonneg hs] at h
        have := one_le_zpow₀ ht (n := -T + L) (by omega)
        linarith
      · rw [abs_of_nonpos hs] at h
        have := one_le_zpow₀ ht (n := -T - L) (by omega)
        linarith
    · linarith
  refine (Finset.expect_le_expect fun x _ => Finset.expect_le_expect fun y _ =>
    mul_le_mul_of_nonneg_left (h1 _) (hφ _)).trans ?_
  rw [Finset.expect_comm]
  have e : ∀ (x : KeyNoise k) (y : EncNoise k), φ (fun i => y (.inl i)) * (t ^ (-T) * (t ^ linear eta1 x y (spreadOf eta2 W u y) n
      + t⁻¹ ^ linear eta1 x y (spreadOf eta2 W u y) n))
      = t ^ (-T) * (φ (fun i => y (.inl i)) * t ^ linear eta1 x y (spreadOf eta2 W u y) n)
        + t ^ (-T) * (φ (fun i => y (.inl i)) * t⁻¹ ^ linear eta1 x y (spreadOf eta2 W u y) n) := fun x y => by ring
  simp only [e, Finset.expect_add_distrib, ← Finset.mul_expect (a := t ^ (-T))]
  rw [mgf_all h0 h3 h0' h3' ht0.ne', mgf_all h0 h3 h0' h3' (inv_ne_zero ht0.ne')]
  simp only [mgf_inv, mgf_neg, spread]
  refine le_of_eq ?_
  ring

/-- The product of the moments of `y` -/
theorem expect_mgf (h0 : 0 < eta1) (h3 : eta1 ≤ 3) (t : ℝ) :
    𝔼 r : Fin k → Bytes 192, ∏ i, ∏ j, mgf eta1 t (cbdZ eta1 (r i).toList j) = mgf2 eta1 t ^ (256 * k) := by
  rw [expect_noise (fun _ => eta1) (fun _ => h0) (fun _ => h3) fun _ _ a => mgf eta1 t a]
  simp only [Finset.prod_const, Finset.card_univ, Fintype.card_fin, ← pow_mul]
  rfl

theorem prod_le_const {c : ℝ} {f : Fin k → Fin 256 → ℝ} (h0 : ∀ i j, 0 ≤ f i j) (h : ∀ i j, f i j ≤ c) :
    ∏ i, ∏ j, f i j ≤ c ^ (256 * k) := by
  refine (Finset.prod_le_prod (fun i _ => Finset.prod_nonneg fun j _ => h0 i j) fun i _ =>
    Finset.prod_le_prod (fun j _ => h0 i j) fun j _ => h i j).trans (le_of_eq ?_)
  simp only [Finset.prod_const, Finset.card_univ, Fintype.card_fin, ← pow_mul]

theorem spread_nonneg {t : ℝ} (ht : 0 < t) (W : Zq → ℤ → ℤ) (u : Zq) : 0 ≤ spread eta1 eta2 t W u :=
  Finset.expect_nonneg fun _ _ => mgf_nonneg eta1 ht _

/-- Whatever `u` is -/
theorem tail_bound (h0 : 0 < eta1) (h3 : eta1 ≤ 3) (h0' : 0 < eta2) (h3' : eta2 ≤ 3) {t : ℝ} (ht : 1 ≤ t) (W : Zq → ℤ → ℤ)
    (u : (Fin k → Bytes 192) → Fin k → Fin 256 → Zq) (T : ℤ) {c : ℝ} (hc : ∀ v, spread eta1 eta2 t W v ≤ c) (n : Fin 256) :
    𝔼 x : KeyNoise k, 𝔼 y : EncNoise k, (if T ≤ |linear eta1 x y (spreadOf eta2 W u y) n| then (1 : ℝ) else 0)
      ≤ 2 * t ^ (-T) * (mgf2 eta1 t * c) ^ (256 * k) := by
  have ht0 : 0 < t := by linarith
  have := tail_weighted h0 h3 h0' h3' ht W u (φ := fun _ => 1) (fun _ => zero_le_one) T n
  simp only [one_mul] at this
  refine this.trans (mul_le_mul_of_nonneg_left ?_ (mul_nonneg zero_le_two (zpow_pos ht0 _).le))
  rw [mul_pow, ← expect_mgf h0 h3, Finset.expect_mul]
  refine Finset.expect_le_expect fun r _ => mul_le_mul_of_nonneg_left
    (prod_le_const (fun _ _ => spread_nonneg ht0 W _) fun _ _ => hc _)
    (Finset.prod_nonneg fun i _ => Finset.prod_nonneg fun j _ => mgf_nonneg eta1 ht0 _)

end MlKem
