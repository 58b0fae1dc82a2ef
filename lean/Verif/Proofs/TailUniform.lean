import Verif.Proofs.TailTables
import Verif.Proofs.NttSpec
import Mathlib.Tactic.NormNum.Prime
import Mathlib.FieldTheory.Finite.Basic
/-! The tail bound averaged over uniform matrices: `u = Aᵀy` is uniform unless `y` vanishes somewhere. -/
namespace MlKem
open Rust Fips203 Finset BigOperators

/-! ### Sums of independent centred binomials that hit a value -/

section
variable {eta : Nat} {m : Nat} {w : ℤ → ℝ}

/-- The weighted probability that `∑ⱼ cⱼ·aⱼ = z` for independent centred binomials `aⱼ` -/
noncomputable def hit (eta : Nat) (w : ℤ → ℝ) (c : Fin m → Zq) (z : Zq) : ℝ :=
  𝔼 b : Fin m → Fin (2 * eta) → Bool, (if ∑ j, c j * ((diff eta (b j) : ℤ) : Zq) = z then (1 : ℝ) else 0) * ∏ j, w (diff eta (b j))

theorem hit_nonneg (hw : ∀ a, 0 ≤ w a) (c : Fin m → Zq) (z : Zq) : 0 ≤ hit eta w c z :=
  Finset.expect_nonneg fun b _ => mul_nonneg (by split <;> norm_num) (Finset.prod_nonneg fun j _ => hw _)

theorem expect_append {X : Type} [Fintype X] (f : (Fin (m + 1) → X) → ℝ) : 𝔼 b, f b = 𝔼 a, 𝔼 x : Fin m → X, f (Fin.snoc x a) := by
  rw [← expect_prod_type fun x : X × (Fin m → X) => f (Fin.snoc x.2 x.1)]
  exact (Fintype.expect_equiv (Fin.snocEquiv fun _ => X) _ _ fun x => rfl).symm

theorem hit_snoc (c : Fin (m + 1) → Zq) (z : Zq) :
    hit eta w c z = 𝔼 b : Fin (2 * eta) → Bool,
      w (diff eta b) * hit eta w (fun j : Fin m => c j.castSucc) (z - c (Fin.last m) * ((diff eta b : ℤ) : Zq)) := by
  unfold hit
  refine (expect_append _).trans ?_
  refine Finset.expect_congr rfl fun b _ => ?_
  rw [Finset.mul_expect]
  refine Finset.expect_congr rfl fun x _ => ?_
  rw [Fin.sum_univ_castSucc, Fin.prod_univ_castSucc]
  simp only [Fin.snoc_castSucc, Fin.snoc_last, eq_sub_iff_add_eq]
  ring

theorem hit_step (hw : ∀ a, 0 ≤ w a) (c : Fin (m + 1) → Zq) {κ : ℝ} (hκ : ∀ z, hit eta w (fun j : Fin m => c j.castSucc) z ≤ κ) (z : Zq) :
    hit eta w c z ≤ (𝔼 b : Fin (2 * eta) → Bool, w (diff eta b)) * κ := by
  rw [hit_snoc, Finset.expect_mul]
  exact Finset.expect_le_expect fun b _ => mul_le_mul_of_nonneg_left (hκ _) (hw _)

theorem hit_perm (σ : Equiv.Perm (Fin m)) (c : Fin m → Zq) (z : Zq) : hit eta w (fun j => c (σ j)) z = hit eta w c z := by
  unfold hit
  refine Fintype.expect_equiv (Equiv.arrowCongr σ (Equiv.refl _)) _ _ fun b => ?_
  congr 1
  · have : ∑ j, c (σ j) * ((diff eta (b j) : ℤ) : Zq)
        = ∑ j, c j * ((diff eta (Equiv.arrowCongr σ (Equiv.refl (Fin (2 * eta) → Bool)) b j) : ℤ) : Zq) :=
      Fintype.sum_equiv σ _ _ fun j => by simp
    rw [this]
  · exact Fintype.prod_equiv σ _ _ fun j => by simp

theorem diff_not (b : Fin (2 * eta) → Bool) : diff eta (fun j => !b j) = - diff eta b := by
  unfold diff
  have h : ∑ j, half eta j * ((b j).toNat : ℤ) + ∑ j, half eta j * ((!b j).toNat : ℤ) = 0 := by
    rw [← Finset.sum_add_distrib, ← half_sum (eta := eta)]
    refine Finset.sum_congr rfl fun j _ => ?_
    cases b j <;> simp
  linarith

theorem hit_sign (hw : ∀ a, w (-a) = w a) (s : Fin m → Bool) (c : Fin m → Zq) (z : Zq) :
    hit eta w (fun j => if s j then - c j else c j) z = hit eta w c z := by
  unfold hit
  refine Fintype.expect_equiv ⟨fun b j i => if s j then !b j i else b j i, fun b j i => if s j then !b j i else b j i,
    fun b => by funext j i; by_cases h : s j <;> simp [h], fun b => by funext j i; by_cases h : s j <;> simp [h]⟩ _ _ fun b => ?_
  have h : ∀ j, diff eta (fun i => if s j then !b j i else b j i) = if s j then - diff eta (b j) else diff eta (b j) := by
    intro j
    cases s j
    · simp
    · simp only [if_true]; exact diff_not _
  simp only [Equiv.coe_fn_mk, h]
  congr 1
  · refine if_congr (Eq.congr_left (Finset.sum_congr rfl fun j _ => ?_)) rfl rfl
    cases s j <;> simp
  · refine Finset.prod_congr rfl fun j _ => ?_
    cases s j
    · simp
    · simp [hw]

/-- More terms only spread the sum. -/
theorem hit_pow (hw : ∀ a, 0 ≤ w a) {N : Nat} {κ : ℝ} (hκ : ∀ z, hit eta w (fun j : Fin N => (17 : Zq) ^ j.val) z ≤ κ) (i : Nat) (z : Zq) :
    hit eta w (fun j : Fin (N + i) => (17 : Zq) ^ j.val) z ≤ (𝔼 b : Fin (2 * eta) → Bool, w (diff eta b)) ^ i * κ := by
  induction i generalizing z with
  | zero => simpa using hκ z
  | succ i ih =>
    refine (hit_step hw (fun j : Fin (N + i + 1) => (17 : Zq) ^ j.val) (fun z => ih z) z).trans (le_of_eq ?_)
    rw [pow_succ]
    ring

theorem pow128 : (17 : Zq) ^ 128 = -1 := by decide +kernel

/-- The powers of `γ_t` are those of 17, up to order and sign. -/
theorem gamma_pow (t : Nat) : ∃ (σ : Equiv.Perm (Fin 128)) (s : Fin 128 → Bool),
    ∀ j : Fin 128, gamma t ^ j.val = if s j then - (17 : Zq) ^ (σ j).val else (17 : Zq) ^ (σ j).val := by
  let e := 2 * BitRev7 t + 1
  have hinj : Function.Injective fun j : Fin 128 => (⟨e * j.val % 128, Nat.mod_lt _ (by norm_num)⟩ : Fin 128) := by
    intro a b h
    have h : e * a.val % 128 = e * b.val % 128 := Fin.mk.inj h
    have hc : Nat.gcd 128 e = 1 := by
      rw [show (128 : Nat) = 2 ^ 7 by norm_num]
      exact Nat.Coprime.pow_left 7 (by rw [Nat.coprime_two_left]; exact ⟨BitRev7 t, rfl⟩)
    have := Nat.ModEq.cancel_left_of_coprime hc h
    exact Fin.ext ((Nat.mod_eq_of_lt a.isLt).symm.trans (Eq.trans this (Nat.mod_eq_of_lt b.isLt)))
  refine ⟨Equiv.ofBijective _ (Finite.injective_iff_bijective.1 hinj), fun j => decide (e * j.val / 128 % 2 = 1), fun j => ?_⟩
  have h : gamma t ^ j.val = ((17 : Zq) ^ 128) ^ (e * j.val / 128) * 17 ^ (e * j.val % 128) := by
    unfold gamma
    rw [← pow_mul, ← pow_mul, ← pow_add, Nat.div_add_mod]
  rw [h, pow128]
  show _ = if decide _ = true then - (17 : Zq) ^ (e * j.val % 128) else 17 ^ (e * j.val % 128)
  rcases Nat.mod_two_eq_zero_or_one (e * j.val / 128) with h2 | h2
  · rw [Even.neg_one_pow (Nat.even_iff.2 h2)]
    simp [h2]
  · rw [Odd.neg_one_pow (Nat.odd_iff.2 h2)]
    simp [h2]

theorem hit_gamma (hw : ∀ a, w (-a) = w a) (t : Nat) (z : Zq) :
    hit eta w (fun j : Fin 128 => gamma t ^ j.val) z = hit eta w (fun j : Fin 128 => (17 : Zq) ^ j.val) z := by
  obtain ⟨σ, s, h⟩ := gamma_pow t
  simp only [h]
  rw [hit_sign hw s fun j => (17 : Zq) ^ (σ j).val]
  exact hit_perm σ (fun j => (17 : Zq) ^ j.val) z

end

/-! ### Slots of the NTT that vanish -/

/-- Slot `t` of the transformed polynomial is zero. -/
def Vanishes (t : Fin 128) (f : Poly) : Prop := NTT f ⟨2 * t.val, by omega⟩ = 0 ∧ NTT f ⟨2 * t.val + 1, by omega⟩ = 0

open Classical in
theorem expect_vanishes {eta : Nat} (h0 : 0 < eta) (h3 : eta ≤ 3) {w : ℤ → ℝ} (hw : ∀ a, w (-a) = w a) (t : Fin 128) :
    𝔼 B : Bytes 192, (if Vanishes t (SamplePolyCBD eta B.toList) then (1 : ℝ) else 0) * ∏ n, w (cbdZ eta B.toList n)
      = hit eta w (fun j : Fin 128 => (17 : Zq) ^ j.val) 0 ^ 2 := by
  have e : ∀ B : Bytes 192, SamplePolyCBD eta B.toList = fun n => ((cbdZ eta B.toList n : ℤ) : Zq) := fun B =>
    funext fun n => (cbdZ_cast _ _ n).symm
  simp only [e]
  rw [expect_cbd_all h0 h3 fun c => (if Vanishes t (fun n => ((c n : ℤ) : Zq)) then (1 : ℝ) else 0) * ∏ n, w (c n)]
  let φ : (Fin 2 → Fin 128 → Fin (2 * eta) → Bool) ≃ (Fin 256 → Fin (2 * eta) → Bool) :=
    ((Equiv.curry (Fin 2) (Fin 128) _).symm.trans (Equiv.arrowCongr (Equiv.prodComm (Fin 2) (Fin 128)) (Equiv.refl _))).trans
      (Equiv.arrowCongr (finProdFinEquiv (m := 128) (n := 2)) (Equiv.refl _))
  have hφ : ∀ a (b : Fin 2) (j : Fin 128), φ a ⟨2 * j.val + b.val, by omega⟩ = a b j := by
    intro a b j
    have h : (⟨2 * j.val + b.val, by omega⟩ : Fin 256) = finProdFinEquiv (m := 128) (n := 2) (j, b) :=
      Fin.ext (by simp [finProdFinEquiv, Nat.add_comm])
    rw [h]
    simp [φ]
  rw [← Fintype.expect_equiv φ (fun a => ∏ b : Fin 2, ((if ∑ j : Fin 128, gamma t.val ^ j.val * ((diff eta (a b j) : ℤ) : Zq) = 0
    then (1 : ℝ) else 0) * ∏ j, w (diff eta (a b j)))) _ fun a => ?_]
  · rw [expect_pi_prod fun (_ : Fin 2) (x : Fin 128 → Fin (2 * eta) → Bool) => (if ∑ j : Fin 128, gamma t.val ^ j.val * ((diff eta (x j) : ℤ) : Zq) = 0
      then (1 : ℝ) else 0) * ∏ j, w (diff eta (x j))]
    rw [Fin.prod_univ_two, ← sq]
    exact congrArg (· ^ 2) (hit_gamma hw t.val 0)
  · rw [Fin.prod_univ_two]
    have hv : Vanishes t (fun n => ((diff eta (φ a n) : ℤ) : Zq))
        ↔ ∑ j : Fin 128, gamma t.val ^ j.val * ((diff eta (a 0 j) : ℤ) : Zq) = 0
          ∧ ∑ j : Fin 128, gamma t.val ^ j.val * ((diff eta (a 1 j) : ℤ) : Zq) = 0 := by
      unfold Vanishes NTT
      have h0 : ∀ j : Fin 128, φ a ⟨2 * j.val + 2 * t.val % 2, by omega⟩ = a 0 j := fun j => by
        rw [← hφ a 0 j]
        refine congrArg _ (Fin.ext ?_)
        show 2 * j.val + 2 * t.val % 2 = 2 * j.val + 0
        omega
      have h1 : ∀ j : Fin 128, φ a ⟨2 * j.val + (2 * t.val + 1) % 2, by omega⟩ = a 1 j := fun j => by
        rw [← hφ a 1 j]
        refine congrArg _ (Fin.ext ?_)
        show 2 * j.val + (2 * t.val + 1) % 2 = 2 * j.val + 1
        omega
      simp only [h0, h1, show 2 * t.val / 2 = t.val by omega, show (2 * t.val + 1) / 2 = t.val by omega]
      simp only [mul_comm]
    have hp : ∏ n, w (diff eta (φ a n)) = (∏ j, w (diff eta (a 0 j))) * ∏ j, w (diff eta (a 1 j)) := by
      rw [← Fintype.prod_equiv (finProdFinEquiv (m := 128) (n := 2)) (fun x => w (diff eta (a x.2 x.1))) _ fun x => by simp [φ, Function.uncurry],
        Fintype.prod_prod_type_right, Fin.prod_univ_two]
    simp only [hv, hp]
    by_cases c0 : ∑ j : Fin 128, gamma t.val ^ j.val * ((diff eta (a 0 j) : ℤ) : Zq) = 0 <;>
      by_cases c1 : ∑ j : Fin 128, gamma t.val ^ j.val * ((diff eta (a 1 j) : ℤ) : Zq) = 0 <;> simp [c0, c1]

/-- Some slot vanishes in all polynomials. -/
def Singular {k : Nat} (y : Fin k → Poly) : Prop := ∃ t, ∀ j, Vanishes t (y j)

open Classical in
theorem expect_singular {k eta : Nat} (h0 : 0 < eta) (h3 : eta ≤ 3) {w : ℤ → ℝ} (hw0 : ∀ a, 0 ≤ w a) (hw : ∀ a, w (-a) = w a) :
    𝔼 r : Fin k → Bytes 192, (if Singular (fun j => SamplePolyCBD eta (r j).toList) then (1 : ℝ) else 0)
        * ∏ i, ∏ n, w (cbdZ eta (r i).toList n)
      ≤ 128 * hit eta w (fun j : Fin 128 => (17 : Zq) ^ j.val) 0 ^ (2 * k) := by
  have h : ∀ r : Fin k → Bytes 192, (if Singular (fun j => SamplePolyCBD eta (r j).toList) then (1 : ℝ) else 0)
        * ∏ i, ∏ n, w (cbdZ eta (r i).toList n)
      ≤ ∑ t : Fin 128, ∏ i, ((if Vanishes t (SamplePolyCBD eta (r i).toList) then (1 : ℝ) else 0) * ∏ n, w (cbdZ eta (r i).toList n)) := by
    intro r
    have nn : ∀ t : Fin 128, 0 ≤ ∏ i, ((if Vanishes t (SamplePolyCBD eta (r i).toList) then (1 : ℝ) else 0) * ∏ n, w (cbdZ eta (r i).toList n)) :=
      fun t => Finset.prod_nonneg fun i _ => mul_nonneg (by split <;> norm_num) (Finset.prod_nonneg fun n _ => hw0 _)
    split
    case isTrue hs =>
      obtain ⟨t, ht⟩ := hs
      refine le_trans (le_of_eq ?_) (Finset.single_le_sum (fun t _ => nn t) (Finset.mem_univ t))
      rw [one_mul]
      exact Finset.prod_congr rfl fun i _ => by rw [if_pos (ht i), one_mul]
    · rw [zero_mul]
      exact Finset.sum_nonneg fun t _ => nn t
  refine (Finset.expect_le_expect fun r _ => h r).trans (le_of_eq ?_)
  rw [Finset.expect_sum_comm]
  have e : ∀ t : Fin 128, 𝔼 r : Fin k → Bytes 192, ∏ i, ((if Vanishes t (SamplePolyCBD eta (r i).toList) then (1 : ℝ) else 0)
      * ∏ n, w (cbdZ eta (r i).toList n)) = hit eta w (fun j : Fin 128 => (17 : Zq) ^ j.val) 0 ^ (2 * k) := by
    intro t
    rw [expect_pi_prod fun _ (B : Bytes 192) => (if Vanishes t (SamplePolyCBD eta B.toList) then (1 : ℝ) else 0)
      * ∏ n, w (cbdZ eta B.toList n)]
    simp only [expect_vanishes h0 h3 hw, Finset.prod_const, Finset.card_univ, Fintype.card_fin, ← pow_mul]
  simp only [e, Finset.sum_const, Finset.card_univ, Fintype.card_fin, nsmul_eq_mul]
  norm_num

/-! ### Uniform matrices -/

theorem expect_hom {G H : Type} [AddCommGroup G] [AddCommGroup H] [Fintype G] [Fintype H] {φ : G → H}
    (hadd : ∀ a b, φ (a + b) = φ a + φ b) (hφ : Function.Surjective φ) (F : H → ℝ) : 𝔼 g, F (φ g) = 𝔼 h, F h := by
  have h1 : ∀ h, 𝔼 g, F (φ g) = 𝔼 g, F (φ g + h) := by
    intro h
    obtain ⟨s, rfl⟩ := hφ h
    refine (Fintype.expect_equiv (Equiv.addRight s) _ _ fun g => ?_).symm
    rw [Equiv.coe_addRight, hadd]
  have h2 : 𝔼 h, 𝔼 g, F (φ g + h) = 𝔼 g, F (φ g) := by
    rw [← Finset.expect_congr (s := Finset.univ) rfl fun h _ => h1 h]
    exact Fintype.expect_const _
  rw [← h2, Finset.expect_comm]
  have h3 : ∀ g, 𝔼 h, F (φ g + h) = 𝔼 h, F h := fun g => Fintype.expect_equiv (Equiv.addLeft (φ g)) _ _ fun h => rfl
  simp only [h3]
  exact Fintype.expect_const _

theorem gamma_pow_1664 : ∀ t : Fin 128, gamma t.val ^ 1664 = -1 := by
  intro t
  obtain ⟨n, hn⟩ : ∃ n, gamma t.val = 17 ^ (2 * n + 1) := ⟨BitRev7 t.val, rfl⟩
  rw [hn, ← pow_mul, show (2 * n + 1) * 1664 = 128 * (2 * (13 * n + 6) + 1) by ring, pow_mul, pow128]
  exact Odd.neg_one_pow ⟨_, rfl⟩

theorem zero_ne_neg_one : (0 : Zq) ≠ -1 := by decide
theorem neg_one_ne_one : (-1 : Zq) ≠ 1 := by decide

/-- `Z_q[X]/(X² - γ)` is a field. -/
theorem norm_ne_zero (t : Fin 128) {a b : Zq} (h : ¬ (a = 0 ∧ b = 0)) : a ^ 2 - gamma t.val * b ^ 2 ≠ 0 := by
  have : Fact (Nat.Prime 3329) := ⟨by norm_num⟩
  intro hz
  have hz : a ^ 2 = gamma t.val * b ^ 2 := sub_eq_zero.1 hz
  by_cases hb : b = 0
  · subst hb
    refine h ⟨?_, rfl⟩
    simpa using hz
  · have h1 : (a * b⁻¹) ^ 2 = gamma t.val := by
      rw [mul_pow, hz, mul_assoc, ← mul_pow, mul_inv_cancel₀ hb, one_pow, mul_one]
    have ha : a * b⁻¹ ≠ 0 := by
      intro h0
      rw [h0] at h1
      have := gamma_pow_1664 t
      rw [← h1, ← pow_mul, zero_pow (by norm_num)] at this
      exact zero_ne_neg_one this
    have h2 := ZMod.pow_card_sub_one_eq_one ha
    have h3 := gamma_pow_1664 t
    rw [← h1, ← pow_mul] at h3
    rw [show (3329 - 1 : Nat) = 2 * 1664 by norm_num, h3] at h2
    exact neg_one_ne_one h2

theorem mulN_add (f f' g : Poly) : MultiplyNTTs (f + f') g = MultiplyNTTs f g + MultiplyNTTs f' g := by
  funext n
  unfold MultiplyNTTs
  simp only [Pi.add_apply]
  split <;> ring

section
variable {k : Nat} {y : Fin k → Poly}

/-- `Aᵀy` takes every value. -/
theorem matrix_surjective (hy : ¬ Singular y) : Function.Surjective fun (A : Fin k → Fin k → Poly) (i : Fin k) =>
    NTTinv (∑ j, MultiplyNTTs (A j i) (NTT (y j))) := by
  have : Fact (Nat.Prime 3329) := ⟨by norm_num⟩
  unfold Singular at hy
  push Not at hy
  choose J hJ using hy
  intro V
  let g0 : Fin 128 → Zq := fun t => NTT (y (J t)) ⟨2 * t.val, by omega⟩
  let g1 : Fin 128 → Zq := fun t => NTT (y (J t)) ⟨2 * t.val + 1, by omega⟩
  let h0 : Fin k → Fin 128 → Zq := fun i t => NTT (V i) ⟨2 * t.val, by omega⟩
  let h1 : Fin k → Fin 128 → Zq := fun i t => NTT (V i) ⟨2 * t.val + 1, by omega⟩
  let N : Fin 128 → Zq := fun t => g0 t ^ 2 - gamma t.val * g1 t ^ 2
  have hN : ∀ t, N t ≠ 0 := fun t => norm_ne_zero t (hJ t)
  let sl : Fin 256 → Fin 128 := fun n => ⟨n.val / 2, by omega⟩
  let A : Fin k → Fin k → Poly := fun j i n => if j = J (sl n) then
    (if n.val % 2 = 0 then (h0 i (sl n) * g0 (sl n) - gamma (sl n).val * h1 i (sl n) * g1 (sl n)) * (N (sl n))⁻¹
      else (h1 i (sl n) * g0 (sl n) - h0 i (sl n) * g1 (sl n)) * (N (sl n))⁻¹) else 0
  refine ⟨A, funext fun i => ?_⟩
  have key : ∑ j, MultiplyNTTs (A j i) (NTT (y j)) = NTT (V i) := by
    funext n
    rw [Finset.sum_apply, Finset.sum_eq_single (J (sl n))]
    · have s0 : sl ⟨2 * (n.val / 2), by omega⟩ = sl n := Fin.ext (by simp only [sl]; omega)
      have s1 : sl ⟨2 * (n.val / 2) + 1, by omega⟩ = sl n := Fin.ext (by simp only [sl]; omega)
      have a0 : A (J (sl n)) i ⟨2 * (n.val / 2), by omega⟩
          = (h0 i (sl n) * g0 (sl n) - gamma (sl n).val * h1 i (sl n) * g1 (sl n)) * (N (sl n))⁻¹ := by
        simp only [A]
        rw [s0, if_pos rfl, if_pos (by omega)]
      have a1 : A (J (sl n)) i ⟨2 * (n.val / 2) + 1, by omega⟩
          = (h1 i (sl n) * g0 (sl n) - h0 i (sl n) * g1 (sl n)) * (N (sl n))⁻¹ := by
        simp only [A]
        rw [s1, if_pos rfl, if_neg (by omega)]
      unfold MultiplyNTTs
      simp only
      rw [a0, a1]
      have e0 : NTT (y (J (sl n))) ⟨2 * (n.val / 2), by omega⟩ = g0 (sl n) := rfl
      have e1 : NTT (y (J (sl n))) ⟨2 * (n.val / 2) + 1, by omega⟩ = g1 (sl n) := rfl
      have eg : gamma (n.val / 2) = gamma (sl n).val := rfl
      rw [e0, e1, eg]
      have hi := mul_inv_cancel₀ (hN (sl n))
      have hNd : N (sl n) = g0 (sl n) ^ 2 - gamma (sl n).val * g1 (sl n) ^ 2 := rfl
      generalize (N (sl n))⁻¹ = I at hi ⊢
      rw [hNd] at hi
      rcases Nat.mod_two_eq_zero_or_one n.val with hm | hm
      · rw [if_pos hm]
        have ev : NTT (V i) n = h0 i (sl n) := by
          simp only [h0, sl]
          exact congrArg _ (Fin.ext (by simp only; omega))
        rw [ev]
        linear_combination h0 i (sl n) * hi
      · rw [if_neg (by omega)]
        have ev : NTT (V i) n = h1 i (sl n) := by
          simp only [h1, sl]
          exact congrArg _ (Fin.ext (by simp only; omega))
        rw [ev]
        linear_combination h1 i (sl n) * hi
    · intro j _ hj
      have s0 : sl ⟨2 * (n.val / 2), by omega⟩ = sl n := Fin.ext (by simp only [sl]; omega)
      have s1 : sl ⟨2 * (n.val / 2) + 1, by omega⟩ = sl n := Fin.ext (by simp only [sl]; omega)
      have a0 : A j i ⟨2 * (n.val / 2), by omega⟩ = 0 := by
        simp only [A]
        rw [s0, if_neg hj]
      have a1 : A j i ⟨2 * (n.val / 2) + 1, by omega⟩ = 0 := by
        simp only [A]
        rw [s1, if_neg hj]
      unfold MultiplyNTTs
      simp only
      rw [a0, a1]
      simp
    · intro h
      exact absurd (Finset.mem_univ _) h
  simp only [key]
  exact NTTinv_NTT (V i)

/-- `Aᵀy` is uniform. -/
theorem matrix_uniform (hy : ¬ Singular y) (F : (Fin k → Poly) → ℝ) :
    𝔼 A : Fin k → Fin k → Poly, F (fun i => NTTinv (∑ j, MultiplyNTTs (A j i) (NTT (y j)))) = 𝔼 V, F V := by
  refine expect_hom (φ := fun (A : Fin k → Fin k → Poly) (i : Fin k) => NTTinv (∑ j, MultiplyNTTs (A j i) (NTT (y j))))
    (fun A B => ?_) (matrix_surjective hy) F
  funext i
  simp only [Pi.add_apply, mulN_add, Finset.sum_add_distrib, NTTinv_add]

theorem matrix_prod (hy : ¬ Singular y) (f : Zq → ℝ) :
    𝔼 A : Fin k → Fin k → Poly, ∏ i, ∏ n, f (NTTinv (∑ j, MultiplyNTTs (A j i) (NTT (y j))) n) = (𝔼 v, f v) ^ (256 * k) := by
  rw [matrix_uniform hy fun V => ∏ i, ∏ n, f (V i n), expect_pi_prod fun (_ : Fin k) (V : Poly) => ∏ n, f (V n)]
  have : 𝔼 V : Poly, ∏ n, f (V n) = ∏ n : Fin 256, 𝔼 v, f v := expect_pi_prod fun (_ : Fin 256) v => f v
  simp only [this, Finset.prod_const, Finset.card_univ, Fintype.card_fin, ← pow_mul]

end

/-- `Aᵀy` as a function of encryption's noise strings -/
noncomputable def matU {k : Nat} (eta1 : Nat) (A : Fin k → Fin k → Poly) (r : Fin k → Bytes 192) (i : Fin k) : Poly :=
  NTTinv (∑ j, MultiplyNTTs (A j i) (NTT (SamplePolyCBD eta1 (r j).toList)))

open Classical in
/-- The tail, averaged over uniform matrices: one bound where `Aᵀy` is uniform, another where it is not -/
theorem tail_uniform {k eta1 eta2 : Nat} (h0 : 0 < eta1) (h3 : eta1 ≤ 3) (h0' : 0 < eta2) (h3' : eta2 ≤ 3) {t s : ℝ} (ht : 1 ≤ t)
    (hs : 1 ≤ s) (W : Zq → ℤ → ℤ) (T : ℤ) {c κ : ℝ} (hc : ∀ v, spread eta1 eta2 s W v ≤ c) {N : Nat} (hN : N ≤ 128)
    (hκ : ∀ z, hit eta1 (mgf eta1 s) (fun j : Fin N => (17 : Zq) ^ j.val) z ≤ κ) (n : Fin 256) :
    𝔼 A : Fin k → Fin k → Poly, 𝔼 x : KeyNoise k, 𝔼 y : EncNoise k,
        (if T ≤ |linear eta1 x y (spreadOf eta2 W (matU eta1 A) y) n| then (1 : ℝ) else 0)
      ≤ 2 * t ^ (-T) * (mgf2 eta1 t * 𝔼 v, spread eta1 eta2 t W v) ^ (256 * k)
        + 2 * s ^ (-T) * (c ^ (256 * k) * (128 * (mgf2 eta1 s ^ (128 - N) * κ) ^ (2 * k))) := by
  have ht0 : 0 < t := by linarith
  have hs0 : 0 < s := by linarith
  let bad : (Fin k → Bytes 192) → ℝ := fun r => if Singular (fun j => SamplePolyCBD eta1 (r j).toList) then 1 else 0
  have hb0 : ∀ r, 0 ≤ bad r := fun r => by simp only [bad]; split <;> norm_num
  have hb1 : ∀ r, 0 ≤ 1 - bad r := fun r => by simp only [bad]; split <;> norm_num
  have e : ∀ (A : Fin k → Fin k → Poly) (x : KeyNoise k) (y : EncNoise k),
      (if T ≤ |linear eta1 x y (spreadOf eta2 W (matU eta1 A) y) n| then (1 : ℝ) else 0)
      = (1 - bad (fun i => y (.inl i))) * (if T ≤ |linear eta1 x y (spreadOf eta2 W (matU eta1 A) y) n| then (1 : ℝ) else 0)
        + bad (fun i => y (.inl i)) * (if T ≤ |linear eta1 x y (spreadOf eta2 W (matU eta1 A) y) n| then (1 : ℝ) else 0) :=
    fun A x y => by ring
  refine (le_of_eq (Finset.expect_congr rfl fun A _ => Finset.expect_congr rfl fun x _ =>
    Finset.expect_congr rfl fun y _ => e A x y)).trans ?_
  simp only [Finset.expect_add_distrib]
  refine add_le_add ?_ ?_
  · refine (Finset.expect_le_expect fun A _ => tail_weighted h0 h3 h0' h3' ht W (fun r i => matU eta1 A r i) hb1 T n).trans ?_
    rw [← Finset.mul_expect, Finset.expect_comm]
    refine mul_le_mul_of_nonneg_left ?_ (mul_nonneg zero_le_two (zpow_pos ht0 _).le)
    rw [mul_pow, ← expect_mgf h0 h3, Finset.expect_mul]
    refine Finset.expect_le_expect fun r _ => ?_
    rw [← Finset.mul_expect]
    have hp : 0 ≤ ∏ i, ∏ j, mgf eta1 t (cbdZ eta1 (r i).toList j) :=
      Finset.prod_nonneg fun i _ => Finset.prod_nonneg fun j _ => mgf_nonneg eta1 ht0 _
    have ha : 0 ≤ (𝔼 v, spread eta1 eta2 t W v) ^ (256 * k) := pow_nonneg (Finset.expect_nonneg fun v _ => spread_nonneg ht0 W v) _
    by_cases hr : Singular (fun j => SamplePolyCBD eta1 (r j).toList)
    · have : bad r = 1 := if_pos hr
      rw [this, sub_self, zero_mul, zero_mul]
      exact mul_nonneg hp ha
    · have : bad r = 0 := if_neg hr
      rw [this, sub_zero, one_mul]
      exact le_of_eq (congrArg _ (matrix_prod hr (spread eta1 eta2 t W)))
  · refine (Finset.expect_le_expect fun A _ => tail_weighted h0 h3 h0' h3' hs W (fun r i => matU eta1 A r i) hb0 T n).trans ?_
    rw [← Finset.mul_expect, Finset.expect_comm]
    refine mul_le_mul_of_nonneg_left ?_ (mul_nonneg zero_le_two (zpow_pos hs0 _).le)
    have hw0 : ∀ a, 0 ≤ mgf eta1 s a := mgf_nonneg eta1 hs0
    have hc0 : 0 ≤ c := (spread_nonneg hs0 W 0).trans (hc 0)
    have hh := hit_pow hw0 hκ (128 - N) 0
    have hh : hit eta1 (mgf eta1 s) (fun j : Fin 128 => (17 : Zq) ^ j.val) 0 ≤ mgf2 eta1 s ^ (128 - N) * κ := by
      have hn : N + (128 - N) = 128 := by omega
      rw [hn] at hh
      exact hh
    have hsing := (expect_singular (k := k) h0 h3 hw0 (mgf_neg eta1 s)).trans
      (mul_le_mul_of_nonneg_left (pow_le_pow_left₀ (hit_nonneg hw0 _ _) hh (2 * k)) (by norm_num : (0 : ℝ) ≤ 128))
    refine le_trans ?_ (mul_le_mul_of_nonneg_left hsing (pow_nonneg hc0 (256 * k)))
    rw [Finset.mul_expect]
    refine Finset.expect_le_expect fun r _ => ?_
    refine (Finset.expect_le_expect (g := fun _ => c ^ (256 * k) * (bad r * ∏ i, ∏ j, mgf eta1 s (cbdZ eta1 (r i).toList j)))
      fun A _ => ?_).trans (le_of_eq (Fintype.expect_const _))
    rw [mul_comm (c ^ (256 * k))]
    exact mul_le_mul_of_nonneg_left (prod_le_const (fun _ _ => spread_nonneg hs0 W _) fun _ _ => hc _)
      (mul_nonneg (hb0 r) (Finset.prod_nonneg fun i _ => Finset.prod_nonneg fun j _ => hw0 _))

end MlKem
