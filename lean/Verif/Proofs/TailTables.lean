import Verif.Proofs.Tail
import Verif.Proofs.Compress
/-! Rounding `u` to `du` bits after adding noise: the moments, for every value of `u` and on average. -/
namespace MlKem
open Rust Fips203 Finset BigOperators

/-- `e₁ + c_u` for the value `u` and the noise `a`: what rounding `u + a` to `w` bits adds to `u` -/
noncomputable def rounding (w : Nat) (u : Zq) (a : ℤ) : ℤ := a + (Decompress w (Compress w (u + a)) - (u + a)).valMinAbs

/-- Its absolute value for the noise `i - 2`, in natural numbers -/
def roundingN (w u i : Nat) : Nat :=
  let v := (u + 3327 + i) % 3329
  let x := ((3329 * ((2 ^ w * v + 1664) / 3329 % 2 ^ w) + 2 ^ (w - 1)) / 2 ^ w + 3329 - v) % 3329
  (if x ≤ 1664 then ((i + x : ℕ) : ℤ) - 2 else ((i + x : ℕ) : ℤ) - 3331).natAbs

theorem rounding_eq {w : Nat} (hw : 1 ≤ w) (u : Zq) (i : Nat) :
    (rounding w u ((i : ℤ) - 2)).natAbs = roundingN w u.val i := by
  have q0 : (3329 : Zq) = 0 := ZMod.natCast_self 3329
  have hy : u + (((i : ℤ) - 2 : ℤ) : Zq) = ((u.val + 3327 + i : ℕ) : Zq) := by
    push_cast
    rw [ZMod.natCast_zmod_val]
    linear_combination -q0
  have hv : (u + (((i : ℤ) - 2 : ℤ) : Zq)).val = (u.val + 3327 + i) % 3329 := by rw [hy, ZMod.val_natCast]
  have hlt : (u.val + 3327 + i) % 3329 < 3329 := Nat.mod_lt _ (by norm_num)
  unfold rounding roundingN
  rw [Compress_eq, hv, Decompress_eq hw]
  dsimp only
  generalize (3329 * ((2 ^ w * ((u.val + 3327 + i) % 3329) + 1664) / 3329 % 2 ^ w) + 2 ^ (w - 1)) / 2 ^ w = D
  have hx : ((D : ℕ) : Zq) - (u + (((i : ℤ) - 2 : ℤ) : Zq)) = ((D + 3329 - (u.val + 3327 + i) % 3329 : ℕ) : Zq) := by
    rw [Nat.cast_sub (by omega), Nat.cast_add, ← hv, ZMod.natCast_zmod_val]
    push_cast
    linear_combination -q0
  rw [hx, ZMod.valMinAbs_def_pos, ZMod.val_natCast]
  generalize (D + 3329 - (u.val + 3327 + i) % 3329) % 3329 = x
  congr 1
  split_ifs <;> push_cast <;> omega

/-- Averages over centred binomials -/
theorem expect_diff2 (f : ℤ → ℝ) :
    𝔼 b : Fin (2 * 2) → Bool, f (diff 2 b) = (f (-2) + 4 * f (-1) + 6 * f 0 + 4 * f 1 + f 2) / 16 := by
  have h : ∑ b : Fin (2 * 2) → Bool, f (diff 2 b) = ∑ a ∈ Finset.Icc (-2 : ℤ) 2, (#{b : Fin (2 * 2) → Bool | diff 2 b = a} : ℝ) * f a := by
    rw [← Finset.sum_fiberwise_of_maps_to (s := Finset.univ) (t := Finset.Icc (-2 : ℤ) 2) (g := fun b => diff 2 b) (by decide +kernel)]
    refine Finset.sum_congr rfl fun a _ => ?_
    rw [Finset.sum_congr rfl (g := fun _ => f a) fun b hb => by rw [(Finset.mem_filter.1 hb).2], Finset.sum_const, nsmul_eq_mul]
  have hI : Finset.Icc (-2 : ℤ) 2 = {-2, -1, 0, 1, 2} := by decide
  rw [Fintype.expect_eq_sum_div_card, h, hI]
  rw [Finset.sum_insert (by decide), Finset.sum_insert (by decide), Finset.sum_insert (by decide), Finset.sum_insert (by decide),
    Finset.sum_singleton]
  rw [show #{b : Fin (2 * 2) → Bool | diff 2 b = -2} = 1 by decide +kernel, show #{b : Fin (2 * 2) → Bool | diff 2 b = -1} = 4 by decide +kernel,
    show #{b : Fin (2 * 2) → Bool | diff 2 b = 0} = 6 by decide +kernel, show #{b : Fin (2 * 2) → Bool | diff 2 b = 1} = 4 by decide +kernel,
    show #{b : Fin (2 * 2) → Bool | diff 2 b = 2} = 1 by decide +kernel]
  have hc : (Fintype.card (Fin (2 * 2) → Bool) : ℝ) = 16 := by simp
  rw [hc]
  push_cast
  ring

theorem expect_diff3 (f : ℤ → ℝ) :
    𝔼 b : Fin (2 * 3) → Bool, f (diff 3 b)
      = (f (-3) + 6 * f (-2) + 15 * f (-1) + 20 * f 0 + 15 * f 1 + 6 * f 2 + f 3) / 64 := by
  have h : ∑ b : Fin (2 * 3) → Bool, f (diff 3 b) = ∑ a ∈ Finset.Icc (-3 : ℤ) 3, (#{b : Fin (2 * 3) → Bool | diff 3 b = a} : ℝ) * f a := by
    rw [← Finset.sum_fiberwise_of_maps_to (s := Finset.univ) (t := Finset.Icc (-3 : ℤ) 3) (g := fun b => diff 3 b) (by decide +kernel)]
    refine Finset.sum_congr rfl fun a _ => ?_
    rw [Finset.sum_congr rfl (g := fun _ => f a) fun b hb => by rw [(Finset.mem_filter.1 hb).2], Finset.sum_const, nsmul_eq_mul]
  have hI : Finset.Icc (-3 : ℤ) 3 = {-3, -2, -1, 0, 1, 2, 3} := by decide
  rw [Fintype.expect_eq_sum_div_card, h, hI]
  rw [Finset.sum_insert (by decide), Finset.sum_insert (by decide), Finset.sum_insert (by decide), Finset.sum_insert (by decide),
    Finset.sum_insert (by decide), Finset.sum_insert (by decide), Finset.sum_singleton]
  rw [show #{b : Fin (2 * 3) → Bool | diff 3 b = -3} = 1 by decide +kernel, show #{b : Fin (2 * 3) → Bool | diff 3 b = -2} = 6 by decide +kernel,
    show #{b : Fin (2 * 3) → Bool | diff 3 b = -1} = 15 by decide +kernel, show #{b : Fin (2 * 3) → Bool | diff 3 b = 0} = 20 by decide +kernel,
    show #{b : Fin (2 * 3) → Bool | diff 3 b = 1} = 15 by decide +kernel, show #{b : Fin (2 * 3) → Bool | diff 3 b = 2} = 6 by decide +kernel,
    show #{b : Fin (2 * 3) → Bool | diff 3 b = 3} = 1 by decide +kernel]
  have hc : (Fintype.card (Fin (2 * 3) → Bool) : ℝ) = 64 := by simp
  rw [hc]
  push_cast
  ring

theorem mgf_abs (eta : Nat) (t : ℝ) (z : ℤ) : mgf eta t z = mgf eta t z.natAbs := by
  rcases Int.natAbs_eq z with h | h
  · rw [← h]
  · rw [h, mgf_neg]; simp

theorem spread_eq {eta1 w : Nat} (hw : 1 ≤ w) (t : ℝ) (u : Zq) :
    spread eta1 2 t (rounding w) u = (mgf eta1 t (roundingN w u.val 0) + 4 * mgf eta1 t (roundingN w u.val 1)
      + 6 * mgf eta1 t (roundingN w u.val 2) + 4 * mgf eta1 t (roundingN w u.val 3) + mgf eta1 t (roundingN w u.val 4)) / 16 := by
  unfold spread
  rw [expect_diff2 fun a => mgf eta1 t (rounding w u a)]
  have h : ∀ i : Nat, i ≤ 4 → mgf eta1 t (rounding w u ((i : ℤ) - 2)) = mgf eta1 t (roundingN w u.val i) := fun i _ => by
    rw [mgf_abs, rounding_eq hw u i]
  have e : ∀ (i : Nat) (a : ℤ), i ≤ 4 → (i : ℤ) - 2 = a → mgf eta1 t (rounding w u a) = mgf eta1 t (roundingN w u.val i) :=
    fun i a hi ha => ha ▸ h i hi
  rw [e 0 (-2) (by norm_num) (by norm_num), e 1 (-1) (by norm_num) (by norm_num), e 2 0 (by norm_num) (by norm_num),
    e 3 1 (by norm_num) (by norm_num), e 4 2 (by norm_num) (by norm_num)]

/-- Upper bounds on `10^8·mgf`, as a table -/
def weightOf (G : List Nat) (w u : Nat) : Nat :=
  G.getD (roundingN w u 0) 0 + 4 * G.getD (roundingN w u 1) 0 + 6 * G.getD (roundingN w u 2) 0
    + 4 * G.getD (roundingN w u 3) 0 + G.getD (roundingN w u 4) 0

/-- All roundings stay below 5. -/
def roundingSmall (w : Nat) : Bool := (List.range 3329).all fun u => (List.range 5).all fun i => roundingN w u i < 5

theorem small_10 : roundingSmall 10 = true := by decide +kernel
theorem small_11 : roundingSmall 11 = true := by decide +kernel

theorem spread_le {eta1 w : Nat} (hw : 1 ≤ w) (hs : roundingSmall w = true) {t : ℝ} {G : List Nat}
    (hG : ∀ z : Nat, z < 5 → mgf eta1 t z ≤ (G.getD z 0 : ℝ) / 10 ^ 8) (u : Zq) :
    spread eta1 2 t (rounding w) u ≤ (weightOf G w u.val : ℝ) / (16 * 10 ^ 8) := by
  rw [spread_eq hw]
  have hs' : ∀ i, i < 5 → roundingN w u.val i < 5 := fun i hi => by
    have := List.all_eq_true.1 hs u.val (List.mem_range.2 (ZMod.val_lt u))
    exact of_decide_eq_true (List.all_eq_true.1 this i (List.mem_range.2 hi))
  have g := fun i hi => hG _ (hs' i hi)
  have g0 := g 0 (by norm_num)
  have g1 := g 1 (by norm_num)
  have g2 := g 2 (by norm_num)
  have g3 := g 3 (by norm_num)
  have g4 := g 4 (by norm_num)
  unfold weightOf
  push_cast
  rw [div_le_div_iff₀ (by norm_num) (by norm_num)]
  linarith

theorem mgf2_le2 {t : ℝ} {G : List Nat} (hG : ∀ z : Nat, z < 5 → mgf 2 t z ≤ (G.getD z 0 : ℝ) / 10 ^ 8) :
    mgf2 2 t ≤ ((2 * G.getD 2 0 + 8 * G.getD 1 0 + 6 * G.getD 0 0 : ℕ) : ℝ) / (16 * 10 ^ 8) := by
  unfold mgf2
  rw [expect_diff2 (mgf 2 t), mgf_neg, mgf_neg]
  have g0 := hG 0 (by norm_num)
  have g1 := hG 1 (by norm_num)
  have g2 := hG 2 (by norm_num)
  push_cast at g0 g1 g2 ⊢
  rw [div_le_div_iff₀ (by norm_num) (by norm_num)]
  linarith

theorem mgf2_le3 {t : ℝ} {G : List Nat} (hG : ∀ z : Nat, z < 5 → mgf 3 t z ≤ (G.getD z 0 : ℝ) / 10 ^ 8) :
    mgf2 3 t ≤ ((2 * G.getD 3 0 + 12 * G.getD 2 0 + 30 * G.getD 1 0 + 20 * G.getD 0 0 : ℕ) : ℝ) / (64 * 10 ^ 8) := by
  unfold mgf2
  rw [expect_diff3 (mgf 3 t), mgf_neg, mgf_neg, mgf_neg]
  have g0 := hG 0 (by norm_num)
  have g1 := hG 1 (by norm_num)
  have g2 := hG 2 (by norm_num)
  have g3 := hG 3 (by norm_num)
  push_cast at g0 g1 g2 g3 ⊢
  rw [div_le_div_iff₀ (by norm_num) (by norm_num)]
  linarith

/-- No value of `u` has a larger weight. -/
def weightLe (G : List Nat) (w B : Nat) : Bool := (List.range 3329).all fun u => weightOf G w u ≤ B

theorem weightLe_spec {G : List Nat} {w B : Nat} (h : weightLe G w B = true) (u : Zq) : weightOf G w u.val ≤ B :=
  of_decide_eq_true (List.all_eq_true.1 h u.val (List.mem_range.2 (ZMod.val_lt u)))

/-! ### The tables, for `t = 1.186`, `1.21` and `1.238` -/

def G_512 : List Nat := [100000000, 102203768, 109076461, 121448017, 140864044]
def G_768 : List Nat := [100000000, 101830617, 107490938, 117507494, 132831169]
def G_1024 : List Nat := [100000000, 102300807, 109469726, 122348298, 142486665]

theorem table_512 (z : Nat) (hz : z < 5) : mgf 3 (1.186 : ℝ) z ≤ (G_512.getD z 0 : ℝ) / 10 ^ 8 := by
  unfold mgf
  rw [expect_diff3 fun a => (1.186 : ℝ) ^ ((z : ℤ) * a)]
  interval_cases z <;> norm_num [G_512]

theorem table_768 (z : Nat) (hz : z < 5) : mgf 2 (1.21 : ℝ) z ≤ (G_768.getD z 0 : ℝ) / 10 ^ 8 := by
  unfold mgf
  rw [expect_diff2 fun a => (1.21 : ℝ) ^ ((z : ℤ) * a)]
  interval_cases z <;> norm_num [G_768]

theorem table_1024 (z : Nat) (hz : z < 5) : mgf 2 (1.238 : ℝ) z ≤ (G_1024.getD z 0 : ℝ) / 10 ^ 8 := by
  unfold mgf
  rw [expect_diff2 fun a => (1.238 : ℝ) ^ ((z : ℤ) * a)]
  interval_cases z <;> norm_num [G_1024]

theorem weightLe_512 : weightLe G_512 10 1745223376 = true := by decide +kernel
theorem weightLe_768 : weightLe G_768 10 1719855008 = true := by decide +kernel
theorem weightLe_1024 : weightLe G_1024 11 1694697260 = true := by decide +kernel

theorem spread_512 (u : Zq) : spread 3 2 1.186 (rounding 10) u ≤ (1745223376 : ℕ) / (16 * 10 ^ 8) :=
  (spread_le (by norm_num) small_10 table_512 u).trans
    (div_le_div_of_nonneg_right (Nat.cast_le.2 (weightLe_spec weightLe_512 u)) (by norm_num))
theorem spread_768 (u : Zq) : spread 2 2 1.21 (rounding 10) u ≤ (1719855008 : ℕ) / (16 * 10 ^ 8) :=
  (spread_le (by norm_num) small_10 table_768 u).trans
    (div_le_div_of_nonneg_right (Nat.cast_le.2 (weightLe_spec weightLe_768 u)) (by norm_num))
theorem spread_1024 (u : Zq) : spread 2 2 1.238 (rounding 11) u ≤ (1694697260 : ℕ) / (16 * 10 ^ 8) :=
  (spread_le (by norm_num) small_11 table_1024 u).trans
    (div_le_div_of_nonneg_right (Nat.cast_le.2 (weightLe_spec weightLe_1024 u)) (by norm_num))

/-- From an inequality between natural numbers to the bound on the tail -/
theorem tail_num {a b m c E D T K N : Nat} {t x y : ℝ} (ht : t = (a : ℝ) / b) (ha : 0 < a) (hb : 0 < b) (hE : 0 < E) (hD : 0 < D)
    (hx0 : 0 ≤ x) (hx : x ≤ (m : ℝ) / E) (hy0 : 0 ≤ y) (hy : y ≤ (c : ℝ) / D) (hN : N ≤ 200)
    (h : 10 * 2 ^ (N + 9) * b ^ T * (m * c) ^ K ≤ 9 * a ^ T * (E * D) ^ K) :
    256 * (2 * t ^ (-(T : ℤ)) * (x * y) ^ K) + 2 ^ (-256 : ℤ) ≤ (2 : ℝ) ^ (-N : ℤ) := by
  have h1 : (x * y) ^ K ≤ (((m * c : ℕ) : ℝ) / ((E * D : ℕ) : ℝ)) ^ K := by
    refine pow_le_pow_left₀ (mul_nonneg hx0 hy0) ?_ K
    push_cast
    rw [← div_mul_div_comm]
    exact mul_le_mul hx hy hy0 (by positivity)
  have h2 : t ^ (-(T : ℤ)) = (b : ℝ) ^ T / (a : ℝ) ^ T := by
    rw [zpow_neg, zpow_natCast, ht, div_pow, inv_div]
  have hA : (0 : ℝ) < (a : ℝ) ^ T := by positivity
  have hED : (0 : ℝ) < ((E * D : ℕ) : ℝ) ^ K := by positivity
  have h3 : (10 : ℝ) * 2 ^ (N + 9) * (b : ℝ) ^ T * ((m * c : ℕ) : ℝ) ^ K ≤ 9 * (a : ℝ) ^ T * ((E * D : ℕ) : ℝ) ^ K := by
    exact_mod_cast h
  have h4 : t ^ (-(T : ℤ)) * (x * y) ^ K ≤ 9 / (10 * 2 ^ (N + 9)) := by
    refine (mul_le_mul_of_nonneg_left h1 (by rw [h2]; positivity)).trans ?_
    rw [h2, div_pow, div_mul_div_comm, div_le_div_iff₀ (mul_pos hA hED) (by positivity)]
    linarith
  have h6 : (2 : ℝ) ^ (-256 : ℤ) ≤ 2 ^ (-N : ℤ) / 10 := by
    have h7 : (2 : ℝ) ^ (-252 : ℤ) ≤ 2 ^ (-N : ℤ) := zpow_le_zpow_right₀ (by norm_num) (by omega)
    have h8 : (2 : ℝ) ^ (-252 : ℤ) = 16 * 2 ^ (-256 : ℤ) := by norm_num
    have h9 : (0 : ℝ) ≤ 2 ^ (-256 : ℤ) := by positivity
    rw [h8] at h7
    generalize (2 : ℝ) ^ (-N : ℤ) = u at *
    generalize (2 : ℝ) ^ (-256 : ℤ) = v at *
    linarith
  have h5 : (9 : ℝ) / (10 * 2 ^ (N + 9)) = 9 / 5120 * 2 ^ (-N : ℤ) := by
    rw [zpow_neg, zpow_natCast, pow_add]
    have : (0 : ℝ) < 2 ^ N := by positivity
    field_simp
    norm_num
  rw [h5] at h4
  generalize (2 : ℝ) ^ (-N : ℤ) = u at *
  generalize (2 : ℝ) ^ (-256 : ℤ) = v at *
  rw [mul_assoc 2]
  generalize t ^ (-(T : ℤ)) * (x * y) ^ K = X at *
  linarith

theorem num_512 : 256 * (2 * (1.186 : ℝ) ^ (-(726 : ℕ) : ℤ) * (mgf2 3 1.186 * ((1745223376 : ℕ) / (16 * 10 ^ 8))) ^ (256 * 2)) + 2 ^ (-256 : ℤ)
    ≤ (2 : ℝ) ^ (-(80 : ℕ) : ℤ) :=
  tail_num (a := 593) (b := 500) (E := 64 * 10 ^ 8) (D := 16 * 10 ^ 8) (m := 6617926606) (c := 1745223376) (by norm_num) (by norm_num) (by norm_num) (by norm_num)
    (by norm_num) (Finset.expect_nonneg fun _ _ => mgf_nonneg _ (by norm_num) _)
    ((mgf2_le3 table_512).trans (by norm_num [G_512])) (by norm_num) (by norm_num) (by norm_num) (by decide +kernel)

theorem num_768 : 256 * (2 * (1.21 : ℝ) ^ (-(726 : ℕ) : ℤ) * (mgf2 2 1.21 * ((1719855008 : ℕ) / (16 * 10 ^ 8))) ^ (256 * 3)) + 2 ^ (-256 : ℤ)
    ≤ (2 : ℝ) ^ (-(90 : ℕ) : ℤ) :=
  tail_num (a := 121) (b := 100) (E := 16 * 10 ^ 8) (D := 16 * 10 ^ 8) (m := 1629626812) (c := 1719855008) (by norm_num) (by norm_num) (by norm_num) (by norm_num)
    (by norm_num) (Finset.expect_nonneg fun _ _ => mgf_nonneg _ (by norm_num) _)
    ((mgf2_le2 table_768).trans (by norm_num [G_768])) (by norm_num) (by norm_num) (by norm_num) (by decide +kernel)

theorem num_1024 : 256 * (2 * (1.238 : ℝ) ^ (-(778 : ℕ) : ℤ) * (mgf2 2 1.238 * ((1694697260 : ℕ) / (16 * 10 ^ 8))) ^ (256 * 4)) + 2 ^ (-256 : ℤ)
    ≤ (2 : ℝ) ^ (-(111 : ℕ) : ℤ) :=
  tail_num (a := 619) (b := 500) (E := 16 * 10 ^ 8) (D := 16 * 10 ^ 8) (m := 1637345908) (c := 1694697260) (by norm_num) (by norm_num) (by norm_num) (by norm_num)
    (by norm_num) (Finset.expect_nonneg fun _ _ => mgf_nonneg _ (by norm_num) _)
    ((mgf2_le2 table_1024).trans (by norm_num [G_1024])) (by norm_num) (by norm_num) (by norm_num) (by decide +kernel)

end MlKem
