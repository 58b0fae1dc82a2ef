import Verif.Proofs.HitTable
/-! The tables of the tail bound for uniform matrices -/
namespace MlKem
open Rust Fips203 Finset BigOperators

theorem conv_512 : convLe 328 (weights3 G_512) 10
    48475329383449716217147856271108196496516389309655438168442151121710818592794260654477765158176 = true := by decide +kernel

theorem conv_768 : convLe 338 (weights2 G_768) 11
    65226486746553011648291217085182370187967891850012569950299823686111847904118711772657126480117760 = true := by decide +kernel

/-! ### Averages over `u` -/

/-- The sum of the weights of all values of `u` -/
def weightSum (G : List Nat) (w : Nat) : Nat := ∑ u ∈ Finset.range 3329, weightOf G w u

theorem spread_average {eta1 w : Nat} (hw : 1 ≤ w) (hs : roundingSmall w = true) {t : ℝ} {G : List Nat}
    (hG : ∀ z : Nat, z < 5 → mgf eta1 t z ≤ (G.getD z 0 : ℝ) / 10 ^ 8) {B : Nat} (hB : weightSum G w ≤ B) :
    𝔼 u : Zq, spread eta1 2 t (rounding w) u ≤ (B : ℝ) / (3329 * (16 * 10 ^ 8)) := by
  refine (Finset.expect_le_expect fun u _ => spread_le hw hs hG u).trans ?_
  rw [Fintype.expect_eq_sum_div_card, ← Finset.sum_div, div_div, mul_comm (16 * 10 ^ 8 : ℝ)]
  have hc : (Fintype.card Zq : ℝ) = 3329 := by rw [show Fintype.card Zq = 3329 from ZMod.card 3329]; norm_num
  rw [hc]
  refine div_le_div_of_nonneg_right ?_ (by norm_num)
  have e : ∑ u : Zq, weightOf G w u.val = weightSum G w := by
    unfold weightSum
    symm
    refine Finset.sum_bij' (fun i _ => (i : Zq)) (fun z _ => z.val) (fun i _ => Finset.mem_univ _)
      (fun z _ => Finset.mem_range.2 (ZMod.val_lt z)) (fun i hi => ZMod.val_cast_of_lt (Finset.mem_range.1 hi))
      (fun z _ => ZMod.natCast_zmod_val z) fun i hi => ?_
    rw [ZMod.val_cast_of_lt (Finset.mem_range.1 hi)]
  rw [← e] at hB
  exact_mod_cast hB

/-- For `t = 1.28`, `1.346` and `1.348` -/
def A_512 : List Nat := [100000000, 104664451, 119840618, 149522111, 202054672]
def A_768 : List Nat := [100000000, 104496545, 119010585, 146933561, 195089513]
def A_1024 : List Nat := [100000000, 104542434, 119215293, 147483420, 196330954]

theorem average_512 (z : Nat) (hz : z < 5) : mgf 3 (1.28 : ℝ) z ≤ (A_512.getD z 0 : ℝ) / 10 ^ 8 := by
  unfold mgf
  rw [expect_diff3 fun a => (1.28 : ℝ) ^ ((z : ℤ) * a)]
  interval_cases z <;> norm_num [A_512]

theorem average_768 (z : Nat) (hz : z < 5) : mgf 2 (1.346 : ℝ) z ≤ (A_768.getD z 0 : ℝ) / 10 ^ 8 := by
  unfold mgf
  rw [expect_diff2 fun a => (1.346 : ℝ) ^ ((z : ℤ) * a)]
  interval_cases z <;> norm_num [A_768]

theorem average_1024 (z : Nat) (hz : z < 5) : mgf 2 (1.348 : ℝ) z ≤ (A_1024.getD z 0 : ℝ) / 10 ^ 8 := by
  unfold mgf
  rw [expect_diff2 fun a => (1.348 : ℝ) ^ ((z : ℤ) * a)]
  interval_cases z <;> norm_num [A_1024]

theorem weightSum_512 : weightSum A_512 10 ≤ 5848596033172 := by decide +kernel
theorem weightSum_768 : weightSum A_768 10 ≤ 5825108964967 := by decide +kernel
theorem weightSum_1024 : weightSum A_1024 11 ≤ 5679546506814 := by decide +kernel

/-- `t = 1.21` also serves ML-KEM-1024. -/
theorem weightLe_1024' : weightLe G_768 11 1674909380 = true := by decide +kernel
theorem spread_1024' (u : Zq) : spread 2 2 1.21 (rounding 11) u ≤ (1674909380 : ℕ) / (16 * 10 ^ 8) :=
  (spread_le (by norm_num) small_11 table_768 u).trans
    (div_le_div_of_nonneg_right (Nat.cast_le.2 (weightLe_spec weightLe_1024' u)) (by norm_num))

/-! ### The final inequalities -/

theorem num_uniform {a b m c E D T K N f : Nat} {t x y : ℝ} (ht : t = (a : ℝ) / b) (ha : 0 < a) (hb : 0 < b) (hE : 0 < E) (hD : 0 < D)
    (hx0 : 0 ≤ x) (hx : x ≤ (m : ℝ) / E) (hy0 : 0 ≤ y) (hy : y ≤ (c : ℝ) / D)
    (h : 512000 * 2 ^ N * b ^ T * (m * c) ^ K ≤ f * a ^ T * (E * D) ^ K) :
    256 * (2 * t ^ (-(T : ℤ)) * (x * y) ^ K) ≤ f / 1000 * (2 : ℝ) ^ (-N : ℤ) := by
  have h1 : (x * y) ^ K ≤ (((m * c : ℕ) : ℝ) / ((E * D : ℕ) : ℝ)) ^ K := by
    refine pow_le_pow_left₀ (mul_nonneg hx0 hy0) ?_ K
    push_cast
    rw [← div_mul_div_comm]
    exact mul_le_mul hx hy hy0 (by positivity)
  have h2 : t ^ (-(T : ℤ)) = (b : ℝ) ^ T / (a : ℝ) ^ T := by
    rw [zpow_neg, zpow_natCast, ht, div_pow, inv_div]
  have hA : (0 : ℝ) < (a : ℝ) ^ T := by positivity
  have hED : (0 : ℝ) < ((E * D : ℕ) : ℝ) ^ K := by positivity
  have h3 : (512000 : ℝ) * 2 ^ N * (b : ℝ) ^ T * ((m * c : ℕ) : ℝ) ^ K ≤ f * (a : ℝ) ^ T * ((E * D : ℕ) : ℝ) ^ K := by
    exact_mod_cast h
  have h4 : t ^ (-(T : ℤ)) * (x * y) ^ K ≤ f / (512000 * 2 ^ N) := by
    refine (mul_le_mul_of_nonneg_left h1 (by rw [h2]; positivity)).trans ?_
    rw [h2, div_pow, div_mul_div_comm, div_le_div_iff₀ (mul_pos hA hED) (by positivity)]
    linarith
  have h5 : (f : ℝ) / (512000 * 2 ^ N) = f / 512000 * 2 ^ (-N : ℤ) := by
    rw [zpow_neg, zpow_natCast]
    have : (0 : ℝ) < 2 ^ N := by positivity
    field_simp
  rw [h5] at h4
  generalize (2 : ℝ) ^ (-N : ℤ) = u at *
  rw [mul_assoc 2]
  generalize t ^ (-(T : ℤ)) * (x * y) ^ K = X at *
  linarith

theorem num_singular {a b m c E D T k N H Q f : Nat} {t x : ℝ} (ht : t = (a : ℝ) / b) (ha : 0 < a) (hb : 0 < b) (hE : 0 < E) (hD : 0 < D)
    (hx0 : 0 ≤ x) (hx : x ≤ (m : ℝ) / E) (hN : N ≤ 128)
    (h : 65536000 * 2 ^ Q * b ^ T * c ^ (256 * k) * (m ^ (128 - N) * H) ^ (2 * k) ≤ f * a ^ T * D ^ (256 * k) * (E ^ 128) ^ (2 * k)) :
    256 * (2 * t ^ (-(T : ℤ)) * (((c : ℝ) / D) ^ (256 * k) * (128 * (x ^ (128 - N) * ((H : ℝ) / (E : ℝ) ^ N)) ^ (2 * k))))
      ≤ f / 1000 * (2 : ℝ) ^ (-Q : ℤ) := by
  have hE' : (0 : ℝ) < (E : ℝ) := by exact_mod_cast hE
  have hD' : (0 : ℝ) < (D : ℝ) ^ (256 * k) := by have : (0 : ℝ) < D := by exact_mod_cast hD
                                                 positivity
  have h1 : (x ^ (128 - N) * ((H : ℝ) / (E : ℝ) ^ N)) ^ (2 * k)
      ≤ (((m ^ (128 - N) * H : ℕ) : ℝ)) ^ (2 * k) / ((E : ℝ) ^ 128) ^ (2 * k) := by
    rw [← div_pow]
    refine pow_le_pow_left₀ (by positivity) ?_ _
    refine (mul_le_mul_of_nonneg_right (pow_le_pow_left₀ hx0 hx (128 - N)) (by positivity)).trans (le_of_eq ?_)
    rw [div_pow, div_mul_div_comm, ← pow_add, Nat.sub_add_cancel hN]
    push_cast
    rfl
  have h2 : t ^ (-(T : ℤ)) = (b : ℝ) ^ T / (a : ℝ) ^ T := by
    rw [zpow_neg, zpow_natCast, ht, div_pow, inv_div]
  have hA : (0 : ℝ) < (a : ℝ) ^ T := by positivity
  have h3 : (65536000 : ℝ) * 2 ^ Q * (b : ℝ) ^ T * (c : ℝ) ^ (256 * k) * ((m ^ (128 - N) * H : ℕ) : ℝ) ^ (2 * k)
      ≤ f * (a : ℝ) ^ T * (D : ℝ) ^ (256 * k) * ((E : ℝ) ^ 128) ^ (2 * k) := by
    exact_mod_cast h
  have hQ : (2 : ℝ) ^ (-Q : ℤ) = 1 / 2 ^ Q := by rw [zpow_neg, zpow_natCast, one_div]
  rw [h2, div_pow, hQ]
  generalize (x ^ (128 - N) * ((H : ℝ) / (E : ℝ) ^ N)) ^ (2 * k) = X at *
  generalize ((m ^ (128 - N) * H : ℕ) : ℝ) ^ (2 * k) = Y at *
  have hF : (0 : ℝ) < ((E : ℝ) ^ 128) ^ (2 * k) := by positivity
  generalize ((E : ℝ) ^ 128) ^ (2 * k) = F at *
  generalize (D : ℝ) ^ (256 * k) = Dk at *
  have hck : (0 : ℝ) ≤ (c : ℝ) ^ (256 * k) := by positivity
  generalize (c : ℝ) ^ (256 * k) = ck at *
  generalize (a : ℝ) ^ T = aT at *
  have hbT : (0 : ℝ) ≤ (b : ℝ) ^ T := by positivity
  generalize (b : ℝ) ^ T = bT at *
  have hU : (0 : ℝ) < 2 ^ Q := by positivity
  generalize (2 : ℝ) ^ Q = U at *
  calc 256 * (2 * (bT / aT) * (ck / Dk * (128 * X))) ≤ 256 * (2 * (bT / aT) * (ck / Dk * (128 * (Y / F)))) := by
        refine mul_le_mul_of_nonneg_left (mul_le_mul_of_nonneg_left (mul_le_mul_of_nonneg_left
          (mul_le_mul_of_nonneg_left h1 (by norm_num)) (by positivity)) (by positivity)) (by norm_num)
    _ = (65536000 * U * bT * ck * Y) / (1000 * (U * (aT * (Dk * F)))) := by field_simp; ring
    _ ≤ (f * aT * Dk * F) / (1000 * (U * (aT * (Dk * F)))) := div_le_div_of_nonneg_right h3 (by positivity)
    _ = f / 1000 * (1 / U) := by field_simp

theorem mgf2_nonneg (eta : Nat) {t : ℝ} (ht : 0 < t) : 0 ≤ mgf2 eta t := Finset.expect_nonneg fun _ _ => mgf_nonneg _ ht _

theorem average_nonneg {eta1 w : Nat} {t : ℝ} (ht : 0 < t) : 0 ≤ 𝔼 u : Zq, spread eta1 2 t (rounding w) u :=
  Finset.expect_nonneg fun u _ => spread_nonneg ht (rounding w) u

theorem uniform_512 : 256 * (2 * (1.28 : ℝ) ^ (-(726 : ℕ) : ℤ) * (mgf2 3 1.28 * 𝔼 u : Zq, spread 3 2 1.28 (rounding 10) u) ^ (256 * 2))
    ≤ (10 : ℕ) / 1000 * (2 : ℝ) ^ (-(120 : ℕ) : ℤ) :=
  num_uniform (a := 32) (b := 25) (E := 64 * 10 ^ 8) (D := 3329 * (16 * 10 ^ 8)) (m := 6877065168) (c := 5848596033172) (by norm_num)
    (by norm_num) (by norm_num) (by norm_num) (by norm_num) (mgf2_nonneg 3 (by norm_num)) ((mgf2_le3 average_512).trans (by norm_num [A_512]))
    (average_nonneg (by norm_num))
    ((spread_average (by norm_num) small_10 average_512 weightSum_512).trans (by norm_num)) (by decide +kernel)

theorem uniform_768 : 256 * (2 * (1.346 : ℝ) ^ (-(726 : ℕ) : ℤ) * (mgf2 2 1.346 * 𝔼 u : Zq, spread 2 2 1.346 (rounding 10) u) ^ (256 * 3))
    ≤ (520 : ℕ) / 1000 * (2 : ℝ) ^ (-(152 : ℕ) : ℤ) :=
  num_uniform (a := 673) (b := 500) (E := 16 * 10 ^ 8) (D := 3329 * (16 * 10 ^ 8)) (m := 1673993530) (c := 5825108964967) (by norm_num)
    (by norm_num) (by norm_num) (by norm_num) (by norm_num) (mgf2_nonneg 2 (by norm_num)) ((mgf2_le2 average_768).trans (by norm_num [A_768]))
    (average_nonneg (by norm_num))
    ((spread_average (by norm_num) small_10 average_768 weightSum_768).trans (by norm_num)) (by decide +kernel)

theorem uniform_1024 : 256 * (2 * (1.348 : ℝ) ^ (-(778 : ℕ) : ℤ) * (mgf2 2 1.348 * 𝔼 u : Zq, spread 2 2 1.348 (rounding 11) u) ^ (256 * 4))
    ≤ (560 : ℕ) / 1000 * (2 : ℝ) ^ (-(163 : ℕ) : ℤ) :=
  num_uniform (a := 337) (b := 250) (E := 16 * 10 ^ 8) (D := 3329 * (16 * 10 ^ 8)) (m := 1674770058) (c := 5679546506814) (by norm_num)
    (by norm_num) (by norm_num) (by norm_num) (by norm_num) (mgf2_nonneg 2 (by norm_num)) ((mgf2_le2 average_1024).trans (by norm_num [A_1024]))
    (average_nonneg (by norm_num))
    ((spread_average (by norm_num) small_11 average_1024 weightSum_1024).trans (by norm_num)) (by decide +kernel)

/-- The largest entries of the two tables -/
def H_512 : Nat := 48475329383449716217147856271108196496516389309655438168442151121710818592794260654477765158176
def H_768 : Nat := 65226486746553011648291217085182370187967891850012569950299823686111847904118711772657126480117760

theorem hit_512 (z : Zq) : hit 3 (mgf 3 1.186) (fun j : Fin 10 => (17 : Zq) ^ j.val) z ≤ (H_512 : ℝ) / ((64 * 10 ^ 8 : ℕ) : ℝ) ^ 10 := by
  refine (hit_le3 (by norm_num) table_512 10 z).trans ?_
  rw [show ((64 * 10 ^ 8 : ℕ) : ℝ) = 64 * 10 ^ 8 by norm_num]
  exact div_le_div_of_nonneg_right (Nat.cast_le (α := ℝ).2 (convLe_spec conv_512 z)) (pow_nonneg (by norm_num) _)

theorem hit_768 (z : Zq) : hit 2 (mgf 2 1.21) (fun j : Fin 11 => (17 : Zq) ^ j.val) z ≤ (H_768 : ℝ) / ((16 * 10 ^ 8 : ℕ) : ℝ) ^ 11 := by
  refine (hit_le2 (by norm_num) table_768 11 z).trans ?_
  rw [show ((16 * 10 ^ 8 : ℕ) : ℝ) = 16 * 10 ^ 8 by norm_num]
  exact div_le_div_of_nonneg_right (Nat.cast_le (α := ℝ).2 (convLe_spec conv_768 z)) (pow_nonneg (by norm_num) _)

theorem singular_512 : 256 * (2 * (1.186 : ℝ) ^ (-(726 : ℕ) : ℤ) * (((1745223376 : ℕ) / ((16 * 10 ^ 8 : ℕ) : ℝ)) ^ (256 * 2)
    * (128 * (mgf2 3 1.186 ^ (128 - 10) * ((H_512 : ℝ) / ((64 * 10 ^ 8 : ℕ) : ℝ) ^ 10)) ^ (2 * 2)))) ≤ (700 : ℕ) / 1000 * (2 : ℝ) ^ (-(120 : ℕ) : ℤ) :=
  num_singular (a := 593) (b := 500) (m := 6617926606) (by norm_num) (by norm_num) (by norm_num) (by norm_num) (by norm_num)
    (mgf2_nonneg 3 (by norm_num)) ((mgf2_le3 table_512).trans (by norm_num [G_512])) (by norm_num) (by decide +kernel)

theorem singular_768 : 256 * (2 * (1.21 : ℝ) ^ (-(726 : ℕ) : ℤ) * (((1719855008 : ℕ) / ((16 * 10 ^ 8 : ℕ) : ℝ)) ^ (256 * 3)
    * (128 * (mgf2 2 1.21 ^ (128 - 11) * ((H_768 : ℝ) / ((16 * 10 ^ 8 : ℕ) : ℝ) ^ 11)) ^ (2 * 3)))) ≤ (400 : ℕ) / 1000 * (2 : ℝ) ^ (-(152 : ℕ) : ℤ) :=
  num_singular (a := 121) (b := 100) (m := 1629626812) (by norm_num) (by norm_num) (by norm_num) (by norm_num) (by norm_num)
    (mgf2_nonneg 2 (by norm_num)) ((mgf2_le2 table_768).trans (by norm_num [G_768])) (by norm_num) (by decide +kernel)

theorem singular_1024 : 256 * (2 * (1.21 : ℝ) ^ (-(778 : ℕ) : ℤ) * (((1674909380 : ℕ) / ((16 * 10 ^ 8 : ℕ) : ℝ)) ^ (256 * 4)
    * (128 * (mgf2 2 1.21 ^ (128 - 11) * ((H_768 : ℝ) / ((16 * 10 ^ 8 : ℕ) : ℝ) ^ 11)) ^ (2 * 4)))) ≤ (1 : ℕ) / 1000 * (2 : ℝ) ^ (-(163 : ℕ) : ℤ) :=
  num_singular (a := 121) (b := 100) (m := 1629626812) (by norm_num) (by norm_num) (by norm_num) (by norm_num) (by norm_num)
    (mgf2_nonneg 2 (by norm_num)) ((mgf2_le2 table_768).trans (by norm_num [G_768])) (by norm_num) (by decide +kernel)

end MlKem
