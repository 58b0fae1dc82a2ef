import Verif.Model.Encode
import Verif.Proofs.Field
import Mathlib.Tactic.IntervalCases
import Mathlib.Tactic.Ring
import Mathlib.Tactic.FieldSimp
/-! Compression and decompression compute the roundings of FIPS 203, for every width 1..12. -/
namespace MlKem
open Rust MInt Fips203 FieldElement

variable [Build]

/-! ### The roundings as natural-number divisions -/

omit [Build] in
theorem round_div (a b : Nat) (hb : 0 < b) :
    round ((a : ℚ) / b) = (((2 * a + b) / (2 * b) : Nat) : ℤ) := by
  rw [round_eq]
  have : (a : ℚ) / b + 1 / 2 = ((2 * a + b : Nat) : ℚ) / ((2 * b : Nat) : ℚ) := by
    have : (b : ℚ) ≠ 0 := by exact_mod_cast hb.ne'
    push_cast
    field_simp
  rw [this, Rat.floor_natCast_div_natCast]
  norm_cast

omit [Build] in
theorem Compress_eq (d : Nat) (x : Zq) :
    Compress d x = (2 ^ d * x.val + 1664) / 3329 % 2 ^ d := by
  unfold Compress
  have : (2 ^ d : ℚ) / 3329 * (x.val : ℚ) = ((2 ^ d * x.val : Nat) : ℚ) / ((3329 : Nat) : ℚ) := by
    push_cast; ring
  rw [this, round_div _ _ (by omega)]
  have e : (2 * (2 ^ d * x.val) + 3329) / (2 * 3329) = (2 ^ d * x.val + 1664) / 3329 := by omega
  rw [e]
  norm_cast

omit [Build] in
theorem Decompress_eq {d : Nat} (hd : 1 ≤ d) (y : Nat) :
    Decompress d y = (((3329 * y + 2 ^ (d - 1)) / 2 ^ d : Nat) : Zq) := by
  unfold Decompress
  have : (3329 : ℚ) / 2 ^ d * (y : ℚ) = ((3329 * y : Nat) : ℚ) / ((2 ^ d : Nat) : ℚ) := by
    push_cast; ring
  rw [this, round_div _ _ (Nat.two_pow_pos d)]
  obtain ⟨e, rfl⟩ : ∃ e, d = e + 1 := ⟨d - 1, by omega⟩
  have he : (2 * (3329 * y) + 2 ^ (e + 1)) / (2 * 2 ^ (e + 1)) =
      (3329 * y + 2 ^ e) / 2 ^ (e + 1) := by
    rw [← Nat.mul_div_mul_left (3329 * y + 2 ^ e) (2 ^ (e + 1)) (by omega : 0 < 2)]
    congr 1
    rw [Nat.mul_add, Nat.pow_succ]; ring
  rw [he, Int.cast_natCast]
  rfl

omit [Build] in
theorem Compress_lt (d : Nat) (x : Zq) : Compress d x < 2 ^ d := by
  rw [Compress_eq]; exact Nat.mod_lt _ (Nat.two_pow_pos d)

omit [Build] in
theorem decompressN_lt {d y : Nat} (h1 : 1 ≤ d) (h2 : d ≤ 12) (hy : y < 2 ^ d) :
    (3329 * y + 2 ^ (d - 1)) / 2 ^ d < 3329 := by
  interval_cases d <;> omega

omit [Build] in
theorem Decompress_val {d y : Nat} (h1 : 1 ≤ d) (h2 : d ≤ 12) (hy : y < 2 ^ d) :
    (Decompress d y).val = (3329 * y + 2 ^ (d - 1)) / 2 ^ d := by
  rw [Decompress_eq h1, ZMod.val_natCast, Nat.mod_eq_of_lt (decompressN_lt h1 h2 hy)]

/-! ### The code -/

omit [Build] in
/-- Division by multiplication is exact here, although neither the reciprocal nor `Q_HALF` is. -/
theorem div_mul_exact {d x : Nat} (h2 : d ≤ 12) (hx : x < 3329) :
    (x * 2 ^ d + 1665) * 5160669 / 17179869184 = (2 ^ d * x + 1664) / 3329 := by
  have hpow : (2 : Nat) ^ d ≤ 2 ^ 12 := Nat.pow_le_pow_right (by omega) h2
  have hb : x * 2 ^ d ≤ 3328 * 2 ^ 12 := Nat.mul_le_mul (by omega) hpow
  rw [Nat.mul_comm (2 ^ d)]
  -- the one residue for which the reciprocal could be too small
  have hbad : ∀ k, x * 2 ^ d + 1664 = 3329 * k → k ≤ 2477 := by
    intro k hk
    by_cases h12 : d = 12
    · subst h12
      omega
    · have h11 : (2 : Nat) ^ d ≤ 2 ^ 11 := Nat.pow_le_pow_right (by omega) (by omega)
      have hb : x * 2 ^ d ≤ 3328 * 2 ^ 11 := Nat.mul_le_mul (by omega) h11
      omega
  generalize x * 2 ^ d = N at *
  obtain ⟨k, r, hkr, hr⟩ : ∃ k r, N + 1665 = 3329 * k + r ∧ r < 3329 :=
    ⟨(N + 1665) / 3329, (N + 1665) % 3329, (Nat.div_add_mod _ _).symm, Nat.mod_lt _ (by omega)⟩
  rw [hkr]
  have hbk := hbad k
  by_cases h0 : r = 0
  · have : (N + 1664) / 3329 = k - 1 := by omega
    rw [this]; omega
  · have : (N + 1664) / 3329 = k := by omega
    rw [this]; omega

omit [Build] in
theorem toNat_Q_HALF : toNat Q_HALF = 1665 := by
  rw [Q_HALF]; exact toNat_ofNat_lt (α := UInt64) (by norm_num [Nat.shiftRight_eq_div_pow])
omit [Build] in
theorem toNat_DIV_MUL : toNat DIV_MUL = 5160669 := by
  rw [DIV_MUL, DIV_SHIFT, show ((1 : Nat) <<< 34) / 3329 = 5160669 by norm_num [Nat.shiftLeft_eq]]
  exact toNat_ofNat_lt (α := UInt64) (by norm_num)

theorem compress_ok {D : Nat} (h2 : D ≤ 12) (x : Zq) :
    (ofZ x).compress D = .ok (ofN (Compress D x)) := by
  have hx := zval_lt x
  have hpow : (2 : Nat) ^ D ≤ 2 ^ 12 := Nat.pow_le_pow_right (by omega) h2
  have hb : x.val * 2 ^ D ≤ 3328 * 2 ^ 12 := Nat.mul_le_mul (by omega) hpow
  unfold FieldElement.compress
  dsimp only
  have hc : toNat (cast (ofZ x).val : UInt64) = x.val := by
    rw [toNat_cast_le (by simp), toNat_u16, ofZ_val]
  rw [shl_ok (by simp only [bits_u64]; omega), hc]
  rw [Res.ok_bind]
  have t1 : toNat (ofNat (x.val * 2 ^ D) : UInt64) = x.val * 2 ^ D :=
    toNat_ofNat_lt (by simp only [bits_u64]; omega)
  rw [add_ok (by rw [t1, toNat_Q_HALF]; simp only [bits_u64]; omega), t1, toNat_Q_HALF]
  rw [Res.ok_bind]
  have t2 : toNat (ofNat (x.val * 2 ^ D + 1665) : UInt64) = x.val * 2 ^ D + 1665 :=
    toNat_ofNat_lt (by simp only [bits_u64]; omega)
  rw [mul_ok (by rw [t2, toNat_DIV_MUL]; simp only [bits_u64]; omega), t2, toNat_DIV_MUL]
  rw [Res.ok_bind]
  have t3 : toNat (ofNat ((x.val * 2 ^ D + 1665) * 5160669) : UInt64)
      = (x.val * 2 ^ D + 1665) * 5160669 :=
    toNat_ofNat_lt (by simp only [bits_u64]; omega)
  rw [shr_ok (by simp [DIV_SHIFT]), t3, DIV_SHIFT, show (2 : Nat) ^ 34 = 17179869184 by norm_num,
    div_mul_exact h2 hx]
  rw [Res.ok_bind]
  set w := (2 ^ D * x.val + 1664) / 3329 with hw
  have hwl : w < 2 ^ 16 := by
    rw [hw, Nat.mul_comm (2 ^ D)]; omega
  rw [truncate_ok (by simp)]
  rw [Res.ok_bind]
  rw [truncate_ok (by simp)]
  rw [Res.ok_bind]
  have t4 : toNat (ofNat w : UInt64) = w := toNat_ofNat_lt (by simp only [bits_u64]; omega)
  have t5 : toNat (ofNat w : UInt32) = w := toNat_ofNat_lt (by simp only [bits_u32]; omega)
  have t6 : toNat (ofNat w : UInt16) = w := toNat_ofNat_lt (by simp only [bits_u16]; omega)
  have tK : toNat (MASK D) = 2 ^ D - 1 := by
    rw [MASK, Nat.one_shiftLeft]
    exact toNat_ofNat_lt (α := UInt16) (by simp only [bits_u16]; omega)
  rw [t4, t5, ofN, Compress_eq, ← hw, Rust.and, t6, tK, Nat.and_two_pow_sub_one_eq_mod]
  rfl

/-- Decompression never overflows, whatever the 16-bit input. -/
theorem decompress_raw {D : Nat} (h1 : 1 ≤ D) (h2 : D ≤ 12) (x : FieldElement) :
    x.decompress D = .ok (ofN ((3329 * x.val.toNat + 2 ^ (D - 1)) / 2 ^ D)) := by
  have hx := x.val.toNat_lt
  have hpow : (2 : Nat) ^ (D - 1) ≤ 2 ^ 11 := Nat.pow_le_pow_right (by omega) (by omega)
  unfold FieldElement.decompress
  dsimp only
  have hc : toNat (cast x.val : UInt32) = x.val.toNat := by
    rw [toNat_cast, toNat_u16]; simp only [bits_u32]
    exact Nat.mod_eq_of_lt (by omega)
  have tQ : toNat FieldElement.Q32 = 3329 := by decide
  have tP : toNat (POW2_HALF D) = 2 ^ (D - 1) := by
    rw [POW2_HALF, Nat.one_shiftLeft]
    exact toNat_ofNat_lt (α := UInt32) (by simp only [bits_u32]; omega)
  rw [mul_ok (by rw [hc, tQ]; simp only [bits_u32]; omega), hc, tQ]
  rw [Res.ok_bind]
  have t1 : toNat (ofNat (x.val.toNat * 3329) : UInt32) = x.val.toNat * 3329 :=
    toNat_ofNat_lt (by simp only [bits_u32]; omega)
  rw [add_ok (by rw [t1, tP]; simp only [bits_u32]; omega), t1, tP]
  rw [Res.ok_bind]
  have t2 : toNat (ofNat (x.val.toNat * 3329 + 2 ^ (D - 1)) : UInt32)
      = x.val.toNat * 3329 + 2 ^ (D - 1) :=
    toNat_ofNat_lt (by simp only [bits_u32]; omega)
  rw [shr_ok (by simp only [bits_u32]; omega), t2]
  rw [Res.ok_bind]
  rw [truncate_ok (by simp)]
  rw [Res.ok_bind]
  have t3 : toNat (ofNat ((x.val.toNat * 3329 + 2 ^ (D - 1)) / 2 ^ D) : UInt32)
      = (x.val.toNat * 3329 + 2 ^ (D - 1)) / 2 ^ D :=
    toNat_ofNat_lt (by
      refine Nat.lt_of_le_of_lt (Nat.div_le_self _ _) ?_
      simp only [bits_u32]; omega)
  rw [t3, Nat.mul_comm x.val.toNat]
  rfl

theorem decompress_ok {D y : Nat} (h1 : 1 ≤ D) (h2 : D ≤ 12) (hy : y < 2 ^ D) :
    (ofN y).decompress D = .ok (ofZ (Decompress D y)) := by
  have hpow : (2 : Nat) ^ D ≤ 2 ^ 12 := Nat.pow_le_pow_right (by omega) h2
  rw [decompress_raw h1 h2, ofN_val (by omega), ofZ_eq_ofN, Decompress_val h1 h2 hy]

/-! ### Consequences of the specification -/

omit [Build] in
theorem Compress_Decompress {d y : Nat} (h1 : 1 ≤ d) (h2 : d ≤ 11) (hy : y < 2 ^ d) :
    Compress d (Decompress d y) = y := by
  rw [Compress_eq, Decompress_val h1 (by omega) hy]
  obtain ⟨e, rfl⟩ : ∃ e, d = e + 1 := ⟨d - 1, by omega⟩
  have he : (2 : Nat) ^ e ≤ 2 ^ 10 := Nat.pow_le_pow_right (by omega) (by omega)
  have hP : (2 : Nat) ^ (e + 1) = 2 * 2 ^ e := by rw [Nat.pow_succ]; omega
  have hlo := Nat.mul_div_le (3329 * y + 2 ^ e) (2 ^ (e + 1))
  have hhi := Nat.lt_mul_div_succ (3329 * y + 2 ^ e) (Nat.two_pow_pos (e + 1))
  rw [Nat.mul_add] at hhi
  simp only [Nat.add_sub_cancel]
  generalize 2 ^ (e + 1) * ((3329 * y + 2 ^ e) / 2 ^ (e + 1)) = t at *
  have : (t + 1664) / 3329 = y := by omega
  rw [this, Nat.mod_eq_of_lt hy]

/-- The signed representative of least absolute value -/
def cmod (x : Zq) : ℤ := if x.val ≤ 1664 then x.val else (x.val : ℤ) - 3329

omit [Build] in
theorem cmod_cast (x : Zq) : ((cmod x : ℤ) : Zq) = x := by
  unfold cmod
  split
  · simp
  · push_cast
    have : (3329 : Zq) = 0 := by decide
    simp [this]

omit [Build] in
theorem cmod_eq_of {x : Zq} {z : ℤ} (h : (z : Zq) = x) (h1 : -1664 ≤ z) (h2 : z ≤ 1664) :
    cmod x = z := by
  have e : ((x.val : ℤ) : Zq) = (z : Zq) := by rw [h]; simp
  rw [ZMod.intCast_eq_intCast_iff_dvd_sub] at e
  have := zval_lt x
  unfold cmod
  split <;> omega

omit [Build] in
theorem cmod_bounds (x : Zq) : -1664 ≤ cmod x ∧ cmod x ≤ 1664 := by
  have := zval_lt x
  unfold cmod
  split <;> omega

omit [Build] in
/-- The loss of compression, on natural numbers; in the second case the difference wraps around. -/
theorem roundtrip_nat {d X y W : Nat} (h1 : 1 ≤ d) (h2 : d ≤ 11) (hX : X < 3329)
    (hy : y = (2 ^ d * X + 1664) / 3329 % 2 ^ d) (hW : W = (3329 * y + 2 ^ (d - 1)) / 2 ^ d) :
    (2 ^ (d + 1) * W ≤ 2 ^ (d + 1) * X + (3328 + 2 ^ d) ∧
      2 ^ (d + 1) * X ≤ 2 ^ (d + 1) * W + (3328 + 2 ^ d)) ∨
    (W = 0 ∧ 2 ^ (d + 1) * 3329 ≤ 2 ^ (d + 1) * X + (3328 + 2 ^ d)) := by
  obtain ⟨e, rfl⟩ : ∃ e, d = e + 1 := ⟨d - 1, by omega⟩
  have he : (2 : Nat) ^ e ≤ 2 ^ 10 := Nat.pow_le_pow_right (by omega) (by omega)
  have hpos : 0 < (2 : Nat) ^ e := Nat.two_pow_pos e
  have hP : (2 : Nat) ^ (e + 1) = 2 * 2 ^ e := by rw [Nat.pow_succ]; omega
  have hP2 : (2 : Nat) ^ (e + 1 + 1) = 4 * 2 ^ e := by rw [Nat.pow_succ, Nat.pow_succ]; omega
  simp only [Nat.add_sub_cancel] at hW
  have hlo := Nat.mul_div_le (3329 * y + 2 ^ e) (2 ^ (e + 1))
  have hhi := Nat.lt_mul_div_succ (3329 * y + 2 ^ e) (Nat.two_pow_pos (e + 1))
  rw [← hW] at hlo hhi
  have hX1 : 2 ^ e * X + 2 ^ e ≤ 2 ^ e * 3329 := by
    rw [← Nat.mul_succ]; exact Nat.mul_le_mul_left _ hX
  rw [Nat.mul_add, hP] at hhi
  rw [hP] at hlo hy ⊢
  rw [hP2]
  simp only [Nat.mul_assoc] at *
  by_cases hc : (2 * (2 ^ e * X) + 1664) / 3329 < 2 * 2 ^ e
  · left
    rw [Nat.mod_eq_of_lt hc] at hy
    generalize 2 ^ e * X = t at *
    generalize 2 ^ e * W = u at *
    omega
  · right
    have : (2 * (2 ^ e * X) + 1664) / 3329 = 2 * 2 ^ e := by omega
    rw [this, Nat.mod_self] at hy
    subst hy
    constructor
    · rw [hW, Nat.mul_zero, Nat.zero_add, hP]
      exact Nat.div_eq_of_lt (by omega)
    · omega

omit [Build] in
/-- The loss of compression is at most `⌈q/2^(d+1)⌋` (FIPS 203, section 4.2.1) -/
theorem Decompress_Compress {d : Nat} (h1 : 1 ≤ d) (h2 : d ≤ 11) (x : Zq) :
    |cmod (Decompress d (Compress d x) - x)| ≤ round ((3329 : ℚ) / 2 ^ (d + 1)) := by
  have hx := zval_lt x
  have hlt := Compress_lt d x
  have hv := Decompress_val h1 (by omega) hlt
  have hr : round ((3329 : ℚ) / 2 ^ (d + 1)) = ((3328 + 2 ^ d) / 2 ^ (d + 1) : Nat) := by
    have : (2 ^ (d + 1) : ℚ) = ((2 ^ (d + 1) : Nat) : ℚ) := by push_cast; rfl
    rw [this, show (3329 : ℚ) = ((3329 : Nat) : ℚ) by norm_num, round_div _ _ (Nat.two_pow_pos _)]
    congr 1
    interval_cases d <;> norm_num
  have hrt := roundtrip_nat h1 h2 hx (Compress_eq d x) hv
  set y := Compress d x with hy
  set w := Decompress d y with hw
  have q0 : (3329 : Zq) = 0 := by decide
  have hpos : 0 < 2 ^ (d + 1) := Nat.two_pow_pos _
  have key : ∃ z : ℤ, (z : Zq) = w - x ∧ |z| ≤ ((3328 + 2 ^ d) / 2 ^ (d + 1) : Nat) := by
    rcases hrt with ⟨ha, hb⟩ | ⟨ha, hb⟩
    · refine ⟨(w.val : ℤ) - x.val, by simp, ?_⟩
      rw [abs_le]
      interval_cases d <;> omega
    · refine ⟨(w.val : ℤ) - x.val + 3329, by push_cast; simp [q0], ?_⟩
      rw [abs_le, ha]
      interval_cases d <;> omega
  obtain ⟨z, hz1, hz2⟩ := key
  have hb : ((3328 + 2 ^ d) / 2 ^ (d + 1) : Nat) ≤ 1664 := by
    interval_cases d <;> omega
  rw [abs_le] at hz2
  rw [cmod_eq_of hz1 (by omega) (by omega), abs_le, hr]
  exact hz2

end MlKem
