import Verif.Proofs.Average
import Verif.Proofs.Dist
import Mathlib.Analysis.SpecialFunctions.Trigonometric.Series
import Mathlib.Analysis.Complex.Exponential
import Mathlib.Algebra.BigOperators.Field
/-! Averages of functions of centred binomial coefficients, over uniform bytes. -/
namespace MlKem
open Rust Fips203 Finset BigOperators

noncomputable instance (n : Nat) : Fintype (Bytes n) := Fintype.ofFinite _
instance (n : Nat) : Nonempty (Bytes n) := ⟨Vector.replicate _ 0⟩

/-- `+1` for the first half of a group of `2η` bits, `-1` for the second -/
def half (eta : Nat) (j : Fin (2 * eta)) : ℤ := if j.val < eta then 1 else -1

/-- Ones in the first half minus ones in the second half -/
def diff (eta : Nat) (x : Fin (2 * eta) → Bool) : ℤ := ∑ j, half eta j * (x j).toNat

/-- The integer coefficients of `SamplePolyCBD` -/
def cbdZ (eta : Nat) (B : List UInt8) (n : Fin 256) : ℤ :=
  diff eta fun j => bit B (n.val * (2 * eta) + j.val)

theorem diff_eq (eta : Nat) (b : Nat → Bool) :
    diff eta (fun j => b j.val) = (∑ j ∈ range eta, ((b j).toNat : ℤ)) - ∑ j ∈ range eta, ((b (eta + j)).toNat : ℤ) := by
  unfold diff half
  rw [Fin.sum_univ_eq_sum_range (fun j => (if j < eta then (1 : ℤ) else -1) * ((b j).toNat : ℤ)) (2 * eta),
    Nat.two_mul, Finset.sum_range_add, sub_eq_add_neg, ← Finset.sum_neg_distrib]
  congr 1
  · refine Finset.sum_congr rfl fun j hj => ?_
    rw [if_pos (Finset.mem_range.1 hj), one_mul]
  · refine Finset.sum_congr rfl fun j hj => ?_
    rw [if_neg (by omega), neg_one_mul]

theorem cbdZ_cast (eta : Nat) (B : List UInt8) (n : Fin 256) : ((cbdZ eta B n : ℤ) : Zq) = SamplePolyCBD eta B n := by
  unfold cbdZ SamplePolyCBD
  rw [diff_eq eta fun j => bit B (n.val * (2 * eta) + j)]
  push_cast
  simp only [show n.val * (2 * eta) = 2 * n.val * eta by ring, Nat.add_assoc]

theorem diff_abs (eta : Nat) (x : Fin (2 * eta) → Bool) : |diff eta x| ≤ eta := by
  let b : Nat → Bool := fun j => if h : j < 2 * eta then x ⟨j, h⟩ else false
  have hx : x = fun j => b j.val := by funext j; simp [b]
  rw [hx, diff_eq, abs_le]
  have h : ∀ g : Nat → Bool, 0 ≤ ∑ j ∈ range eta, ((g j).toNat : ℤ) ∧
      ∑ j ∈ range eta, ((g j).toNat : ℤ) ≤ eta := by
    intro g
    constructor
    · exact sum_nonneg fun _ _ => by positivity
    · calc ∑ j ∈ range eta, ((g j).toNat : ℤ) ≤ ∑ _j ∈ range eta, (1 : ℤ) :=
          sum_le_sum fun j _ => by cases g j <;> simp
        _ = eta := by simp
  have h1 := h b
  have h2 := h fun j => b (eta + j)
  constructor <;> linarith [h1.1, h1.2, h2.1, h2.2]

/-- The bits of 192 bytes -/
def allBits (B : Bytes 192) (t : Fin 256 × Fin 6) : Bool := bit B.toList (t.1.val * 6 + t.2.val)

theorem allBits_bijective : Function.Bijective allBits :=
  (Equiv.curry (Fin 256) (Fin 6) Bool).symm.bijective.comp (bitGroups_bijective (n := 192) (e := 6) rfl)

/-- The coefficients come from disjoint groups of bits. -/
theorem expect_cbd_all {eta : Nat} (he : 0 < eta) (he3 : eta ≤ 3) (Φ : (Fin 256 → ℤ) → ℝ) :
    𝔼 B : Bytes 192, Φ (cbdZ eta B.toList) = 𝔼 z : Fin 256 → Fin (2 * eta) → Bool, Φ fun n => diff eta (z n) := by
  let pos : Fin 256 × Fin (2 * eta) → Fin 256 × Fin 6 := fun t =>
    (⟨(t.1.val * (2 * eta) + t.2.val) / 6, by
      have h1 := t.1.isLt
      have h2 := t.2.isLt
      have : t.1.val * (2 * eta) + t.2.val < 256 * 6 := by
        have : t.1.val * (2 * eta) ≤ 255 * (2 * eta) := Nat.mul_le_mul_right _ (by omega)
        omega
      omega⟩, ⟨(t.1.val * (2 * eta) + t.2.val) % 6, by omega⟩)
  have hpos : Function.Injective pos := by
    rintro ⟨a, b⟩ ⟨a', b'⟩ h
    have h1 : (a.val * (2 * eta) + b.val) / 6 = (a'.val * (2 * eta) + b'.val) / 6 :=
      congrArg (fun t : Fin 256 × Fin 6 => t.1.val) h
    have h2 : (a.val * (2 * eta) + b.val) % 6 = (a'.val * (2 * eta) + b'.val) % 6 :=
      congrArg (fun t : Fin 256 × Fin 6 => t.2.val) h
    have h3 : b.val + 2 * eta * a.val = b'.val + 2 * eta * a'.val := by
      have h4 := Nat.div_add_mod (a.val * (2 * eta) + b.val) 6
      have h5 := Nat.div_add_mod (a'.val * (2 * eta) + b'.val) 6
      rw [h1, h2, h5] at h4
      rw [Nat.mul_comm (2 * eta), Nat.mul_comm (2 * eta)]
      omega
    have hb : b.val = b'.val := by
      have := congrArg (· % (2 * eta)) h3
      simpa [Nat.add_mul_mod_self_left, Nat.mod_eq_of_lt b.isLt, Nat.mod_eq_of_lt b'.isLt] using this
    have ha : a.val = a'.val := by
      rw [hb] at h3
      exact Nat.eq_of_mul_eq_mul_left (by omega : 0 < 2 * eta) (Nat.add_left_cancel h3)
    exact Prod.ext (Fin.ext ha) (Fin.ext hb)
  rw [Fintype.expect_bijective allBits allBits_bijective _
    (fun b => Φ fun n => diff eta fun j => (b ∘ pos) (n, j)) fun B => ?_]
  · rw [expect_comp_injective hpos (fun y : Fin 256 × Fin (2 * eta) → Bool => Φ fun n => diff eta fun j => y (n, j))]
    exact Fintype.expect_equiv (Equiv.curry (Fin 256) (Fin (2 * eta)) Bool) _ (fun y => Φ fun n => diff eta (y n))
      fun y => rfl
  · refine congrArg Φ (funext fun n => ?_)
    unfold cbdZ
    congr 1
    funext j
    show _ = allBits B (pos (n, j))
    unfold allBits
    simp only [pos]
    rw [Nat.div_add_mod']

/-- The coefficients are independent. -/
theorem expect_cbd {eta : Nat} (he : 0 < eta) (he3 : eta ≤ 3) (g : Fin 256 → ℤ → ℝ) :
    𝔼 B : Bytes 192, ∏ n, g n (cbdZ eta B.toList n) = ∏ n, 𝔼 x : Fin (2 * eta) → Bool, g n (diff eta x) := by
  rw [expect_cbd_all he he3 fun c => ∏ n, g n (c n)]
  exact expect_pi_prod fun n x => g n (diff eta x)

theorem expect_bool (f : Bool → ℝ) : 𝔼 b, f b = (f true + f false) / 2 := by
  rw [Fintype.expect_eq_sum_div_card]
  simp

theorem half_sum {eta : Nat} : ∑ j, half eta j = 0 := by
  have h := diff_eq eta fun _ => true
  unfold diff at h
  simpa using h

end MlKem
