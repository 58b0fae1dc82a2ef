import Verif.Spec.Ring
import Verif.Proofs.Mul
import Mathlib.Algebra.Ring.GeomSum
/-! `NTT` and `ringMul` in terms of Mathlib's polynomials. -/
namespace Fips203
open Polynomial Finset

instance : Fact (1 < 3329) := ⟨by norm_num⟩

theorem toPoly_injective : Function.Injective toPoly := by
  intro f g h
  funext i
  have := congrArg (fun P => Polynomial.coeff P i.val) h
  simp only [toPoly, finsetSum_coeff, coeff_C_mul, coeff_X_pow] at this
  have e : ∀ f : Poly, (∑ j : Fin 256, f j * (if i.val = j.val then (1 : Zq) else 0)) = f i := by
    intro f
    rw [sum_eq_single i]
    · rw [if_pos rfl, mul_one]
    · intro j _ hj
      rw [if_neg (fun e => hj (Fin.ext e.symm)), mul_zero]
    · intro h; exact absurd (mem_univ i) h
  rw [e, e] at this
  exact this

theorem sum_pairs (F : Nat → Polynomial Zq) :
    ∑ i : Fin 256, F i.val = ∑ j : Fin 128, (F (2 * j.val) + F (2 * j.val + 1)) := by
  rw [Fin.sum_univ_eq_sum_range F 256, Fin.sum_univ_eq_sum_range (fun j => F (2 * j) + F (2 * j + 1)) 128]
  exact MlKem.sum_range_two_mul 128 F

/-- Component `i` of the NTT is the residue modulo `X² - γ_i`. -/
theorem NTT_mod (f : Poly) (i : Fin 128) :
    toPoly f %ₘ (X ^ 2 - C (gamma i.val))
      = C (NTT f ⟨2 * i.val, by omega⟩) + C (NTT f ⟨2 * i.val + 1, by omega⟩) * X := by
  have hmonic : (X ^ 2 - C (gamma i.val) : Polynomial Zq).Monic := monic_X_pow_sub_C _ (by norm_num)
  have hdeg : (X ^ 2 - C (gamma i.val) : Polynomial Zq).degree = 2 := degree_X_pow_sub_C (by norm_num) _
  have hr : (C (NTT f ⟨2 * i.val, by omega⟩) + C (NTT f ⟨2 * i.val + 1, by omega⟩) * X
      : Polynomial Zq).degree < (X ^ 2 - C (gamma i.val) : Polynomial Zq).degree := by
    rw [hdeg, add_comm]
    refine lt_of_le_of_lt degree_linear_le ?_
    norm_num
  rw [← (modByMonic_eq_self_iff hmonic).2 hr]
  apply modByMonic_eq_of_dvd_sub hmonic
  have e0 : NTT f ⟨2 * i.val, by omega⟩
      = ∑ j : Fin 128, f ⟨2 * j.val, by omega⟩ * gamma i.val ^ j.val := by
    unfold NTT
    apply sum_congr rfl
    intro j _
    have a : 2 * i.val / 2 = i.val := by omega
    have b : 2 * j.val + 2 * i.val % 2 = 2 * j.val := by omega
    simp only [a, b]
  have e1 : NTT f ⟨2 * i.val + 1, by omega⟩
      = ∑ j : Fin 128, f ⟨2 * j.val + 1, by omega⟩ * gamma i.val ^ j.val := by
    unfold NTT
    apply sum_congr rfl
    intro j _
    have a : (2 * i.val + 1) / 2 = i.val := by omega
    have b : 2 * j.val + (2 * i.val + 1) % 2 = 2 * j.val + 1 := by omega
    simp only [a, b]
  have ef : toPoly f = ∑ j : Fin 128, (C (f ⟨2 * j.val, by omega⟩) * (X ^ 2) ^ j.val
      + C (f ⟨2 * j.val + 1, by omega⟩) * X * (X ^ 2) ^ j.val) := by
    have := sum_pairs (fun n => C (MlKem.extend f n) * X ^ n)
    rw [toPoly]
    rw [show (∑ i : Fin 256, C (f i) * X ^ i.val)
      = ∑ i : Fin 256, C (MlKem.extend f i.val) * X ^ i.val from
        sum_congr rfl fun i _ => by rw [MlKem.extend_apply], this]
    apply sum_congr rfl
    intro j _
    rw [MlKem.extend_lt f (by omega), MlKem.extend_lt f (by omega), ← pow_mul, pow_succ]
    ring
  rw [e0, e1, ef, map_sum, map_sum, sum_mul, ← sum_add_distrib, ← sum_sub_distrib]
  apply dvd_sum
  intro j _
  have key : (X ^ 2 - C (gamma i.val) : Polynomial Zq) ∣ (X ^ 2) ^ j.val - C (gamma i.val) ^ j.val :=
    sub_dvd_pow_sub_pow _ _ _
  obtain ⟨q, hq⟩ := key
  refine ⟨(C (f ⟨2 * j.val, by omega⟩) + C (f ⟨2 * j.val + 1, by omega⟩) * X) * q, ?_⟩
  rw [C_mul, C_mul, C_pow]
  linear_combination (C (f ⟨2 * j.val, by omega⟩) + C (f ⟨2 * j.val + 1, by omega⟩) * X) * hq

section Generic
variable {N : Nat}

/-- `toPoly` for any length -/
noncomputable def toPolyN (f : Fin N → Zq) : Polynomial Zq := ∑ i : Fin N, C (f i) * X ^ i.val

/-- `ringMul` for any length -/
def ringMulN (f g : Fin N → Zq) : Fin N → Zq := fun k =>
  ∑ i : Fin N, ∑ j : Fin N,
    if i.val + j.val = k.val then f i * g j
    else if i.val + j.val = k.val + N then - (f i * g j) else 0

theorem toPolyN_degree (_hN : N ≠ 0) (f : Fin N → Zq) : (toPolyN f).degree < (N : WithBot ℕ) := by
  rw [degree_lt_iff_coeff_zero]
  intro m hm
  simp only [toPolyN, finsetSum_coeff, coeff_C_mul, coeff_X_pow]
  apply sum_eq_zero
  intro i _
  rw [if_neg (by have := i.isLt; omega), mul_zero]

/-- The contribution of the product of monomials `X^i` and `X^j` to the ring product -/
theorem monomial_mod (i j : Fin N) (a : Zq) :
    (X ^ N + 1 : Polynomial Zq) ∣ C a * X ^ (i.val + j.val)
      - ∑ k : Fin N, C (if i.val + j.val = k.val then a
          else if i.val + j.val = k.val + N then - a else 0) * X ^ k.val := by
  have hi := i.isLt
  have hj := j.isLt
  by_cases h : i.val + j.val < N
  · rw [sum_eq_single (⟨i.val + j.val, h⟩ : Fin N)]
    · rw [if_pos rfl, sub_self]; exact dvd_zero _
    · intro k _ hk
      have h1 : ¬ i.val + j.val = k.val := fun e => hk (Fin.ext e.symm)
      have h2 : ¬ i.val + j.val = k.val + N := by omega
      rw [if_neg h1, if_neg h2, C_0, zero_mul]
    · intro hk; exact absurd (mem_univ _) hk
  · obtain ⟨e, he⟩ : ∃ e, i.val + j.val = e + N := ⟨i.val + j.val - N, by omega⟩
    have hlt : e < N := by omega
    rw [sum_eq_single (⟨e, hlt⟩ : Fin N)]
    · have h1 : ¬ e + N = e := by omega
      rw [he]
      simp only [if_neg h1, if_true]
      refine ⟨C a * X ^ e, ?_⟩
      rw [C_neg, pow_add]
      ring
    · intro k _ hk
      have h1 : ¬ i.val + j.val = k.val := by have := k.isLt; omega
      have h2 : ¬ i.val + j.val = k.val + N := fun e' => hk (Fin.ext (by simp only; omega))
      rw [if_neg h1, if_neg h2, C_0, zero_mul]
    · intro hk; exact absurd (mem_univ _) hk

theorem eq_mod_of (hN : N ≠ 0) {a r : Polynomial Zq} (hr : r.degree < (N : WithBot ℕ))
    (h : (X ^ N + 1 : Polynomial Zq) ∣ a - r) : r = a %ₘ (X ^ N + 1) := by
  have hmonic : (X ^ N + 1 : Polynomial Zq).Monic := by
    have := monic_X_pow_add_C (1 : Zq) hN
    rwa [C_1] at this
  have hdeg : (X ^ N + 1 : Polynomial Zq).degree = N := by
    have := degree_X_pow_add_C (Nat.pos_of_ne_zero hN) (1 : Zq)
    rwa [C_1] at this
  rw [modByMonic_eq_of_dvd_sub hmonic h, (modByMonic_eq_self_iff hmonic).2 (by rw [hdeg]; exact hr)]

theorem ringMulN_mod (hN : N ≠ 0) (f g : Fin N → Zq) :
    toPolyN (ringMulN f g) = (toPolyN f * toPolyN g) %ₘ (X ^ N + 1) := by
  apply eq_mod_of hN (toPolyN_degree hN (ringMulN f g))
  have e1 : toPolyN f * toPolyN g
      = ∑ i : Fin N, ∑ j : Fin N, C (f i * g j) * X ^ (i.val + j.val) := by
    unfold toPolyN
    rw [sum_mul_sum]
    apply sum_congr rfl; intro i _
    apply sum_congr rfl; intro j _
    rw [C_mul, pow_add]; ring
  have e2 : toPolyN (ringMulN f g) = ∑ i : Fin N, ∑ j : Fin N, ∑ k : Fin N,
      C (if i.val + j.val = k.val then f i * g j
          else if i.val + j.val = k.val + N then - (f i * g j) else 0) * X ^ k.val := by
    unfold toPolyN ringMulN
    simp only [map_sum, sum_mul]
    rw [sum_comm]
    apply sum_congr rfl; intro i _
    rw [sum_comm]
  rw [e1, e2, ← sum_sub_distrib]
  apply dvd_sum; intro i _
  rw [← sum_sub_distrib]
  apply dvd_sum; intro j _
  exact monomial_mod i j _

end Generic

/-- `ringMul` is multiplication modulo `X^256 + 1`. -/
theorem ringMul_mod (f g : Poly) :
    toPoly (ringMul f g) = (toPoly f * toPoly g) %ₘ (X ^ 256 + 1) :=
  ringMulN_mod (N := 256) (by norm_num) f g

end Fips203
