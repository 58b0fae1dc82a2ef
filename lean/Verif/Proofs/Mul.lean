import Verif.Proofs.NttSpec
import Mathlib.Algebra.QuadraticAlgebra.Basic
import Mathlib.Algebra.BigOperators.Pi
/-! Polynomial addition, subtraction and NTT-domain multiplication; the NTT is a ring homomorphism. -/
namespace MlKem
open Rust MInt Fips203 FieldElement Finset

variable [Build]

theorem polyVec_add_zip (f g : Poly) :
    zipVec FieldElement.add (polyVec f) (polyVec g) = .ok (polyVec (f + g)) := by
  rw [zipVec_ok (g := fun i => ofZ ((f + g) i)), ofFn_eq_polyVec]
  intro i
  simp [polyVec_getElem]

theorem polyVec_sub_zip (f g : Poly) :
    zipVec FieldElement.sub (polyVec f) (polyVec g) = .ok (polyVec (f - g)) := by
  rw [zipVec_ok (g := fun i => ofZ ((f - g) i)), ofFn_eq_polyVec]
  intro i
  simp [polyVec_getElem]

@[simp] theorem poly_add_ok (f g : Poly) :
    Polynomial.add ⟨polyVec f⟩ ⟨polyVec g⟩ = .ok ⟨polyVec (f + g)⟩ := by
  simp [Polynomial.add, polyVec_add_zip]
@[simp] theorem poly_sub_ok (f g : Poly) :
    Polynomial.sub ⟨polyVec f⟩ ⟨polyVec g⟩ = .ok ⟨polyVec (f - g)⟩ := by
  simp [Polynomial.sub, polyVec_sub_zip]
@[simp] theorem nttPoly_add_ok (f g : Poly) :
    NttPolynomial.add ⟨polyVec f⟩ ⟨polyVec g⟩ = .ok ⟨polyVec (f + g)⟩ := by
  simp [NttPolynomial.add, polyVec_add_zip]

omit [Build] in
theorem default_coeffs : NttPolynomial.default.coeffs = vecOf (fun _ => 0) := by
  unfold NttPolynomial.default
  ext i hi
  simp only [Vector.getElem_replicate, vecOf_getElem _ hi]
  rfl

omit [Build] in
theorem default_eq : NttPolynomial.default = ⟨polyVec 0⟩ := by
  have h := default_coeffs
  have h2 : vecOf (fun _ => 0) = polyVec 0 := vecOf_eq_polyVec _
  rw [h2] at h
  rw [← h]

theorem mulStep_ok {f g : Poly} {F : Nat → Zq} {i : Nat} (hi : i < 128) :
    NttPolynomial.mulStep ⟨polyVec f⟩ ⟨polyVec g⟩ (vecOf F) i = .ok (vecOf
      (Function.update (Function.update F (2 * i) (extend (MultiplyNTTs f g) (2 * i))) (2 * i + 1)
        (extend (MultiplyNTTs f g) (2 * i + 1)))) := by
  have h0 : 2 * i < 256 := by omega
  have h1 : 2 * i + 1 < 256 := by omega
  unfold NttPolynomial.mulStep
  simp only [mulUsize_ok (show 2 * i < 65536 by omega), addUsize_ok (show 2 * i + 1 < 65536 by omega), Res.ok_bind]
  rw [idx_ok _ h0, idx_ok _ h1, idx_ok _ h0, idx_ok _ h1]
  simp only [Res.ok_bind, polyVec_getElem]
  rw [base_case_multiply_ofZ hi (gamma_table hi)]
  simp only [Res.ok_bind]
  rw [setIdx_ok _ _ h0, vecOf_set _ h0]
  simp only [Res.ok_bind]
  rw [setIdx_ok _ _ h1, vecOf_set _ h1]
  have e0 : 2 * i / 2 = i := by omega
  have e1 : (2 * i + 1) / 2 = i := by omega
  have m0 : 2 * i % 2 = 0 := by omega
  have m1 : ¬ (2 * i + 1) % 2 = 0 := by omega
  rw [extend_lt _ h0, extend_lt _ h1]
  simp only [MultiplyNTTs, e0, e1, if_pos m0, if_neg m1]

@[simp] theorem nttPoly_mul_ok (f g : Poly) :
    NttPolynomial.mul ⟨polyVec f⟩ ⟨polyVec g⟩ = .ok ⟨polyVec (MultiplyNTTs f g)⟩ := by
  unfold NttPolynomial.mul
  obtain ⟨s', h1, h2⟩ := forEach_range_inv (lo := 0) (hi := 128)
    (init := NttPolynomial.default.coeffs)
    (body := NttPolynomial.mulStep ⟨polyVec f⟩ ⟨polyVec g⟩)
    (fun i s => s = vecOf (fun n => if n < 2 * i then extend (MultiplyNTTs f g) n else 0))
    (by omega) (by
      rw [default_coeffs]
      apply vecOf_congr
      intro i _; simp)
    (by
      rintro i s _ hi rfl
      refine ⟨_, mulStep_ok hi, ?_⟩
      apply vecOf_congr
      intro n hn
      by_cases c1 : n = 2 * i + 1
      · subst c1; rw [Function.update_self, if_pos (by omega)]
      · rw [Function.update_of_ne c1]
        by_cases c2 : n = 2 * i
        · subst c2; rw [Function.update_self, if_pos (by omega)]
        · rw [Function.update_of_ne c2]
          by_cases c3 : n < 2 * i
          · rw [if_pos c3, if_pos (by omega)]
          · rw [if_neg c3, if_neg (by omega)])
  rw [h1]
  simp only [Res.ok_bind]
  rw [h2]
  have : vecOf (fun n => if n < 2 * 128 then extend (MultiplyNTTs f g) n else 0)
      = polyVec (MultiplyNTTs f g) := by
    unfold polyVec
    apply vecOf_congr
    intro n hn
    rw [if_pos (by omega)]
  rw [this]

/-! ### The ring `T_q` -/

/-- `Z_q[X]/(X² - γ_i)` for each `i` -/
abbrev Tring := (i : Fin 128) → QuadraticAlgebra Zq (gamma i.val) 0

/-- NTT-domain values as a ring element -/
def toT (f : Poly) : Tring := fun i => ⟨f ⟨2 * i.val, by omega⟩, f ⟨2 * i.val + 1, by omega⟩⟩

omit [Build] in
theorem toT_injective : Function.Injective toT := by
  intro f g h
  funext n
  have h1 := congrFun h ⟨n.val / 2, by omega⟩
  simp only [toT, QuadraticAlgebra.mk.injEq] at h1
  rcases Nat.mod_two_eq_zero_or_one n.val with hm | hm
  · have : n = ⟨2 * (n.val / 2), by omega⟩ := Fin.ext (by simp; omega)
    rw [this]; exact h1.1
  · have : n = ⟨2 * (n.val / 2) + 1, by omega⟩ := Fin.ext (by simp; omega)
    rw [this]; exact h1.2

omit [Build] in
theorem toT_add (f g : Poly) : toT (f + g) = toT f + toT g := rfl
omit [Build] in
theorem toT_sub (f g : Poly) : toT (f - g) = toT f - toT g := rfl
omit [Build] in
theorem toT_zero : toT 0 = 0 := rfl

omit [Build] in
theorem toT_sum {ι : Type} (s : Finset ι) (f : ι → Poly) :
    toT (∑ i ∈ s, f i) = ∑ i ∈ s, toT (f i) := by
  classical
  induction s using Finset.induction_on with
  | empty => rfl
  | insert a s ha ih => rw [sum_insert ha, sum_insert ha, toT_add, ih]

omit [Build] in
theorem toT_mul (f g : Poly) : toT (MultiplyNTTs f g) = toT f * toT g := by
  funext i
  have e0 : 2 * i.val / 2 = i.val := by omega
  have e1 : (2 * i.val + 1) / 2 = i.val := by omega
  have m0 : 2 * i.val % 2 = 0 := by omega
  have m1 : ¬ (2 * i.val + 1) % 2 = 0 := by omega
  simp only [toT, MultiplyNTTs, e0, e1, if_pos m0, if_neg m1, Pi.mul_apply]
  ext
  · simp; ring
  · simp

open QuadraticAlgebra in
/-- The value of a polynomial at `X` in `Z_q[X]/(X² - γ_i)` -/
def evalOmega (f : Poly) (i : Fin 128) : QuadraticAlgebra Zq (gamma i.val) 0 :=
  ∑ n : Fin 256, f n • omega ^ n.val

omit [Build] in
open QuadraticAlgebra in
theorem omega_sq (c : Zq) : (omega : QuadraticAlgebra Zq c 0) ^ 2 = QuadraticAlgebra.C c := by
  rw [pow_two]; ext <;> simp

omit [Build] in
open QuadraticAlgebra in
theorem omega_even (c : Zq) (n : Nat) :
    (omega : QuadraticAlgebra Zq c 0) ^ (2 * n) = ⟨c ^ n, 0⟩ := by
  rw [pow_mul, omega_sq, ← QuadraticAlgebra.C_pow]; rfl

omit [Build] in
open QuadraticAlgebra in
theorem omega_odd (c : Zq) (n : Nat) :
    (omega : QuadraticAlgebra Zq c 0) ^ (2 * n + 1) = ⟨0, c ^ n⟩ := by
  rw [pow_succ, omega_even]; ext <;> simp

omit [Build] in
open QuadraticAlgebra in
theorem omega_256 (i : Fin 128) :
    (omega : QuadraticAlgebra Zq (gamma i.val) 0) ^ 256 = -1 := by
  have := omega_even (gamma i.val) 128
  rw [show 2 * 128 = 256 from rfl, gamma_pow_128 i.isLt] at this
  rw [this]; ext <;> simp

omit [Build] in
theorem quad_sum_re {c : Zq} {ι : Type} (s : Finset ι) (f : ι → QuadraticAlgebra Zq c 0) :
    (∑ i ∈ s, f i).re = ∑ i ∈ s, (f i).re := by
  classical
  induction s using Finset.induction_on with
  | empty => rfl
  | insert a s ha ih => rw [sum_insert ha, sum_insert ha, QuadraticAlgebra.re_add, ih]

omit [Build] in
theorem quad_sum_im {c : Zq} {ι : Type} (s : Finset ι) (f : ι → QuadraticAlgebra Zq c 0) :
    (∑ i ∈ s, f i).im = ∑ i ∈ s, (f i).im := by
  classical
  induction s using Finset.induction_on with
  | empty => rfl
  | insert a s ha ih => rw [sum_insert ha, sum_insert ha, QuadraticAlgebra.im_add, ih]

omit [Build] in
theorem toT_NTT (f : Poly) (i : Fin 128) : toT (NTT f) i = evalOmega f i := by
  have key : evalOmega f i = ∑ n ∈ range (2 * 128),
      extend f n • (QuadraticAlgebra.omega : QuadraticAlgebra Zq (gamma i.val) 0) ^ n := by
    rw [evalOmega, Finset.sum_range]
    apply sum_congr rfl
    intro n _
    rw [extend_apply]
  rw [key, sum_range_two_mul]
  have e0 : 2 * i.val / 2 = i.val := by omega
  have e1 : (2 * i.val + 1) / 2 = i.val := by omega
  have m0 : 2 * i.val % 2 = 0 := by omega
  have m1 : (2 * i.val + 1) % 2 = 1 := by omega
  ext
  · rw [quad_sum_re, Finset.sum_range]
    simp only [toT, NTT, e0, m0]
    apply sum_congr rfl
    intro n _
    rw [omega_even, omega_odd, extend_lt f (show 2 * n.val < 256 by omega)]
    simp
  · rw [quad_sum_im, Finset.sum_range]
    simp only [toT, NTT, e1, m1]
    apply sum_congr rfl
    intro n _
    rw [omega_even, omega_odd, extend_lt f (show 2 * n.val + 1 < 256 by omega)]
    simp

omit [Build] in
theorem evalOmega_mul (f g : Poly) (i : Fin 128) :
    evalOmega (ringMul f g) i = evalOmega f i * evalOmega g i := by
  have hw := omega_256 i
  set w : QuadraticAlgebra Zq (gamma i.val) 0 := QuadraticAlgebra.omega with hwdef
  have hL : evalOmega (ringMul f g) i = ∑ k : Fin 256, ∑ a : Fin 256, ∑ b : Fin 256,
      (if a.val + b.val = k.val then f a * g b
       else if a.val + b.val = k.val + 256 then - (f a * g b) else 0) • w ^ k.val := by
    rw [evalOmega]
    apply sum_congr rfl
    intro k _
    rw [ringMul, sum_smul]
    apply sum_congr rfl
    intro a _
    rw [sum_smul]
  have hR : evalOmega f i * evalOmega g i =
      ∑ a : Fin 256, ∑ b : Fin 256, (f a * g b) • w ^ (a.val + b.val) := by
    rw [evalOmega, evalOmega, sum_mul_sum]
    apply sum_congr rfl
    intro a _
    apply sum_congr rfl
    intro b _
    rw [smul_mul_smul_comm, ← pow_add]
  rw [hL, hR, sum_comm]
  apply sum_congr rfl
  intro a _
  rw [sum_comm]
  apply sum_congr rfl
  intro b _
  by_cases hab : a.val + b.val < 256
  · rw [sum_eq_single ⟨a.val + b.val, hab⟩]
    · simp
    · intro k _ hk
      have h1 : ¬ a.val + b.val = k.val := fun h => hk (Fin.ext (by simp [h]))
      have h2 : ¬ a.val + b.val = k.val + 256 := by omega
      rw [if_neg h1, if_neg h2, zero_smul]
    · intro h; exact absurd (mem_univ _) h
  · rw [sum_eq_single ⟨a.val + b.val - 256, by omega⟩]
    · have h1 : ¬ a.val + b.val = a.val + b.val - 256 := by omega
      have h2 : a.val + b.val = a.val + b.val - 256 + 256 := by omega
      simp only [if_neg h1, if_pos h2]
      conv_rhs => rw [h2, pow_add, hw]
      simp
    · intro k _ hk
      have h1 : ¬ a.val + b.val = k.val := by omega
      have h2 : ¬ a.val + b.val = k.val + 256 := fun h => hk (Fin.ext (by simp; omega))
      rw [if_neg h1, if_neg h2, zero_smul]
    · intro h; exact absurd (mem_univ _) h

omit [Build] in
/-- The NTT turns the product of `R_q` into the component-wise product. -/
theorem NTT_ringMul (f g : Poly) : NTT (ringMul f g) = MultiplyNTTs (NTT f) (NTT g) := by
  apply toT_injective
  rw [toT_mul]
  funext i
  rw [toT_NTT, evalOmega_mul, Pi.mul_apply, toT_NTT, toT_NTT]

omit [Build] in
theorem NTTinv_mul (f g : Poly) : NTTinv (MultiplyNTTs (NTT f) (NTT g)) = ringMul f g := by
  rw [← NTT_ringMul, NTTinv_NTT]

end MlKem
