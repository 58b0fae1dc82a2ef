import Verif.Props.Repr
import Verif.Proofs.Ring
/-! C21-C24, C48: field arithmetic, tables, the NTT and products. -/
namespace MlKem
open Rust Fips203 Finset
open FieldElement (Reduced ofN ofN_val mul_val add_val sub_val barrett_reduce_ok)

variable [Build]

/-! ### C21 -/

omit [Build] in
theorem mod_val {n : Nat} : (ofN (n % 3329)).val.toNat = n % 3329 :=
  ofN_val (by have := Nat.mod_lt n (show 3329 > 0 by norm_num); omega)

/-- **C21** The operators return, for reduced operands, the reduced representative of the exact
result. -/
theorem C21_field_ops {x y : FieldElement} (hx : x.val.toNat < 3329) (hy : y.val.toNat < 3329) :
    (∃ r, x.add y = .ok r ∧ r.val.toNat = (x.val.toNat + y.val.toNat) % 3329) ∧
    (∃ r, x.sub y = .ok r ∧ (r.val.toNat : ℤ) = (x.val.toNat - y.val.toNat : ℤ) % 3329) ∧
    (∃ r, x.mul y = .ok r ∧ r.val.toNat = x.val.toNat * y.val.toNat % 3329) := by
  refine ⟨⟨_, add_val hx hy, mod_val⟩, ⟨_, sub_val hx hy, ?_⟩, ⟨_, mul_val hx hy, mod_val⟩⟩
  rw [mod_val]
  omega

/-- **C21** Barrett reduction of any accumulator value that can occur. -/
theorem C21_barrett (x : UInt32) (h : x.toNat ≤ 2 * 3328 ^ 2) :
    ∃ r, FieldElement.barrett_reduce x = .ok r ∧ r.toNat = x.toNat % 3329 := by
  refine ⟨_, barrett_reduce_ok (by omega), ?_⟩
  exact u16_toNat_ofNat (by have := Nat.mod_lt x.toNat (show 3329 > 0 by norm_num); omega)

/-- **C21** The product of two linear polynomials modulo `X² - 17^(2·BitRev7(i)+1)`, with both
two-product sums accumulated before reduction -/
theorem C21_base_case {a0 a1 b0 b1 : Zq} {x0 x1 y0 y1 : FieldElement}
    (h0 : x0.val.toNat = a0.val) (h1 : x1.val.toNat = a1.val) (h2 : y0.val.toNat = b0.val)
    (h3 : y1.val.toNat = b1.val) {i : Nat} (hi : i < 128) :
    ∃ c0 c1, FieldElement.base_case_multiply x0 x1 y0 y1 i = .ok (c0, c1) ∧
      c0.val.toNat = (a0 * b0 + a1 * b1 * 17 ^ (2 * BitRev7 i + 1)).val ∧
      c1.val.toNat = (a0 * b1 + a1 * b0).val := by
  have key : ∀ {x : FieldElement} {a : Zq}, x.val.toNat = a.val → x = FieldElement.ofZ a := by
    intro x a h
    show x = ⟨UInt16.ofNat a.val⟩
    rw [← h, UInt16.ofNat_toNat]
  rw [key h0, key h1, key h2, key h3]
  have hv : ∀ z : Zq, (FieldElement.ofZ z).val.toNat = z.val := fun z =>
    ofN_val (by have := FieldElement.zval_lt z; omega)
  exact ⟨_, _, FieldElement.base_case_multiply_ofZ hi (gamma_table hi), hv _, hv _⟩

/-- The largest operands -/
example : (FieldElement.mk 3328).val.toNat < 3329 ∧ (22151168 : UInt32).toNat ≤ 2 * 3328 ^ 2 := by decide

/-! ### C48 -/

omit [Build] in
/-- **C48** The zeta and gamma tables are those of FIPS 203, appendix A. -/
theorem C48_tables (i : Fin 128) :
    ZETA_POW_BITREV[i].val.toNat = 17 ^ BitRev7 i.val % 3329 ∧
    GAMMA[i].val.toNat = 17 ^ (2 * BitRev7 i.val + 1) % 3329 :=
  ⟨zeta_table_nat i, gamma_table_nat i⟩

/-- Number of ones among the low `n` bits -/
def popcount (n x : Nat) : Nat := ((Finset.range n).filter fun j => x.testBit j).card

omit [Build] in
/-- **C48** The table for `η = 2` -/
theorem C48_cbd_table_2 : ∀ x y : Fin 4, ((CbdSize.ONES .U2)[x.val + 4 * y.val]'(by
      show _ < 16; omega)).val.toNat = (popcount 2 x.val + 3329 - popcount 2 y.val) % 3329 := by
  decide +kernel

omit [Build] in
/-- **C48** The table for `η = 3` -/
theorem C48_cbd_table_3 : ∀ x y : Fin 8, ((CbdSize.ONES .U3)[x.val + 8 * y.val]'(by
      show _ < 64; omega)).val.toNat = (popcount 3 x.val + 3329 - popcount 3 y.val) % 3329 := by
  decide +kernel

/-- Spot values of FIPS 203 appendix A -/
example : ZETA_POW_BITREV[1].val = 1729 ∧ ZETA_POW_BITREV[127].val = 2154 ∧ GAMMA[1].val.toNat = 3312 := by
  decide +kernel

/-! ### C22, C23 -/

/-- **C22** `ntt` is the transform of FIPS 203 (4.12); in particular it never panics. -/
theorem C22_ntt {f : Polynomial} {F : Poly} (h : Holds f.coeffs F) :
    ∃ g, f.ntt = .ok g ∧ Holds g.coeffs (NTT F) := by
  obtain ⟨v⟩ := f
  obtain rfl : v = polyVec F := holds_iff.1 h
  exact ⟨_, ntt_ok F, holds_polyVec _⟩

/-- **C22** in terms of Mathlib's polynomials: entries `2i` and `2i+1` are the coefficients of
`f mod (X² - 17^(2·BitRev7(i)+1))`. -/
theorem C22_ntt_mod {f : Polynomial} {F : Poly} (h : Holds f.coeffs F) :
    ∃ g Gv, f.ntt = .ok g ∧ Holds g.coeffs Gv ∧ ∀ i : Fin 128,
      toPoly F %ₘ (.X ^ 2 - .C (17 ^ (2 * BitRev7 i.val + 1)))
        = .C (Gv ⟨2 * i.val, by omega⟩) + .C (Gv ⟨2 * i.val + 1, by omega⟩) * .X := by
  obtain ⟨g, h1, h2⟩ := C22_ntt h
  exact ⟨g, NTT F, h1, h2, fun i => NTT_mod F i⟩

/-- **C23** The transforms are inverse to each other on reduced arrays, in both orders. -/
theorem C23_ntt_inverse {f : Polynomial} {g : NttPolynomial} (hf : AllReduced f.coeffs)
    (hg : AllReduced g.coeffs) :
    (∃ g', f.ntt = .ok g' ∧ g'.ntt_inverse = .ok f) ∧ (∃ f', g.ntt_inverse = .ok f' ∧ f'.ntt = .ok g) := by
  obtain ⟨v⟩ := f
  obtain ⟨w⟩ := g
  obtain ⟨F, hF⟩ := hf.holds
  obtain ⟨Gv, hG⟩ := hg.holds
  obtain rfl : v = polyVec F := holds_iff.1 hF
  obtain rfl : w = polyVec Gv := holds_iff.1 hG
  constructor
  · refine ⟨_, ntt_ok F, ?_⟩
    rw [ntt_inverse_ok, NTTinv_NTT]
  · refine ⟨_, ntt_inverse_ok Gv, ?_⟩
    rw [ntt_ok, NTT_NTTinv]

/-- Reduced arrays that are not constant: `0, 13, 26, …` modulo 3329 -/
example : AllReduced (Vector.ofFn fun i : Fin 256 => (⟨UInt16.ofNat (13 * i.val % 3329)⟩ : FieldElement)) := by
  intro i
  have : 13 * i.val % 3329 < 3329 := Nat.mod_lt _ (by omega)
  simp only [Fin.getElem_fin, Vector.getElem_ofFn]
  rw [u16_toNat_ofNat (by omega)]
  exact this

/-! ### C24 -/

/-- **C24** Multiplying the transforms and transforming back is multiplication in
`Z_q[X]/(X^256+1)`. -/
theorem C24_product {f g : Polynomial} {F Gv : Poly} (hf : Holds f.coeffs F) (hg : Holds g.coeffs Gv) :
    ∃ fh gh ph r, f.ntt = .ok fh ∧ g.ntt = .ok gh ∧ fh.mul gh = .ok ph ∧ ph.ntt_inverse = .ok r ∧
      Holds r.coeffs (ringMul F Gv) := by
  obtain ⟨v⟩ := f
  obtain ⟨w⟩ := g
  obtain rfl : v = polyVec F := holds_iff.1 hf
  obtain rfl : w = polyVec Gv := holds_iff.1 hg
  refine ⟨_, _, _, _, ntt_ok F, ntt_ok Gv, nttPoly_mul_ok _ _, ntt_inverse_ok _, ?_⟩
  rw [NTTinv_mul]
  exact holds_polyVec _

/-- **C24** in terms of Mathlib's polynomials: the result is the remainder of the product modulo
`X^256 + 1`. -/
theorem C24_product_mod {f g : Polynomial} {F Gv : Poly} (hf : Holds f.coeffs F)
    (hg : Holds g.coeffs Gv) :
    ∃ fh gh ph r R, f.ntt = .ok fh ∧ g.ntt = .ok gh ∧ fh.mul gh = .ok ph ∧ ph.ntt_inverse = .ok r ∧
      Holds r.coeffs R ∧ toPoly R = (toPoly F * toPoly Gv) %ₘ (.X ^ 256 + 1) := by
  obtain ⟨fh, gh, ph, r, h1, h2, h3, h4, h5⟩ := C24_product hf hg
  exact ⟨fh, gh, ph, r, _, h1, h2, h3, h4, h5, ringMul_mod F Gv⟩

/-- **C24** Inner products of vectors of any length -/
theorem C24_inner_product {K : Nat} {f g : PolynomialVector K} {F Gv : Fin K → Poly}
    (hf : VecHolds f F) (hg : VecHolds g Gv) :
    ∃ fh gh ph r, f.ntt = .ok fh ∧ g.ntt = .ok gh ∧ fh.mul gh = .ok ph ∧ ph.ntt_inverse = .ok r ∧
      Holds r.coeffs (∑ i, ringMul (F i) (Gv i)) := by
  obtain rfl := vecHolds_iff.1 hf
  obtain rfl := vecHolds_iff.1 hg
  refine ⟨_, _, _, _, pv_ntt F, pv_ntt Gv, nv_mul _ _, ntt_inverse_ok _, ?_⟩
  rw [NTTinv_sum, sum_congr rfl fun i _ => NTTinv_mul (F i) (Gv i)]
  exact holds_polyVec _

/-- **C24** Matrix-vector products of any dimension: if the rows of the matrix hold the transforms
of `A`, the product transformed back is `A·g` over `Z_q[X]/(X^256+1)`. -/
theorem C24_matrix {K : Nat} {M : NttMatrix K} {g : PolynomialVector K} {A : Fin K → Fin K → Poly}
    {Gv : Fin K → Poly} (hM : ∀ i : Fin K, NttHolds M.rows[i] fun j => NTT (A i j))
    (hg : VecHolds g Gv) :
    ∃ gh ph r, g.ntt = .ok gh ∧ M.mulVec gh = .ok ph ∧ ph.ntt_inverse = .ok r ∧
      VecHolds r fun i => ∑ j, ringMul (A i j) (Gv j) := by
  obtain rfl := vecHolds_iff.1 hg
  obtain ⟨rows⟩ := M
  obtain rfl : rows = Vector.ofFn fun i => nv fun j => NTT (A i j) := by
    apply Vector.ext
    intro i hi
    rw [Vector.getElem_ofFn]
    exact nttHolds_iff.1 (hM ⟨i, hi⟩)
  refine ⟨_, _, _, pv_ntt Gv, mulVec_ok _ _, nv_ntt_inverse _, ?_⟩
  apply vecHolds_iff.2
  congr 1
  funext i
  rw [NTTinv_sum, sum_congr rfl fun j _ => NTTinv_mul (A i j) (Gv j)]

/-- The wrap-around sign: `X^255 · X = -1`. -/
example : ringMul (fun i => if i.val = 255 then 1 else 0) (fun i => if i.val = 1 then 1 else 0) 0 = -1 := by
  unfold ringMul
  rw [sum_eq_single (255 : Fin 256), sum_eq_single (1 : Fin 256)]
  · rfl
  · intro j _ hj
    have : ¬ j.val = 1 := fun e => hj (Fin.ext e)
    simp [this]
  · intro h; exact absurd (mem_univ _) h
  · intro i _ hi
    have : ¬ i.val = 255 := fun e => hi (Fin.ext e)
    simp [this]
  · intro h; exact absurd (mem_univ _) h

end MlKem
