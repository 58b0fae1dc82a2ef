import Verif.Proofs.Ntt
import Mathlib.Tactic.Ring
import Mathlib.Tactic.LinearCombination
/-! The NTT loops compute the transform of FIPS 203, and the inverse loops its inverse. -/
namespace MlKem
open Rust MInt Fips203 FieldElement Finset

theorem sum_range_two_mul {M : Type} [AddCommMonoid M] (n : Nat) (g : Nat → M) :
    ∑ i ∈ range (2 * n), g i = ∑ i ∈ range n, (g (2 * i) + g (2 * i + 1)) := by
  induction n with
  | zero => simp
  | succ n ih =>
    rw [Nat.mul_succ, sum_range_succ, sum_range_succ, ih, sum_range_succ, add_assoc]

/-- Position arithmetic inside a block of length `2L` -/
theorem block_pos {L b r : Nat} (hL : 0 < L) (hr : r < L) :
    (L * b + r) % L = r ∧ (L * b + r) / L = b := by
  constructor
  · rw [Nat.mul_add_mod, Nat.mod_eq_of_lt hr]
  · rw [Nat.mul_add_div hL, Nat.div_eq_of_lt hr, Nat.add_zero]

theorem layer_sum {n L : Nat} (f F : Nat → Zq) (hL : 0 < L) (hn : 2 * L * n = 256)
    (hn1 : 1 ≤ n) (hz : 2 * n ≤ 128)
    (h : ∀ i, i < 256 → F i =
      ∑ t ∈ range n, f (t * (2 * L) + i % (2 * L)) * root (n + i / (2 * L)) ^ t) :
    ∀ i, i < 256 → layerF n L F i =
      ∑ t ∈ range (2 * n), f (t * L + i % L) * root (2 * n + i / L) ^ t := by
  intro i hi
  obtain ⟨b, r, hr, rfl⟩ : ∃ b r, r < 2 * L ∧ i = 2 * L * b + r :=
    ⟨i / (2 * L), i % (2 * L), Nat.mod_lt _ (by omega), (Nat.div_add_mod _ _).symm⟩
  have hb : b < n := by
    by_contra hc
    have : 2 * L * n ≤ 2 * L * b := Nat.mul_le_mul_left _ (by omega)
    omega
  have hbn : 2 * L * b + 2 * L ≤ 256 := by
    have : 2 * L * (b + 1) ≤ 2 * L * n := Nat.mul_le_mul_left _ hb
    rw [Nat.mul_add] at this; omega
  have hp := block_pos (L := 2 * L) (b := b) (by omega) hr
  have hsq : zetaZ (n + b) ^ 2 = root (n + b) := zeta_sq (by omega)
  simp only [layerF, hp.1, hp.2]
  rw [sum_range_two_mul]
  by_cases hrL : r < L
  · rw [if_pos hrL]
    have e1 : 2 * L * b + r = L * (2 * b) + r := by ring
    have hq := block_pos (b := 2 * b) hL hrL
    rw [← e1] at hq
    have hp2 := block_pos (L := 2 * L) (b := b) (r := r + L) (by omega) (by omega)
    have e2 : 2 * L * b + r + L = 2 * L * b + (r + L) := by ring
    rw [h _ hi, e2, h _ (by omega), hp.1, hp.2, hp2.1, hp2.2, hq.1, hq.2,
      show 2 * n + 2 * b = 2 * (n + b) by ring, root_even (by omega) (by omega), ← hsq,
      mul_sum, ← sum_add_distrib]
    apply sum_congr rfl
    intro t _
    have i1 : 2 * t * L + r = t * (2 * L) + r := by ring
    have i2 : (2 * t + 1) * L + r = t * (2 * L) + (r + L) := by ring
    rw [i1, i2]; ring
  · rw [if_neg hrL]
    have e1 : 2 * L * b + r = L * (2 * b + 1) + (r - L) := by
      rw [Nat.mul_add, Nat.mul_one, Nat.add_assoc, Nat.add_sub_cancel' (by omega)]; ring
    have hq := block_pos (b := 2 * b + 1) (r := r - L) hL (by omega)
    rw [← e1] at hq
    have hp2 := block_pos (L := 2 * L) (b := b) (r := r - L) (by omega) (by omega)
    have e2 : 2 * L * b + r - L = 2 * L * b + (r - L) := by omega
    rw [h _ hi, e2, h _ (by omega), hp.1, hp.2, hp2.1, hp2.2, hq.1, hq.2,
      show 2 * n + (2 * b + 1) = 2 * (n + b) + 1 by ring, root_odd (by omega) (by omega), ← hsq,
      mul_sum, ← sum_sub_distrib]
    apply sum_congr rfl
    intro t _
    have i1 : 2 * t * L + (r - L) = t * (2 * L) + (r - L) := by ring
    have i2 : (2 * t + 1) * L + (r - L) = t * (2 * L) + r := by
      rw [Nat.add_mul, Nat.one_mul, Nat.add_assoc, Nat.add_sub_cancel' (by omega)]; ring
    have : (- zetaZ (n + b)) ^ (2 * t) = zetaZ (n + b) ^ (2 * t) := by
      rw [pow_mul, neg_sq, ← pow_mul]
    have this' : (- zetaZ (n + b)) ^ (2 * t + 1) = - zetaZ (n + b) ^ (2 * t + 1) := by
      rw [pow_succ, this, pow_succ]; ring
    rw [i1, i2, this, this']; ring

/-- A polynomial as a function on `Nat` (indices modulo 256) -/
def extend (f : Poly) : Nat → Zq := fun i => f (Fin.ofNat 256 i)

theorem extend_apply (f : Poly) (i : Fin 256) : extend f i.val = f i := by
  simp [extend]

theorem extend_lt (f : Poly) {i : Nat} (h : i < 256) : extend f i = f ⟨i, h⟩ := by
  simp [extend, Fin.ofNat, Nat.mod_eq_of_lt h]

/-- The array of representatives of a polynomial -/
def polyVec (f : Poly) : Vector FieldElement 256 := vecOf (extend f)

@[simp] theorem polyVec_getElem (f : Poly) {i : Nat} (h : i < 256) :
    (polyVec f)[i] = ofZ (f ⟨i, h⟩) := by simp [polyVec, extend_lt f h]

theorem polyVec_inj {f g : Poly} (h : polyVec f = polyVec g) : f = g := by
  funext i
  have := vecOf_inj h i.val i.isLt
  rwa [extend_apply, extend_apply] at this

theorem vecOf_eq_polyVec (F : Nat → Zq) : vecOf F = polyVec (fun i => F i.val) := by
  apply vecOf_congr
  intro i hi
  rw [extend_lt _ hi]

theorem ofFn_eq_polyVec (f : Poly) : Vector.ofFn (fun i => ofZ (f i)) = polyVec f := by
  ext i hi
  simp

attribute [irreducible] polyVec

theorem nttF_eq (f : Poly) : ∀ i : Fin 256, nttF (extend f) i.val = NTT f i := by
  have h0 : ∀ i, i < 256 → extend f i = ∑ t ∈ range 1,
      extend f (t * (2 * 128) + i % (2 * 128)) * root (1 + i / (2 * 128)) ^ t := by
    intro i hi; simp [Nat.mod_eq_of_lt hi]
  have h1 := layer_sum (n := 1) (L := 128) _ _ (by omega) (by omega) (by omega) (by omega) h0
  have h2 := layer_sum (n := 2) (L := 64) _ _ (by omega) (by omega) (by omega) (by omega) h1
  have h3 := layer_sum (n := 4) (L := 32) _ _ (by omega) (by omega) (by omega) (by omega) h2
  have h4 := layer_sum (n := 8) (L := 16) _ _ (by omega) (by omega) (by omega) (by omega) h3
  have h5 := layer_sum (n := 16) (L := 8) _ _ (by omega) (by omega) (by omega) (by omega) h4
  have h6 := layer_sum (n := 32) (L := 4) _ _ (by omega) (by omega) (by omega) (by omega) h5
  have h7 := layer_sum (n := 64) (L := 2) _ _ (by omega) (by omega) (by omega) (by omega) h6
  intro i
  rw [nttF, h7 i.val i.isLt, NTT, Finset.sum_range]
  apply sum_congr rfl
  intro t _
  rw [root_gamma (i := i.val / 2), extend_lt _ (by omega)]
  simp only [Nat.mul_comm]

/-- The model's forward transform is the transform of FIPS 203. -/
theorem ntt_ok [Build] (f : Poly) : Polynomial.ntt ⟨polyVec f⟩ = .ok ⟨polyVec (NTT f)⟩ := by
  unfold polyVec
  rw [ntt_loop_ok]
  have : vecOf (nttF (extend f)) = vecOf (extend (NTT f)) := by
    apply vecOf_congr
    intro i hi
    rw [nttF_eq f ⟨i, hi⟩, extend_lt _ hi]
  rw [this]

/-! ### Inverse -/

theorem layerF_congr {n L : Nat} {F G : Nat → Zq} (hL : 0 < L) (hn : 2 * L * n = 256)
    (h : ∀ i, i < 256 → F i = G i) : ∀ i, i < 256 → layerF n L F i = layerF n L G i := by
  intro i hi
  have hm := Nat.div_add_mod i (2 * L)
  have hb : i / (2 * L) < n := Nat.div_lt_of_lt_mul (by omega)
  have hbn : 2 * L * (i / (2 * L)) + 2 * L ≤ 256 := by
    have : 2 * L * (i / (2 * L) + 1) ≤ 2 * L * n := Nat.mul_le_mul_left _ hb
    rw [Nat.mul_add] at this; omega
  simp only [layerF]
  split
  · rw [h i hi, h (i + L) (by omega)]
  · rw [h i hi, h (i - L) (by omega)]

theorem invLayerF_congr {n L : Nat} {F G : Nat → Zq} (hL : 0 < L) (hn : 2 * L * n = 256)
    (h : ∀ i, i < 256 → F i = G i) : ∀ i, i < 256 → invLayerF n L F i = invLayerF n L G i := by
  intro i hi
  have hm := Nat.div_add_mod i (2 * L)
  have hb : i / (2 * L) < n := Nat.div_lt_of_lt_mul (by omega)
  have hbn : 2 * L * (i / (2 * L)) + 2 * L ≤ 256 := by
    have : 2 * L * (i / (2 * L) + 1) ≤ 2 * L * n := Nat.mul_le_mul_left _ hb
    rw [Nat.mul_add] at this; omega
  simp only [invLayerF]
  split
  · rw [h i hi, h (i + L) (by omega)]
  · rw [h i hi, h (i - L) (by omega)]

theorem layerF_smul (n L : Nat) (c : Zq) (F : Nat → Zq) :
    layerF n L (fun i => c * F i) = fun i => c * layerF n L F i := by
  funext i; simp only [layerF]; split <;> ring

theorem invLayerF_smul (n L : Nat) (c : Zq) (F : Nat → Zq) :
    invLayerF n L (fun i => c * F i) = fun i => c * invLayerF n L F i := by
  funext i; simp only [invLayerF]; split <;> ring

/-- Positions of the partner entry in a block -/
theorem partner {n L i : Nat} (hn : 2 * L * n = 256) (hL : 0 < L) (hi : i < 256) :
    (i % (2 * L) < L → (i + L) / (2 * L) = i / (2 * L) ∧ ¬ (i + L) % (2 * L) < L ∧ i + L < 256) ∧
    (¬ i % (2 * L) < L → (i - L) / (2 * L) = i / (2 * L) ∧ (i - L) % (2 * L) < L ∧ L ≤ i) := by
  obtain ⟨b, r, hr, rfl⟩ : ∃ b r, r < 2 * L ∧ i = 2 * L * b + r :=
    ⟨i / (2 * L), i % (2 * L), Nat.mod_lt _ (by omega), (Nat.div_add_mod _ _).symm⟩
  have hb : b < n := by
    by_contra hc
    have : 2 * L * n ≤ 2 * L * b := Nat.mul_le_mul_left _ (by omega)
    omega
  have hbn : 2 * L * b + 2 * L ≤ 256 := by
    have : 2 * L * (b + 1) ≤ 2 * L * n := Nat.mul_le_mul_left _ hb
    rw [Nat.mul_add] at this; omega
  have hp := block_pos (L := 2 * L) (b := b) (by omega) hr
  rw [hp.1, hp.2]
  constructor
  · intro h
    have hp2 := block_pos (L := 2 * L) (b := b) (r := r + L) (by omega) (by omega)
    rw [← Nat.add_assoc] at hp2
    rw [hp2.1, hp2.2]
    refine ⟨rfl, by omega, by omega⟩
  · intro h
    have hp2 := block_pos (L := 2 * L) (b := b) (r := r - L) (by omega) (by omega)
    rw [← Nat.add_sub_assoc (by omega)] at hp2
    rw [hp2.1, hp2.2]
    refine ⟨rfl, by omega, by omega⟩

theorem inv_layer {l L : Nat} (hl : l < 7) (hn : 2 * L * 2 ^ l = 256) (hL : 0 < L) (F : Nat → Zq) :
    ∀ i, i < 256 → invLayerF (2 ^ l) L (layerF (2 ^ l) L F) i = 2 * F i := by
  intro i hi
  have hp := partner hn hL hi
  have hb : i / (2 * L) < 2 ^ l := Nat.div_lt_of_lt_mul (by omega)
  have hz := zeta_inv hl hb
  set zi := zetaZ (2 * 2 ^ l - 1 - i / (2 * L))
  simp only [invLayerF]
  by_cases h : i % (2 * L) < L
  · obtain ⟨p1, p2, p3⟩ := hp.1 h
    rw [if_pos h]
    simp only [layerF, if_pos h, if_neg p2, p1, Nat.add_sub_cancel]
    ring
  · obtain ⟨p1, p2, p3⟩ := hp.2 h
    rw [if_neg h]
    simp only [layerF, if_neg h, if_pos p2, p1, Nat.sub_add_cancel p3]
    linear_combination (-2 * F i) * hz

theorem layer_inv {l L : Nat} (hl : l < 7) (hn : 2 * L * 2 ^ l = 256) (hL : 0 < L) (F : Nat → Zq) :
    ∀ i, i < 256 → layerF (2 ^ l) L (invLayerF (2 ^ l) L F) i = 2 * F i := by
  intro i hi
  have hp := partner hn hL hi
  have hb : i / (2 * L) < 2 ^ l := Nat.div_lt_of_lt_mul (by omega)
  have hz := zeta_inv hl hb
  set zi := zetaZ (2 * 2 ^ l - 1 - i / (2 * L)) with hzi
  simp only [layerF]
  by_cases h : i % (2 * L) < L
  · obtain ⟨p1, p2, p3⟩ := hp.1 h
    rw [if_pos h]
    simp only [invLayerF, if_pos h, if_neg p2, p1, Nat.add_sub_cancel, ← hzi]
    linear_combination (F (i + L) - F i) * hz
  · obtain ⟨p1, p2, p3⟩ := hp.2 h
    rw [if_neg h]
    simp only [invLayerF, if_neg h, if_pos p2, p1, Nat.sub_add_cancel p3, ← hzi]
    linear_combination (- (F i - F (i - L))) * hz

theorem undo {l L : Nat} (hl : l < 7) (hn : 2 * L * 2 ^ l = 256) (hL : 0 < L) {c : Zq}
    {F G : Nat → Zq} (h : ∀ i, i < 256 → G i = c * layerF (2 ^ l) L F i) :
    ∀ i, i < 256 → invLayerF (2 ^ l) L G i = (2 * c) * F i := by
  intro i hi
  rw [invLayerF_congr hL hn h i hi, invLayerF_smul]
  simp only []
  rw [inv_layer hl hn hL F i hi]; ring

theorem redo {l L : Nat} (hl : l < 7) (hn : 2 * L * 2 ^ l = 256) (hL : 0 < L) {c : Zq}
    {F G : Nat → Zq} (h : ∀ i, i < 256 → G i = c * invLayerF (2 ^ l) L F i) :
    ∀ i, i < 256 → layerF (2 ^ l) L G i = (2 * c) * F i := by
  intro i hi
  rw [layerF_congr hL hn h i hi, layerF_smul]
  simp only []
  rw [layer_inv hl hn hL F i hi]; ring

theorem invF_nttF (F : Nat → Zq) : ∀ i, i < 256 → 3303 * invF (nttF F) i = F i := by
  have h0 : ∀ i, i < 256 → nttF F i = 1 * nttF F i := by intros; ring
  have h1 := undo (l := 6) (L := 2) (by omega) (by omega) (by omega) h0
  have h2 := undo (l := 5) (L := 4) (by omega) (by omega) (by omega) h1
  have h3 := undo (l := 4) (L := 8) (by omega) (by omega) (by omega) h2
  have h4 := undo (l := 3) (L := 16) (by omega) (by omega) (by omega) h3
  have h5 := undo (l := 2) (L := 32) (by omega) (by omega) (by omega) h4
  have h6 := undo (l := 1) (L := 64) (by omega) (by omega) (by omega) h5
  have h7 := undo (l := 0) (L := 128) (by omega) (by omega) (by omega) h6
  intro i hi
  have h8 : invF (nttF F) i = 2 * (2 * (2 * (2 * (2 * (2 * (2 * 1)))))) * F i := h7 i hi
  rw [h8, ← mul_assoc]
  have : (3303 * (2 * (2 * (2 * (2 * (2 * (2 * (2 * 1))))))) : Zq) = 1 := by decide
  rw [this, one_mul]

theorem nttF_invF (F : Nat → Zq) :
    ∀ i, i < 256 → nttF (fun i => 3303 * invF F i) i = F i := by
  have h0 : ∀ i, i < 256 → 3303 * invF F i = 3303 * invF F i := by intros; rfl
  have h1 := redo (l := 0) (L := 128) (by omega) (by omega) (by omega) h0
  have h2 := redo (l := 1) (L := 64) (by omega) (by omega) (by omega) h1
  have h3 := redo (l := 2) (L := 32) (by omega) (by omega) (by omega) h2
  have h4 := redo (l := 3) (L := 16) (by omega) (by omega) (by omega) h3
  have h5 := redo (l := 4) (L := 8) (by omega) (by omega) (by omega) h4
  have h6 := redo (l := 5) (L := 4) (by omega) (by omega) (by omega) h5
  have h7 := redo (l := 6) (L := 2) (by omega) (by omega) (by omega) h6
  intro i hi
  have h8 : nttF (fun i => 3303 * invF F i) i
      = 2 * (2 * (2 * (2 * (2 * (2 * (2 * 3303)))))) * F i := h7 i hi
  rw [h8]
  have : ((2 * (2 * (2 * (2 * (2 * (2 * (2 * 3303))))))) : Zq) = 1 := by decide
  rw [this, one_mul]

/-- The polynomial computed by the model's inverse transform -/
def invPoly (g : Poly) : Poly := fun i => 3303 * invF (extend g) i.val

theorem ntt_inverse_ok' [Build] (g : Poly) :
    NttPolynomial.ntt_inverse ⟨polyVec g⟩ = .ok ⟨polyVec (invPoly g)⟩ := by
  have h := ntt_inverse_loop_ok (extend g)
  rw [vecOf_eq_polyVec (fun i => 3303 * invF (extend g) i)] at h
  unfold polyVec at h ⊢
  exact h

theorem layerF_add (n L : Nat) (F G : Nat → Zq) :
    layerF n L (fun i => F i + G i) = fun i => layerF n L F i + layerF n L G i := by
  funext i; simp only [layerF]; split <;> ring

theorem nttF_congr {F G : Nat → Zq} (h : ∀ i, i < 256 → F i = G i) :
    ∀ i, i < 256 → nttF F i = nttF G i := by
  have h1 := layerF_congr (n := 1) (L := 128) (by omega) (by omega) h
  have h2 := layerF_congr (n := 2) (L := 64) (by omega) (by omega) h1
  have h3 := layerF_congr (n := 4) (L := 32) (by omega) (by omega) h2
  have h4 := layerF_congr (n := 8) (L := 16) (by omega) (by omega) h3
  have h5 := layerF_congr (n := 16) (L := 8) (by omega) (by omega) h4
  have h6 := layerF_congr (n := 32) (L := 4) (by omega) (by omega) h5
  exact layerF_congr (n := 64) (L := 2) (by omega) (by omega) h6

theorem invF_congr {F G : Nat → Zq} (h : ∀ i, i < 256 → F i = G i) :
    ∀ i, i < 256 → invF F i = invF G i := by
  have h1 := invLayerF_congr (n := 64) (L := 2) (by omega) (by omega) h
  have h2 := invLayerF_congr (n := 32) (L := 4) (by omega) (by omega) h1
  have h3 := invLayerF_congr (n := 16) (L := 8) (by omega) (by omega) h2
  have h4 := invLayerF_congr (n := 8) (L := 16) (by omega) (by omega) h3
  have h5 := invLayerF_congr (n := 4) (L := 32) (by omega) (by omega) h4
  have h6 := invLayerF_congr (n := 2) (L := 64) (by omega) (by omega) h5
  exact invLayerF_congr (n := 1) (L := 128) (by omega) (by omega) h6

theorem NTT_invPoly (g : Poly) : NTT (invPoly g) = g := by
  funext i
  rw [← nttF_eq, nttF_congr (G := fun i => 3303 * invF (extend g) i), nttF_invF _ _ i.isLt,
    extend_apply]
  · intro j hj
    rw [extend_lt _ hj]; rfl
  · exact i.isLt

theorem invPoly_NTT (f : Poly) : invPoly (NTT f) = f := by
  funext i
  rw [invPoly, invF_congr (G := nttF (extend f)), invF_nttF _ _ i.isLt, extend_apply]
  · intro j hj
    rw [nttF_eq f ⟨j, hj⟩, extend_lt _ hj]
  · exact i.isLt

theorem NTT_bijective : Function.Bijective NTT :=
  Function.bijective_iff_has_inverse.mpr ⟨invPoly, invPoly_NTT, NTT_invPoly⟩

theorem NTTinv_eq : NTTinv = invPoly := by
  funext g
  have : NTTinv (NTT (invPoly g)) = invPoly g := Function.leftInverse_invFun NTT_bijective.1 _
  rwa [NTT_invPoly] at this

theorem NTT_NTTinv (g : Poly) : NTT (NTTinv g) = g := by rw [NTTinv_eq, NTT_invPoly]
theorem NTTinv_NTT (f : Poly) : NTTinv (NTT f) = f := by rw [NTTinv_eq, invPoly_NTT]

/-- The model's inverse transform is the inverse of the transform of FIPS 203. -/
theorem ntt_inverse_ok [Build] (g : Poly) :
    NttPolynomial.ntt_inverse ⟨polyVec g⟩ = .ok ⟨polyVec (NTTinv g)⟩ := by
  rw [NTTinv_eq, ntt_inverse_ok']

theorem NTT_add (f g : Poly) : NTT (f + g) = NTT f + NTT g := by
  funext i
  simp only [NTT, Pi.add_apply, add_mul, sum_add_distrib]

theorem NTT_neg (f : Poly) : NTT (-f) = - NTT f := by
  funext i
  simp only [NTT, Pi.neg_apply, neg_mul, sum_neg_distrib]

/-- The NTT as an additive isomorphism -/
noncomputable def nttEquiv : Poly ≃+ Poly where
  toFun := NTT
  invFun := NTTinv
  left_inv := NTTinv_NTT
  right_inv := NTT_NTTinv
  map_add' := NTT_add

theorem NTTinv_add (f g : Poly) : NTTinv (f + g) = NTTinv f + NTTinv g := nttEquiv.symm.map_add f g
theorem NTTinv_sub (f g : Poly) : NTTinv (f - g) = NTTinv f - NTTinv g := nttEquiv.symm.map_sub f g
theorem NTT_sub (f g : Poly) : NTT (f - g) = NTT f - NTT g := nttEquiv.map_sub f g
theorem NTTinv_sum {ι : Type} (s : Finset ι) (f : ι → Poly) :
    NTTinv (∑ i ∈ s, f i) = ∑ i ∈ s, NTTinv (f i) := map_sum nttEquiv.symm f s

end MlKem
