import Mathlib.AlgebraicGeometry.EllipticCurve.Affine.Point
import Mathlib.Tactic.LinearCombination
/-!
The Montgomery curve `v² = u³ + A u² + u` as a Weierstrass curve, and the formulas that double a point and add two
points of known difference by their `u`-coordinates only.
-/
namespace Montgomery
open WeierstrassCurve WeierstrassCurve.Affine

variable {F : Type} [Field F] [DecidableEq F]

/-- `v² = u³ + A u² + u` -/
def curve (A : F) : WeierstrassCurve.Affine F := ⟨0, A, 0, 1, 0⟩

variable {A : F}

omit [DecidableEq F] in
theorem equation {x y : F} (h : (curve A).Nonsingular x y) : y ^ 2 = x ^ 3 + A * x ^ 2 + x := by
  have := ((curve A).equation_iff x y).1 h.1
  simpa [curve] using this

omit [DecidableEq F] in
theorem negY (x y : F) : (curve A).negY x y = -y := by simp [curve, Affine.negY]

/-- `X/Z` is the `u`-coordinate of `P`, with `Z = 0` for the point at infinity -/
def Rep (X Z : F) : (curve A).Point → Prop
  | .zero => X ≠ 0 ∧ Z = 0
  | .some x _ _ => Z ≠ 0 ∧ X = x * Z

omit [DecidableEq F] in
theorem rep_neg {X Z : F} {P : (curve A).Point} (h : Rep X Z P) : Rep X Z (-P) := by
  cases P with
  | zero => exact h
  | some x y hn => exact h

variable (h2 : (2 : F) ≠ 0) (hA : A ^ 2 ≠ 4)
include h2 hA

/-- Doubling -/
theorem rep_double {X Z a24 : F} (ha : 4 * a24 = A - 2) {P : (curve A).Point} (h : Rep X Z P) :
    Rep ((X + Z) ^ 2 * (X - Z) ^ 2)
      (((X + Z) ^ 2 - (X - Z) ^ 2) * ((X + Z) ^ 2 + a24 * ((X + Z) ^ 2 - (X - Z) ^ 2))) (P + P) := by
  have hZ : ((X + Z) ^ 2 - (X - Z) ^ 2) * ((X + Z) ^ 2 + a24 * ((X + Z) ^ 2 - (X - Z) ^ 2))
      = 4 * X * Z * (X ^ 2 + A * X * Z + Z ^ 2) := by
    linear_combination (4 * X ^ 2 * Z ^ 2) * ha
  rw [hZ]
  cases P with
  | zero =>
    obtain ⟨hX, rfl⟩ := h
    refine ⟨?_, by ring⟩
    rw [add_zero, sub_zero]
    exact mul_ne_zero (pow_ne_zero _ hX) (pow_ne_zero _ hX)
  | some x y hn =>
    obtain ⟨hz, rfl⟩ := h
    have he := equation hn
    have hZ2 : 4 * (x * Z) * Z * ((x * Z) ^ 2 + A * (x * Z) * Z + Z ^ 2) = 4 * y ^ 2 * Z ^ 4 := by
      rw [he]
      ring
    have hX2 : (x * Z + Z) ^ 2 * (x * Z - Z) ^ 2 = (x ^ 2 - 1) ^ 2 * Z ^ 4 := by ring
    rw [hZ2, hX2]
    by_cases hy : y = 0
    · rw [Point.add_self_of_Y_eq (by rw [negY, hy, neg_zero])]
      refine ⟨mul_ne_zero (pow_ne_zero _ fun hx => ?_) (pow_ne_zero _ hz), by rw [hy]; ring⟩
      rw [hy] at he
      have h3 : x * (2 + A * x) = 0 := by linear_combination -he - x * hx
      have h4 : (4 : F) = A ^ 2 := by
        have hx0 : x ≠ 0 := by rintro rfl; exact one_ne_zero (by linear_combination -hx)
        have h5 := (mul_eq_zero.1 h3).resolve_left hx0
        linear_combination (2 - A * x) * h5 + A ^ 2 * hx
      exact hA h4.symm
    · have h2y : y ≠ (curve A).negY x y := by
        rw [negY]
        intro h
        exact (mul_ne_zero h2 hy) (by linear_combination h)
      rw [Point.add_self_of_Y_ne h2y]
      have h4 : (4 : F) ≠ 0 := by
        have : (4 : F) = 2 * 2 := by norm_num
        rw [this]
        exact mul_ne_zero h2 h2
      refine ⟨mul_ne_zero (mul_ne_zero h4 (pow_ne_zero _ hy)) (pow_ne_zero _ hz), ?_⟩
      rw [slope_of_Y_ne rfl h2y]
      have hyy : y - (curve A).negY x y = 2 * y := by rw [negY]; ring
      rw [hyy]
      have h2y0 : 2 * y ≠ 0 := mul_ne_zero h2 hy
      have e : (curve A).addX x x ((3 * x ^ 2 + 2 * (curve A).a₂ * x + (curve A).a₄ - (curve A).a₁ * y) / (2 * y))
          = ((3 * x ^ 2 + 2 * A * x + 1) / (2 * y)) ^ 2 - A - 2 * x := by
        simp only [curve, addX]
        ring
      rw [e]
      have e2 : (((3 * x ^ 2 + 2 * A * x + 1) / (2 * y)) ^ 2 - A - 2 * x) * (4 * y ^ 2 * Z ^ 4)
          = ((3 * x ^ 2 + 2 * A * x + 1) ^ 2 - (A + 2 * x) * (4 * y ^ 2)) * Z ^ 4 := by
        field_simp
        ring
      rw [e2, he]
      ring

/-- Addition of points whose difference has the `u`-coordinate `u ≠ 0` -/
theorem rep_add {X Z X' Z' u v : F} {P Q : (curve A).Point} {hD : (curve A).Nonsingular u v} (hu : u ≠ 0)
    (h : Rep X Z P) (h' : Rep X' Z' Q) (hd : P - Q = .some u v hD) :
    Rep (((X' - Z') * (X + Z) + (X' + Z') * (X - Z)) ^ 2) (u * ((X' - Z') * (X + Z) - (X' + Z') * (X - Z)) ^ 2) (P + Q) := by
  have h4 : (4 : F) ≠ 0 := by
    have : (4 : F) = 2 * 2 := by norm_num
    rw [this]
    exact mul_ne_zero h2 h2
  have e1 : ((X' - Z') * (X + Z) + (X' + Z') * (X - Z)) ^ 2 = 4 * (X * X' - Z * Z') ^ 2 := by ring
  have e2 : u * ((X' - Z') * (X + Z) - (X' + Z') * (X - Z)) ^ 2 = 4 * u * (X' * Z - X * Z') ^ 2 := by ring
  rw [e1, e2]
  cases P with
  | zero =>
    obtain ⟨hX, rfl⟩ := h
    have hQ : Q = -.some u v hD := by
      rw [← hd]
      show Q = -((0 : (curve A).Point) - Q)
      rw [zero_sub, neg_neg]
    have h' : Rep X' Z' (.some u v hD) := by
      have := rep_neg h'
      rwa [hQ, neg_neg] at this
    obtain ⟨hz, rfl⟩ := h'
    have : (Point.zero : (curve A).Point) + Q = -.some u v hD := by
      rw [hQ]
      exact zero_add _
    rw [this]
    refine rep_neg ?_
    refine ⟨?_, by ring⟩
    rw [show u * Z' * 0 - X * Z' = -(X * Z') by ring, neg_sq]
    exact mul_ne_zero (mul_ne_zero h4 hu) (pow_ne_zero _ (mul_ne_zero hX hz))
  | some x y hn =>
    cases Q with
    | zero =>
      obtain ⟨hX', rfl⟩ := h'
      obtain ⟨hz, rfl⟩ := h
      have hP : Point.some x y hn = .some u v hD := by
        rw [← hd]
        exact (sub_zero _).symm
      obtain ⟨rfl, rfl⟩ := Point.some.inj hP
      have : Point.some x y hn + (Point.zero : (curve A).Point) = .some x y hn := add_zero _
      rw [this]
      refine ⟨?_, by ring⟩
      rw [show X' * Z - x * Z * 0 = X' * Z by ring]
      exact mul_ne_zero (mul_ne_zero h4 hu) (pow_ne_zero _ (mul_ne_zero hX' hz))
    | some x' y' hn' =>
      obtain ⟨hz, rfl⟩ := h
      obtain ⟨hz', rfl⟩ := h'
      have hx : (x * Z * (x' * Z') - Z * Z') ^ 2 = (x * x' - 1) ^ 2 * (Z * Z') ^ 2 := by ring
      have hzz : (x' * Z' * Z - x * Z * Z') ^ 2 = (x - x') ^ 2 * (Z * Z') ^ 2 := by ring
      rw [hx, hzz]
      have hZZ : (Z * Z') ^ 2 ≠ 0 := pow_ne_zero _ (mul_ne_zero hz hz')
      by_cases hxx : x = x'
      · rcases (Point.X_eq_iff (h₁ := hn) (h₂ := hn')).1 hxx with hPQ | hPQ
        · rw [hPQ, sub_self] at hd
          exact absurd hd.symm (Point.some_ne_zero _)
        · have hQ : Point.some x' y' hn' = -.some x y hn := by rw [hPQ, neg_neg]
          rw [hQ, sub_neg_eq_add] at hd
          have hdbl := rep_double h2 hA (a24 := (A - 2) / 4) (by field_simp) (P := .some x y hn) (X := x) (Z := 1)
            ⟨one_ne_zero, by ring⟩
          rw [hd] at hdbl
          obtain ⟨hne, heq⟩ := hdbl
          rw [hPQ, neg_add_cancel]
          refine ⟨mul_ne_zero h4 (mul_ne_zero (pow_ne_zero _ fun h0 => ?_) hZZ), by rw [hxx]; ring⟩
          refine mul_ne_zero hu hne ?_
          rw [← heq, ← hxx] at *
          linear_combination (x ^ 2 - 1) * h0
      · have hd' : Point.some x y hn - .some x' y' hn' = Point.some _ _ (nonsingular_add hn
            ((nonsingular_neg ..).mpr hn') fun hxy => hxx hxy.1) := by
          rw [sub_eq_add_neg, Point.neg_some, Point.add_of_X_ne hxx]
        rw [hd'] at hd
        have hu' := (Point.some.inj hd).1
        rw [slope_of_X_ne hxx] at hu'
        rw [Point.add_of_X_ne hxx]
        have hs : x - x' ≠ 0 := sub_ne_zero.2 hxx
        refine ⟨mul_ne_zero (mul_ne_zero h4 hu) (mul_ne_zero (pow_ne_zero _ hs) hZZ), ?_⟩
        rw [slope_of_X_ne hxx]
        have e3 : (curve A).addX x x' ((y - y') / (x - x')) = ((y - y') / (x - x')) ^ 2 - A - x - x' := by
          simp only [curve, addX]
          ring
        have e4 : (curve A).addX x x' ((y - (curve A).negY x' y') / (x - x')) = ((y + y') / (x - x')) ^ 2 - A - x - x' := by
          rw [negY]
          simp only [curve, addX]
          ring
        rw [e3]
        rw [e4] at hu'
        have he := equation hn
        have he' := equation hn'
        have key : (((y - y') / (x - x')) ^ 2 - A - x - x') * u * (x - x') ^ 2 = (x * x' - 1) ^ 2 := by
          rw [← hu']
          have ha : (y - y') / (x - x') * (x - x') = y - y' := div_mul_cancel₀ _ hs
          have hb : (y + y') / (x - x') * (x - x') = y + y' := div_mul_cancel₀ _ hs
          generalize (y - y') / (x - x') = a at *
          generalize (y + y') / (x - x') = b at *
          have hab : a * b * (x - x') = x ^ 2 + x * x' + x' ^ 2 + A * (x + x') + 1 := by
            refine mul_right_cancel₀ hs ?_
            linear_combination (b * (x - x')) * ha + (y - y') * hb + he - he'
          have hsum : (a * (x - x')) ^ 2 + (b * (x - x')) ^ 2 = 2 * (y ^ 2 + y' ^ 2) := by
            rw [ha, hb]
            ring
          rw [he, he'] at hsum
          linear_combination (a * b * (x - x') + (x ^ 2 + x * x' + x' ^ 2 + A * (x + x') + 1)) * hab
            - (A + x + x') * hsum
        linear_combination (-4 * (Z * Z') ^ 2) * key

end Montgomery
