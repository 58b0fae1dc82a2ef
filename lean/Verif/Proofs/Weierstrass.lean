import Verif.Spec.Sec2
import Mathlib.FieldTheory.Finite.Basic
import Mathlib.GroupTheory.Perm.Cycle.Type
import Mathlib.GroupTheory.SpecificGroups.Cyclic
import Mathlib.Tactic.FieldSimp
import Mathlib.Tactic.LinearCombination
/-! Curves of prime order: a computation on numbers, small enough for the kernel, that establishes the order of a curve
`y² = x³ + a x + b` over a prime field. -/
namespace Weierstrass
open Sec2 WeierstrassCurve.Affine

/-! ### Multiples of the base point, in coordinates `(x Z², y Z³, Z)` -/

/-- `x - y` modulo `p` -/
def sub (p x y : Nat) : Nat := (x + (p - y % p)) % p

theorem cast_sub {p : Nat} (hp : 0 < p) (x y : Nat) : (sub p x y : ZMod p) = x - y := by
  unfold sub
  rw [ZMod.natCast_mod]
  push_cast [Nat.cast_sub (Nat.mod_lt y hp).le]
  simp
  ring

/-- Twice a point -/
def dbl (c : Params) : Nat × Nat × Nat → Option (Nat × Nat × Nat)
  | (X, Y, Z) =>
    let p := c.p
    let Y2 := Y * Y % p
    let S := 4 * X * Y2 % p
    let Z2 := Z * Z % p
    let M := (3 * (X * X) + c.a * (Z2 * Z2 % p)) % p
    let X' := sub p (M * M) (2 * S)
    let Y' := sub p (M * sub p S X') (8 * (Y2 * Y2))
    let Z' := 2 * Y * Z % p
    if Z' = 0 then none else some (X', Y', Z')

/-- A point plus the base point -/
def addG (c : Params) : Nat × Nat × Nat → Option (Nat × Nat × Nat)
  | (X, Y, Z) =>
    let p := c.p
    let Z2 := Z * Z % p
    let H := sub p (c.gx * Z2) X
    let R := sub p (c.gy * (Z2 * Z % p)) Y
    let H2 := H * H % p
    let H3 := H2 * H % p
    let V := X * H2 % p
    let X' := sub p (R * R) (H3 + 2 * V)
    let Y' := sub p (R * sub p V X') (Y * H3)
    let Z' := Z * H % p
    if Z' = 0 then none else some (X', Y', Z')

/-- `k` times the base point, for `0 < k < 2 ^ f` -/
def mult (c : Params) : Nat → Nat → Option (Nat × Nat × Nat)
  | 0, _ => none
  | f + 1, k =>
    if k = 1 then some (c.gx, c.gy, 1)
    else match mult c f (k / 2) with
      | none => none
      | some t => match dbl c t with
        | none => none
        | some t => if k % 2 = 1 then addG c t else some t

variable {c : Params}

section
variable [Fact c.p.Prime]

/-- The numbers stand for the point -/
def Rep (c : Params) [Fact c.p.Prime] (t : Nat × Nat × Nat) (P : c.curve.Point) : Prop :=
  ∃ x y h, P = .some x y h ∧ (t.2.2 : ZMod c.p) ≠ 0 ∧ (t.1 : ZMod c.p) = x * (t.2.2 : ZMod c.p) ^ 2 ∧
    (t.2.1 : ZMod c.p) = y * (t.2.2 : ZMod c.p) ^ 3

theorem natCast_ne_zero {p v : Nat} (h : v % p ≠ 0) : (v : ZMod p) ≠ 0 := by
  rw [ne_eq, ZMod.natCast_eq_zero_iff]
  exact fun h1 => h (Nat.mod_eq_zero_of_dvd h1)

theorem negY_curve (x y : ZMod c.p) : c.curve.negY x y = -y := by
  simp [negY, Params.curve]

theorem dbl_rep {t t' : Nat × Nat × Nat} {P : c.curve.Point} (h : Rep c t P) (hd : dbl c t = some t') :
    Rep c t' (2 • P) := by
  obtain ⟨X, Y, Z⟩ := t
  obtain ⟨x, y, hxy, rfl, hZ, hX, hY⟩ := h
  have hp := (Fact.out : c.p.Prime).pos
  simp only [dbl, Option.ite_none_left_eq_some, Option.some.injEq] at hd
  obtain ⟨h0, rfl⟩ := hd
  have h0' : (2 * Y * Z : ZMod c.p) ≠ 0 := by
    have := natCast_ne_zero h0
    push_cast at this
    exact this
  dsimp only at hZ hX hY
  have h2 : (2 : ZMod c.p) ≠ 0 := fun h => h0' (by rw [h]; ring)
  have hy : y ≠ 0 := fun h => h0' (by rw [hY, h]; ring)
  have hne : y ≠ c.curve.negY x y := by
    rw [negY_curve]
    intro h
    have : 2 * y = 0 := by linear_combination h
    rcases mul_eq_zero.1 this with h | h
    · exact h2 h
    · exact hy h
  rw [two_nsmul, Point.add_self_of_Y_ne hne]
  refine ⟨_, _, _, rfl, ?_, ?_, ?_⟩
  · dsimp only
    rw [ZMod.natCast_mod]; push_cast; exact h0'
  all_goals
    dsimp only
    simp only [addX, addY, negAddY, negY_curve, slope_of_Y_ne rfl hne, sub_neg_eq_add, ← two_mul]
    simp only [cast_sub hp, ZMod.natCast_mod, Nat.cast_mul, Nat.cast_add, Nat.cast_ofNat, hX, hY]
    simp only [Params.curve]
    field_simp
    ring

/-- The base point -/
def baseOf (c : Params) [Fact c.p.Prime] (h : c.curve.Nonsingular c.gx c.gy) : c.curve.Point := .some _ _ h

theorem addG_rep {t t' : Nat × Nat × Nat} {P : c.curve.Point} {hG : c.curve.Nonsingular c.gx c.gy} (h : Rep c t P)
    (hd : addG c t = some t') : Rep c t' (P + baseOf c hG) := by
  obtain ⟨X, Y, Z⟩ := t
  obtain ⟨x, y, hxy, rfl, hZ, hX, hY⟩ := h
  have hp := (Fact.out : c.p.Prime).pos
  simp only [addG, Option.ite_none_left_eq_some, Option.some.injEq] at hd
  obtain ⟨h0, rfl⟩ := hd
  dsimp only at hZ hX hY
  have h0' : (Z * (c.gx * (Z * Z) - X) : ZMod c.p) ≠ 0 := by
    have := natCast_ne_zero h0
    push_cast [cast_sub hp] at this
    simpa only [ZMod.natCast_mod, Nat.cast_mul] using this
  have hx : x ≠ (c.gx : ZMod c.p) := fun h => h0' (by rw [hX, h]; ring)
  have hx' : x - c.gx ≠ 0 := sub_ne_zero.2 hx
  rw [baseOf, Point.add_of_X_ne hx]
  refine ⟨_, _, _, rfl, ?_, ?_, ?_⟩
  · dsimp only
    simpa only [cast_sub hp, ZMod.natCast_mod, Nat.cast_mul] using h0'
  all_goals
    dsimp only
    simp only [addX, addY, negAddY, negY_curve, slope_of_X_ne hx]
    simp only [cast_sub hp, ZMod.natCast_mod, Nat.cast_mul, Nat.cast_add, Nat.cast_ofNat, hX, hY]
    simp only [Params.curve]
    field_simp
    ring

theorem mult_rep {hG : c.curve.Nonsingular c.gx c.gy} : ∀ {f k : Nat} {t : Nat × Nat × Nat}, mult c f k = some t →
    Rep c t (k • baseOf c hG) := by
  intro f
  induction f with
  | zero => intro k t h; simp [mult] at h
  | succ f ih =>
    intro k t h
    unfold mult at h
    split at h
    case isTrue hk =>
      subst hk
      obtain rfl := Option.some.inj h
      exact ⟨_, _, hG, by rw [one_nsmul]; rfl, by simp, by simp, by simp⟩
    case isFalse hk =>
      split at h
      · simp at h
      next t1 h1 =>
        split at h
        · simp at h
        next t2 h2 =>
          have h3 := dbl_rep (ih h1) h2
          rw [← mul_nsmul'] at h3
          split at h
          case isTrue ho =>
            have h4 := addG_rep (hG := hG) h3 h
            rwa [← succ_nsmul, show 2 * (k / 2) + 1 = k by omega] at h4
          case isFalse ho =>
            obtain rfl := Option.some.inj h
            rwa [show 2 * (k / 2) = k by omega] at h3

end

/-! ### The cubic has no root: arithmetic modulo `x³ + a x + b` -/

/-- Product of two quadratics modulo the cubic -/
def mulT (c : Params) : Nat × Nat × Nat → Nat × Nat × Nat → Nat × Nat × Nat
  | (c0, c1, c2), (d0, d1, d2) =>
    let e3 := (c1 * d2 + c2 * d1) % c.p
    let e4 := c2 * d2 % c.p
    let na := c.p - c.a % c.p
    let nb := c.p - c.b % c.p
    ((c0 * d0 + nb * e3) % c.p, (c0 * d1 + c1 * d0 + na * e3 + nb * e4) % c.p,
      (c0 * d2 + c1 * d1 + c2 * d0 + na * e4) % c.p)

/-- `x ^ k` modulo the cubic, for `k < 2 ^ f` -/
def powT (c : Params) : Nat → Nat → Nat × Nat × Nat
  | 0, _ => (1, 0, 0)
  | f + 1, k =>
    let h := powT c f (k / 2)
    if k % 2 = 1 then mulT c (mulT c h h) (0, 1, 0) else mulT c h h

/-- Value of a quadratic -/
def evalT {p : Nat} (t : Nat × Nat × Nat) (α : ZMod p) : ZMod p := t.1 + t.2.1 * α + t.2.2 * α ^ 2

theorem eval_mulT (hp : 0 < c.p) {α : ZMod c.p} (hα : α ^ 3 + c.a * α + c.b = 0) (s t : Nat × Nat × Nat) :
    evalT (mulT c s t) α = evalT s α * evalT t α := by
  obtain ⟨c0, c1, c2⟩ := s
  obtain ⟨d0, d1, d2⟩ := t
  simp only [mulT, evalT, ZMod.natCast_mod, Nat.cast_add, Nat.cast_mul, Nat.cast_sub (Nat.mod_lt _ hp).le,
    CharP.cast_eq_zero]
  linear_combination (-(c1 * d2 + c2 * d1 : ZMod c.p) - c2 * d2 * α) * hα

theorem eval_powT (hp : 0 < c.p) {α : ZMod c.p} (hα : α ^ 3 + c.a * α + c.b = 0) : ∀ {f k : Nat}, k < 2 ^ f →
    evalT (powT c f k) α = α ^ k := by
  intro f
  induction f with
  | zero =>
    intro k h
    obtain rfl : k = 0 := by simpa using h
    simp [powT, evalT]
  | succ f ih =>
    intro k h
    have h2 : k / 2 < 2 ^ f := by rw [pow_succ] at h; omega
    have h3 := ih h2
    unfold powT
    simp only
    split
    case isTrue ho =>
      rw [eval_mulT hp hα, eval_mulT hp hα, h3]
      conv_rhs => rw [show k = k / 2 + k / 2 + 1 by omega, pow_succ, pow_add]
      simp [evalT]
    case isFalse ho =>
      rw [eval_mulT hp hα, h3]
      conv_rhs => rw [show k = k / 2 + k / 2 by omega, pow_add]

/-- The cubic and `x ^ p - x` have no common root, `u` being an inverse of `x ^ p - x` modulo the cubic. -/
def rootless (c : Params) (bits : Nat) (u : Nat × Nat × Nat) : Bool :=
  Nat.blt c.p (2 ^ bits) &&
    match powT c bits c.p with
    | (r0, r1, r2) => match mulT c u (r0, sub c.p r1 1, r2) with
      | (e0, e1, e2) => Nat.beq e0 1 && Nat.beq e1 0 && Nat.beq e2 0

theorem no_root [Fact c.p.Prime] {bits : Nat} {u : Nat × Nat × Nat} (h : rootless c bits u = true) (α : ZMod c.p) :
    α ^ 3 + c.a * α + c.b ≠ 0 := by
  intro hα
  have hp := (Fact.out : c.p.Prime).pos
  unfold rootless at h
  rw [Bool.and_eq_true, Nat.blt_eq] at h
  obtain ⟨h1, h⟩ := h
  have hr := eval_powT hp hα h1
  rw [ZMod.pow_card] at hr
  generalize powT c bits c.p = r at h hr
  obtain ⟨r0, r1, r2⟩ := r
  have hm := eval_mulT hp hα u (r0, sub c.p r1 1, r2)
  have hz : evalT (r0, sub c.p r1 1, r2) α = 0 := by
    simp only [evalT, cast_sub hp] at hr ⊢
    push_cast
    linear_combination hr
  rw [hz, mul_zero] at hm
  simp only at h
  generalize mulT c u (r0, sub c.p r1 1, r2) = e at h hm
  obtain ⟨e0, e1, e2⟩ := e
  simp only [Bool.and_eq_true, Nat.beq_eq] at h
  obtain ⟨⟨rfl, rfl⟩, rfl⟩ := h
  simp [evalT] at hm

/-! ### The order of the curve -/

variable [Fact c.p.Prime]

/-- What is computed about a curve -/
def check (c : Params) (bits : Nat) (u : Nat × Nat × Nat) : Bool :=
  Nat.beq (c.gy * c.gy % c.p) ((c.gx * c.gx * c.gx + c.a * c.gx + c.b) % c.p) && Nat.ble 1 (c.gy % c.p) &&
    Nat.blt 2 c.p && Nat.blt (2 * c.p + 2) (3 * c.n) && Nat.blt 2 c.n &&
    (match mult c bits (c.n - 1) with
      | none => false
      | some (X, Y, Z) => Nat.beq (c.gx * (Z * Z) % c.p) (X % c.p) && Nat.beq ((Y + c.gy * (Z * Z * Z)) % c.p) 0) &&
    rootless c bits u

theorem two_ne_zero' (h : 2 < c.p) : (2 : ZMod c.p) ≠ 0 := by
  have : ((2 : Nat) : ZMod c.p) ≠ 0 := natCast_ne_zero (by rw [Nat.mod_eq_of_lt h]; omega)
  simpa using this

theorem nonsingular_of_check {bits : Nat} {u : Nat × Nat × Nat} (h : check c bits u = true) :
    c.curve.Nonsingular c.gx c.gy := by
  simp only [check, Bool.and_eq_true, Nat.beq_eq, Nat.ble_eq, Nat.blt_eq] at h
  obtain ⟨⟨⟨⟨⟨⟨h1, h2⟩, h3⟩, -⟩, -⟩, -⟩, -⟩ := h
  rw [nonsingular_iff, equation_iff]
  simp only [Params.curve]
  constructor
  · have : ((c.gy * c.gy : Nat) : ZMod c.p) = ((c.gx * c.gx * c.gx + c.a * c.gx + c.b : Nat) : ZMod c.p) := by
      rw [ZMod.natCast_eq_natCast_iff']; exact h1
    push_cast at this
    linear_combination this
  · right
    intro h
    have hy : (c.gy : ZMod c.p) ≠ 0 := natCast_ne_zero (by omega)
    have : (2 : ZMod c.p) * c.gy = 0 := by linear_combination h
    rcases mul_eq_zero.1 this with h | h
    · exact two_ne_zero' h3 h
    · exact hy h

theorem base_smul {bits : Nat} {u : Nat × Nat × Nat} (h : check c bits u = true) :
    c.n • baseOf c (nonsingular_of_check h) = 0 := by
  have hG := nonsingular_of_check h
  have h' := h
  simp only [check, Bool.and_eq_true, Nat.beq_eq, Nat.ble_eq, Nat.blt_eq] at h'
  obtain ⟨⟨⟨-, h1⟩, h2⟩, -⟩ := h'
  split at h2
  · simp at h2
  next X Y Z hm =>
    have hr := mult_rep (hG := hG) hm
    obtain ⟨x, y, hxy, he, hZ, hX, hY⟩ := hr
    simp only [Bool.and_eq_true, Nat.beq_eq] at h2
    obtain ⟨h2, h3⟩ := h2
    dsimp only at hZ hX hY
    have h4 : ((c.gx * (Z * Z) : Nat) : ZMod c.p) = (X : ZMod c.p) := by
      rw [ZMod.natCast_eq_natCast_iff']; exact h2
    have h5 : ((Y + c.gy * (Z * Z * Z) : Nat) : ZMod c.p) = ((0 : Nat) : ZMod c.p) := by
      rw [ZMod.natCast_eq_natCast_iff', h3, Nat.zero_mod]
    push_cast at h4 h5
    have hx : x = c.gx := by
      have : (x - c.gx) * (Z : ZMod c.p) ^ 2 = 0 := by linear_combination -hX - h4
      rcases mul_eq_zero.1 this with h | h
      · linear_combination h
      · exact absurd (pow_eq_zero_iff (by norm_num) |>.1 h) hZ
    have hy : y = -c.gy := by
      have : (y + c.gy) * (Z : ZMod c.p) ^ 3 = 0 := by linear_combination h5 - hY
      rcases mul_eq_zero.1 this with h | h
      · linear_combination h
      · exact absurd (pow_eq_zero_iff (by norm_num) |>.1 h) hZ
    have h6 : (c.n - 1) • baseOf c hG = -baseOf c hG := by
      rw [he]
      subst hx hy
      simp only [baseOf, Point.neg_some, negY_curve]
    rw [show c.n = c.n - 1 + 1 by omega, succ_nsmul, h6, neg_add_cancel]

instance : Finite c.curve.Point := by
  have : NeZero c.p := ⟨(Fact.out : c.p.Prime).ne_zero⟩
  refine Finite.of_injective (fun P : c.curve.Point => match P with
    | .zero => (none : Option (ZMod c.p × ZMod c.p))
    | .some x y _ => some (x, y)) ?_
  intro P Q h
  cases P <;> cases Q <;> simp_all

theorem card_le : Nat.card c.curve.Point ≤ 2 * c.p + 2 := by
  classical
  have : NeZero c.p := ⟨(Fact.out : c.p.Prime).ne_zero⟩
  have := Fintype.ofFinite c.curve.Point
  rw [Nat.card_eq_fintype_card]
  let f : c.curve.Point → Option (ZMod c.p) := fun P => match P with
    | .zero => none
    | .some x _ _ => some x
  have h1 := Finset.card_le_mul_card_image (s := (Finset.univ : Finset c.curve.Point)) (f := f) 2 (by
    intro b hb
    obtain ⟨P, -, rfl⟩ := Finset.mem_image.1 hb
    refine le_trans (Finset.card_le_card (t := {P, -P}) ?_) Finset.card_le_two
    intro Q hQ
    simp only [Finset.mem_filter, Finset.mem_univ, true_and] at hQ
    simp only [Finset.mem_insert, Finset.mem_singleton]
    cases P with
    | zero => cases Q with
      | zero => left; rfl
      | some => simp [f] at hQ
    | some x y h => cases Q with
      | zero => simp [f] at hQ
      | some x' y' h' =>
        simp only [f, Option.some.injEq] at hQ
        exact Point.X_eq_iff.1 hQ)
  have h2 : (Finset.image f Finset.univ).card ≤ c.p + 1 := by
    refine (Finset.card_le_univ _).trans ?_
    simp [ZMod.card]
  rw [Finset.card_univ] at h1
  omega

/-- A curve that passes the check, with `n` prime, has `n` points. -/
theorem card_eq {bits : Nat} {u : Nat × Nat × Nat} (hn : c.n.Prime) (h : check c bits u = true) :
    Nat.card c.curve.Point = c.n := by
  classical
  have hG := base_smul h
  have h' := h
  simp only [check, Bool.and_eq_true, Nat.beq_eq, Nat.ble_eq, Nat.blt_eq] at h'
  obtain ⟨⟨⟨⟨⟨⟨-, -⟩, h3⟩, h4⟩, h5⟩, -⟩, h6⟩ := h'
  have := Fintype.ofFinite c.curve.Point
  have hdvd : c.n ∣ Nat.card c.curve.Point := by
    have : addOrderOf (baseOf c (nonsingular_of_check h)) = c.n := by
      have := Fact.mk hn
      exact addOrderOf_eq_prime hG (Point.some_ne_zero _)
    rw [← this]
    exact addOrderOf_dvd_natCard _
  have hle := card_le (c := c)
  obtain ⟨m, hm⟩ := hdvd
  have hpos : 0 < Nat.card c.curve.Point := Nat.card_pos
  have hm3 : m < 3 := by
    by_contra hm3
    have : c.n * 3 ≤ c.n * m := Nat.mul_le_mul_left _ (by omega)
    omega
  have hm0 : m ≠ 0 := by rintro rfl; omega
  obtain rfl | rfl : m = 1 ∨ m = 2 := by omega
  · rw [hm, mul_one]
  · exfalso
    have h2 : 2 ∣ Fintype.card c.curve.Point := by
      rw [← Nat.card_eq_fintype_card, hm]; exact ⟨c.n, by ring⟩
    have := Fact.mk Nat.prime_two
    obtain ⟨P, hP⟩ := exists_prime_addOrderOf_dvd_card 2 h2
    have hP0 : P ≠ 0 := by rintro rfl; simp at hP
    have hP2 : P + P = 0 := by rw [← two_nsmul, ← hP]; exact addOrderOf_nsmul_eq_zero P
    have hneg : P = -P := eq_neg_of_add_eq_zero_left hP2
    cases P with
    | zero => exact hP0 rfl
    | some x y hxy =>
      rw [Point.neg_some, Point.some.injEq, negY_curve] at hneg
      have hy : y = 0 := by
        have : (2 : ZMod c.p) * y = 0 := by linear_combination hneg.2
        rcases mul_eq_zero.1 this with h | h
        · exact absurd h (two_ne_zero' h3)
        · exact h
      have he := (nonsingular_iff _ _).1 hxy |>.1
      rw [equation_iff] at he
      simp only [Params.curve, hy] at he
      exact no_root h6 x (by linear_combination -he)

end Weierstrass
