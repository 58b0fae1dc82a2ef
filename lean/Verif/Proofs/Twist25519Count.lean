import Verif.Proofs.Twist25519
import Mathlib.GroupTheory.Perm.Cycle.Type
import Mathlib.GroupTheory.SpecificGroups.Cyclic
import Mathlib.Data.Set.Card
/-!
The numbers of points of curve25519 and of its twist, and which points have small order.
-/
namespace Rfc7748
open Montgomery WeierstrassCurve WeierstrassCurve.Affine

noncomputable section

/-! ### Non-squares -/

theorem not_square {a : Nat} (h : Prime25519.powMod p 255 a (p / 2) ≠ 1) {y : Fp} (hy : y ^ 2 = (a : Fp))
    (h0 : a % p ≠ 0) : False := by
  have hp : p / 2 < 2 ^ 255 := lt_of_le_of_lt (Nat.div_le_self _ _) p_lt
  rw [Prime25519.powMod_eq _ _ _ _ hp] at h
  have hy0 : y ≠ 0 := by
    intro h1
    rw [h1, zero_pow (by decide)] at hy
    exact h0 (Nat.mod_eq_zero_of_dvd ((ZMod.natCast_eq_zero_iff _ _).1 hy.symm))
  have h1 := ZMod.pow_card_sub_one_eq_one hy0
  rw [show p - 1 = 2 * (p / 2) by decide +kernel, pow_mul, hy] at h1
  have h2 : ((a ^ (p / 2) : Nat) : Fp) = ((1 : Nat) : Fp) := by rw [Nat.cast_pow, h1, Nat.cast_one]
  have h3 := (ZMod.natCast_eq_natCast_iff' _ _ p).1 h2
  rw [h3] at h
  exact h (by decide +kernel)

/-- `u² + A u + 1` has no root in the field. -/
theorem quad_ne (u : Fp) : u ^ 2 + 486662 * u + 1 ≠ 0 := by
  intro h
  refine not_square (a := 486662 ^ 2 - 4) (y := 2 * u + 486662) (by decide +kernel) ?_ (by decide +kernel)
  have : ((486662 ^ 2 - 4 : Nat) : Fp) = 486662 ^ 2 - 4 := by norm_num
  rw [this]
  linear_combination 4 * h

theorem point_ext {x y x' y' : K} {h : EK.Nonsingular x y} {h' : EK.Nonsingular x' y'} (hx : x = x') (hy : y = y') :
    (.some x y h : EK.Point) = .some x' y' h' := by
  subst hx hy
  rfl

theorem minus_one_eq : ((p - 1 : Nat) : Fp) = -1 := by
  have h : 1 ≤ p := (Nat.Prime.one_lt Prime25519.prime).le
  rw [Nat.cast_sub h, ZMod.natCast_self, Nat.cast_one, zero_sub]

/-! ### The points with `u` in the field -/

/-- The points whose `u`-coordinate is in the field -/
def IsField (P : EK.Point) : Prop := ∃ a, uK P = emb a

theorem isField_of_curve {P : EK.Point} (h : P ∈ curveGroup) : IsField P := by
  rw [mem_curve] at h
  cases P with
  | zero => exact ⟨0, (map_zero emb).symm⟩
  | some x y hn =>
    rw [frob_some, Point.some.injEq] at h
    obtain ⟨a, ha⟩ := frobK_fixed h.1
    exact ⟨a, ha.symm⟩

theorem isField_of_twist {P : EK.Point} (h : P ∈ twistGroup) : IsField P := by
  rw [mem_twist] at h
  cases P with
  | zero => exact ⟨0, (map_zero emb).symm⟩
  | some x y hn =>
    rw [frob_some, Point.neg_some, Point.some.injEq] at h
    obtain ⟨a, ha⟩ := frobK_fixed h.1
    exact ⟨a, ha.symm⟩

theorem mem_of_isField {P : EK.Point} (h : IsField P) : P ∈ curveGroup ∨ P ∈ twistGroup := by
  obtain ⟨a, ha⟩ := h
  cases P with
  | zero => exact Or.inl (zero_mem _)
  | some x y hn =>
    have hx : x = emb a := ha
    subst hx
    rw [mem_curve, mem_twist, frob_some, Point.neg_some, Point.some.injEq, Point.some.injEq, neg_eqK, frobK_emb]
    have h1 : frobK y ^ 2 = y ^ 2 := by
      rw [equation (frob_nonsingular hn), equation hn, frobK_emb]
    rcases sq_eq_sq_iff_eq_or_eq_neg.1 h1 with h2 | h2
    · exact Or.inl ⟨rfl, h2⟩
    · exact Or.inr ⟨rfl, h2⟩

theorem nonsingular_zero : EK.Nonsingular 0 0 := nonsingularK (by ring)

/-- The point (0, 0) -/
def origin : EK.Point := .some 0 0 nonsingular_zero

theorem neg_origin : -origin = origin := by
  unfold origin
  rw [Point.neg_some]
  exact point_ext rfl (by rw [neg_eqK, neg_zero])

theorem frob_origin : frob origin = origin := by
  unfold origin
  rw [frob_some]
  exact point_ext (map_zero _) (map_zero _)

theorem uK_zero_iff {P : EK.Point} : uK P = 0 ↔ P = 0 ∨ P = origin := by
  constructor
  · intro h
    cases P with
    | zero => exact Or.inl rfl
    | some x y hn =>
      right
      have hx : x = 0 := h
      subst hx
      have hy : y = 0 := by
        have : y ^ 2 = 0 := by rw [equation hn]; ring
        exact pow_eq_zero_iff (by decide) |>.1 this
      subst hy
      rfl
  · rintro (h | h) <;> rw [h] <;> rfl

/-- A point with `v = 0` and `u` in the field is (0, 0). -/
theorem v_ne {a : Fp} {y : K} (hn : EK.Nonsingular (emb a) y) (ha : a ≠ 0) : y ≠ 0 := by
  intro hy
  have h := equation hn
  rw [hy] at h
  have h1 : emb (a * (a ^ 2 + 486662 * a + 1)) = emb 0 := by
    simp only [map_mul, map_add, map_pow, map_ofNat, map_one, map_zero]
    linear_combination -h
  rcases mul_eq_zero.1 (emb_inj h1) with h2 | h2
  · exact ha h2
  · exact quad_ne a h2

theorem curve_inter_twist {P : EK.Point} (h : P ∈ curveGroup) (h' : P ∈ twistGroup) : P = 0 ∨ P = origin := by
  obtain ⟨a, ha⟩ := isField_of_curve h
  rw [mem_curve] at h
  rw [mem_twist, h] at h'
  rw [← uK_zero_iff]
  cases P with
  | zero => rfl
  | some x y hn =>
    have hx : x = emb a := ha
    subst hx
    rw [Point.neg_some, Point.some.injEq, neg_eqK] at h'
    by_contra hne
    have ha0 : a ≠ 0 := fun h0 => hne (by rw [ha, h0, map_zero])
    refine v_ne hn ha0 ?_
    have : (2 : K) * y = 0 := by linear_combination h'.2
    exact (mul_eq_zero.1 this).resolve_left two_neK

/-- Two points with the same `u`-coordinate other than 0 are equal or opposite. -/
theorem eq_or_neg {P Q : EK.Point} (h : uK P = uK Q) (h0 : uK P ≠ 0) : P = Q ∨ P = -Q := by
  cases P with
  | zero => exact absurd rfl h0
  | some x y hn =>
    cases Q with
    | zero => exact absurd h h0
    | some x' y' hn' =>
      have hx : x = x' := h
      subst hx
      rw [Point.neg_some, Point.some.injEq, Point.some.injEq, neg_eqK]
      have h1 : y ^ 2 = y' ^ 2 := by rw [equation hn, equation hn']
      rcases sq_eq_sq_iff_eq_or_eq_neg.1 h1 with h2 | h2
      · exact Or.inl ⟨rfl, h2⟩
      · exact Or.inr ⟨rfl, h2⟩

theorem uK_neg (P : EK.Point) : uK (-P) = uK P := by
  cases P with
  | zero => rfl
  | some x y hn => rfl

/-! ### Counting -/

/-- A point over `a` -/
def over (a : Fp) : EK.Point := .some (emb a) (exists_pointK a).choose (exists_pointK a).choose_spec.choose

theorem uK_over (a : Fp) : uK (over a) = emb a := rfl

/-- The two points over `a`, the point at infinity counted over 0 -/
def enum (t : Fp × Bool) : EK.Point :=
  if t.1 = 0 then (if t.2 then 0 else origin) else (if t.2 then over t.1 else -over t.1)

theorem uK_enum (t : Fp × Bool) : uK (enum t) = emb t.1 := by
  unfold enum
  split
  · next h =>
    rw [h, map_zero]
    split <;> rfl
  · split
    · rfl
    · rw [uK_neg]; rfl

theorem over_ne_neg {a : Fp} (ha : a ≠ 0) : over a ≠ -over a := by
  intro h
  unfold over at h
  rw [Point.neg_some, Point.some.injEq, neg_eqK] at h
  refine v_ne (exists_pointK a).choose_spec.choose ha ?_
  have : (2 : K) * (exists_pointK a).choose = 0 := by linear_combination h.2
  exact (mul_eq_zero.1 this).resolve_left two_neK

theorem enum_injective : Function.Injective enum := by
  rintro ⟨a, b⟩ ⟨a', b'⟩ h
  have ha : a = a' := by
    have := congrArg uK h
    rw [uK_enum, uK_enum] at this
    exact emb_inj this
  subst ha
  have ho : (0 : EK.Point) ≠ origin := by
    intro h
    cases h
  by_cases h0 : a = 0
  · subst h0
    cases b <;> cases b' <;> simp only [enum, if_true, Bool.false_eq_true, if_false] at h
    · rfl
    · exact absurd h.symm ho
    · exact absurd h ho
    · rfl
  · cases b <;> cases b' <;> simp only [enum, h0, if_true, Bool.false_eq_true, if_false] at h
    · rfl
    · exact absurd h.symm (over_ne_neg h0)
    · exact absurd h (over_ne_neg h0)
    · rfl

theorem range_enum : Set.range enum = {P | IsField P} := by
  ext P
  constructor
  · rintro ⟨t, rfl⟩
    exact ⟨t.1, uK_enum t⟩
  · rintro ⟨a, ha⟩
    by_cases h0 : a = 0
    · subst h0
      rw [map_zero, uK_zero_iff] at ha
      rcases ha with rfl | rfl
      · exact ⟨(0, true), by simp [enum]⟩
      · exact ⟨(0, false), by simp [enum]⟩
    · have hne : uK P ≠ 0 := by
        rw [ha]
        exact fun h => h0 (emb_inj (h.trans (map_zero _).symm))
      rcases eq_or_neg (ha.trans (uK_over a).symm) hne with h | h
      · exact ⟨(a, true), by simp [enum, h0, h]⟩
      · exact ⟨(a, false), by simp [enum, h0, h]⟩

theorem union_eq : (curveGroup : Set EK.Point) ∪ twistGroup = Set.range enum := by
  rw [range_enum]
  ext P
  constructor
  · rintro (h | h)
    · exact isField_of_curve h
    · exact isField_of_twist h
  · exact mem_of_isField

theorem inter_eq : (curveGroup : Set EK.Point) ∩ twistGroup = {0, origin} := by
  ext P
  constructor
  · rintro ⟨h, h'⟩
    exact curve_inter_twist h h'
  · rintro (h | h)
    · subst h
      exact ⟨zero_mem _, zero_mem _⟩
    · have h : P = origin := h
      subst h
      exact ⟨mem_curve.2 frob_origin, mem_twist.2 (by rw [frob_origin, neg_origin])⟩

theorem finite_range : (Set.range enum).Finite := Set.finite_range enum

theorem curve_finite : (curveGroup : Set EK.Point).Finite := finite_range.subset (union_eq ▸ Set.subset_union_left)

theorem twist_finite : (twistGroup : Set EK.Point).Finite := finite_range.subset (union_eq ▸ Set.subset_union_right)

instance finite_curve : Finite curveGroup := curve_finite

instance finite_twist : Finite twistGroup := twist_finite

/-- The curve and its twist together have `2 p + 2` points. -/
theorem card_add : Nat.card curveGroup + Nat.card twistGroup = 2 * p + 2 := by
  have h := Set.ncard_union_add_ncard_inter (curveGroup : Set EK.Point) (twistGroup : Set EK.Point)
    curve_finite twist_finite
  have ho : (0 : EK.Point) ≠ origin := by
    intro h
    cases h
  rw [union_eq, inter_eq, Set.ncard_pair ho, ← Set.image_univ, Set.ncard_image_of_injective _ enum_injective,
    Set.ncard_univ, Nat.card_prod, Nat.card_zmod, show Nat.card Bool = 2 from Nat.card_eq_fintype_card] at h
  have h1 : Nat.card curveGroup = (curveGroup : Set EK.Point).ncard := rfl
  have h2 : Nat.card twistGroup = (twistGroup : Set EK.Point).ncard := rfl
  rw [h1, h2, ← h, mul_comm]

/-! ### The base point and a point of order 8 -/

theorem ladderN_uK {k : Nat} (hk : k < 2 ^ 255) {n r : Nat} (h : ladderN k n = r) {v : K}
    (hP : EK.Nonsingular (emb (n : Fp)) v) (hn : (n : Fp) ≠ 0) : uK (k • (.some _ v hP : EK.Point)) = emb (r : Fp) := by
  rw [← ladderK_eq hk hP hn, ← ladderN_eq, h]

theorem baseK_nonsingular : EK.Nonsingular (emb ((9 : Nat) : Fp)) (emb (baseV : Fp)) := by
  refine nonsingularK ?_
  have := congrArg emb base_equation
  simp only [map_pow, map_add, map_mul, map_ofNat, A25519] at this
  rw [Nat.cast_ofNat, map_ofNat, map_natCast]
  rwa [map_natCast] at this

/-- The base point -/
def baseK : EK.Point := .some _ _ baseK_nonsingular

theorem nine_ne : ((9 : Nat) : Fp) ≠ 0 := by
  intro h
  rw [ZMod.natCast_eq_zero_iff] at h
  revert h
  decide +kernel

theorem baseK_mem : baseK ∈ curveGroup := by
  rw [mem_curve]
  unfold baseK
  rw [frob_some]
  exact point_ext (frobK_emb _) (frobK_emb _)

theorem order_nsmul : order • baseK = 0 := by
  have h1 : uK ((order - 1) • baseK) = emb ((9 : Nat) : Fp) :=
    ladderN_uK (by decide +kernel) (by decide +kernel) baseK_nonsingular nine_ne
  have h2 : uK ((order - 2) • baseK) = emb ((ladderN (order - 2) 9 : Nat) : Fp) :=
    ladderN_uK (by decide +kernel) rfl baseK_nonsingular nine_ne
  have hne : uK ((order - 1) • baseK) ≠ 0 := by
    rw [h1]
    exact fun h => nine_ne (emb_inj (h.trans (map_zero _).symm))
  rcases eq_or_neg (Q := baseK) (h1.trans rfl) hne with h | h
  · exfalso
    have h3 : (order - 2) • baseK = 0 := by
      have : order - 1 = order - 2 + 1 := by decide +kernel
      rw [this, succ_nsmul] at h
      exact add_eq_right.1 h
    rw [h3] at h2
    have h4 : ((ladderN (order - 2) 9 : Nat) : Fp) = 0 := emb_inj (h2.symm.trans (map_zero _).symm)
    rw [ZMod.natCast_eq_zero_iff] at h4
    revert h4
    decide +kernel
  · have : order = order - 1 + 1 := by decide +kernel
    rw [this, succ_nsmul, h, neg_add_cancel]

theorem addOrderOf_base : addOrderOf baseK = order := by
  have : Fact order.Prime := ⟨order_prime⟩
  refine addOrderOf_eq_prime order_nsmul ?_
  intro h
  cases h

/-- The two coordinates of order 8 -/
def alpha1 : Nat := 325606250916557431795983626356110631294008115727848805560023387167927233504
@[inherit_doc alpha1]
def alpha2 : Nat := 39382357235489614581723060781553021112529911719440698176882885853963445705823
/-- The `v`-coordinate of a point with `u = alpha1` -/
def beta1 : Nat := 32026303591712962751241307547882981359278212717910236697706316503764922500307

theorem eight_nonsingular : EK.Nonsingular (emb (alpha1 : Fp)) (emb (beta1 : Fp)) := by
  refine nonsingularK ?_
  have h : (beta1 ^ 2) % p = (alpha1 ^ 3 + 486662 * alpha1 ^ 2 + alpha1) % p := by decide +kernel
  have := congrArg emb ((ZMod.natCast_eq_natCast_iff' _ _ p).2 h)
  push_cast at this
  simp only [map_ofNat] at this
  exact this

/-- A point of order 8 -/
def eightK : EK.Point := .some _ _ eight_nonsingular

theorem alpha1_ne : (alpha1 : Fp) ≠ 0 := by
  intro h
  rw [ZMod.natCast_eq_zero_iff] at h
  revert h
  decide +kernel

theorem eightK_mem : eightK ∈ curveGroup := by
  rw [mem_curve]
  unfold eightK
  rw [frob_some]
  exact point_ext (frobK_emb _) (frobK_emb _)

theorem one_not_two {P : EK.Point} {a : Fp} (ha : a ≠ 0) (h : uK P = emb a) : 2 • P ≠ 0 := by
  intro h2
  cases P with
  | zero => exact ha (emb_inj (h.symm.trans (map_zero _).symm))
  | some x y hn =>
    have hx : x = emb a := h
    subst hx
    rw [two_nsmul, add_eq_zero_iff_eq_neg, Point.neg_some, Point.some.injEq, neg_eqK] at h2
    refine v_ne hn ha ?_
    have : (2 : K) * y = 0 := by linear_combination h2.2
    exact (mul_eq_zero.1 this).resolve_left two_neK

theorem addOrderOf_eight : addOrderOf eightK = 8 := by
  have h1 : uK (2 • eightK) = emb ((1 : Nat) : Fp) :=
    ladderN_uK (by decide +kernel) (by decide +kernel) eight_nonsingular alpha1_ne
  have h2 : uK (4 • eightK) = emb ((0 : Nat) : Fp) :=
    ladderN_uK (by decide +kernel) (by decide +kernel) eight_nonsingular alpha1_ne
  have : Fact (Nat.Prime 2) := ⟨Nat.prime_two⟩
  refine addOrderOf_eq_prime_pow (p := 2) (n := 2) ?_ ?_
  · rw [show 2 ^ 2 = 2 * 2 from rfl, mul_nsmul]
    exact one_not_two (a := 1) one_ne_zero (h1.trans (by rw [Nat.cast_one]))
  · rw [show 2 ^ (2 + 1) = 4 * 2 from rfl, mul_nsmul]
    exact two_nsmul_of_uK (h2.trans (by rw [Nat.cast_zero, map_zero]))

/-- The curve has `8 ℓ` points. -/
theorem card_curve : Nat.card curveGroup = 8 * order := by
  have h1 : order ∣ Nat.card curveGroup := by
    have := addOrderOf_dvd_natCard (⟨baseK, baseK_mem⟩ : curveGroup)
    rwa [AddSubgroup.addOrderOf_mk, addOrderOf_base] at this
  have h2 : 8 ∣ Nat.card curveGroup := by
    have := addOrderOf_dvd_natCard (⟨eightK, eightK_mem⟩ : curveGroup)
    rwa [AddSubgroup.addOrderOf_mk, addOrderOf_eight] at this
  have h3 : 8 * order ∣ Nat.card curveGroup :=
    Nat.Coprime.mul_dvd_of_dvd_of_dvd (by decide +kernel) h2 h1
  have h4 : Nat.card curveGroup ≤ 2 * p + 2 := card_add ▸ Nat.le_add_right _ _
  have h5 : 0 < Nat.card curveGroup := Nat.card_pos
  obtain ⟨c, hc⟩ := h3
  have : 2 * p + 2 < 8 * order * 2 := by decide +kernel
  rw [hc] at h4 h5 ⊢
  have : c < 2 := by
    by_contra h
    have := Nat.mul_le_mul_left (8 * order) (not_lt.1 h)
    omega
  have : c ≠ 0 := by
    rintro rfl
    simp at h5
  have : c = 1 := by omega
  rw [this, mul_one]

/-- The twist has `4 ℓ'` points. -/
theorem card_twist : Nat.card twistGroup = 4 * twistOrder := by
  have h := card_add
  rw [card_curve] at h
  have : 8 * order + 4 * twistOrder = 2 * p + 2 := by decide +kernel
  omega

theorem curve_nsmul {P : EK.Point} (h : P ∈ curveGroup) : (8 * order) • P = 0 := by
  rw [← addOrderOf_dvd_iff_nsmul_eq_zero, ← card_curve, ← AddSubgroup.addOrderOf_mk P h]
  exact addOrderOf_dvd_natCard _

theorem twist_nsmul {P : EK.Point} (h : P ∈ twistGroup) : (4 * twistOrder) • P = 0 := by
  rw [← addOrderOf_dvd_iff_nsmul_eq_zero, ← card_twist, ← AddSubgroup.addOrderOf_mk P h]
  exact addOrderOf_dvd_natCard _

/-! ### Points of small order -/

theorem nsmul_gcd {G : Type} [AddCommGroup G] {P : G} {m n : Nat} (h : m • P = 0) (h' : n • P = 0) :
    Nat.gcd m n • P = 0 := by
  rw [← addOrderOf_dvd_iff_nsmul_eq_zero] at *
  exact Nat.dvd_gcd h h'

/-- A multiple of 8 by less than the two primes, doubled or not, kills only points of order dividing 8. -/
theorem eight_of_nsmul {P : EK.Point} (hP : IsField P) {m : Nat} (h0 : 0 < m) (hm : m < order)
    (h : (2 * (8 * m)) • P = 0) : 8 • P = 0 := by
  have hm' : m < twistOrder := hm.trans (by decide +kernel)
  rcases mem_of_isField hP with hP | hP
  · have hc : Nat.gcd (2 * (8 * m)) (8 * order) = 8 := by
      rw [show 2 * (8 * m) = 8 * (2 * m) by ring, Nat.gcd_mul_left]
      have : Nat.Coprime (2 * m) order := by
        refine Nat.Coprime.mul_left (by decide +kernel) ?_
        exact (Nat.coprime_comm.1 ((Nat.Prime.coprime_iff_not_dvd order_prime).2
          fun hd => absurd (Nat.le_of_dvd h0 hd) (not_le.2 hm)))
      rw [this, mul_one]
    have := nsmul_gcd h (curve_nsmul hP)
    rwa [hc] at this
  · have hc : Nat.gcd (2 * (8 * m)) (4 * twistOrder) = 4 := by
      rw [show 2 * (8 * m) = 4 * (4 * m) by ring, Nat.gcd_mul_left]
      have : Nat.Coprime (4 * m) twistOrder := by
        refine Nat.Coprime.mul_left (by decide +kernel) ?_
        exact (Nat.coprime_comm.1 ((Nat.Prime.coprime_iff_not_dvd twist_prime).2
          fun hd => absurd (Nat.le_of_dvd h0 hd) (not_le.2 hm')))
      rw [this, mul_one]
    have := nsmul_gcd h (twist_nsmul hP)
    rw [hc] at this
    rw [show 8 = 4 * 2 from rfl, mul_nsmul, this, nsmul_zero]

/-- In a group of `m q` elements, `q` a prime not dividing `m`, a point of order `m` generates the `m`-torsion. -/
theorem torsion {G : Type} [AddCommGroup G] [Finite G] {m q : Nat} (hq : q.Prime) (hc : Nat.Coprime m q)
    (hG : Nat.card G = m * q) {Q P : G} (hQ : addOrderOf Q = m) (hP : m • P = 0) : ∃ n < m, n • Q = P := by
  classical
  have : Fact q.Prime := ⟨hq⟩
  have hm : 0 < m := hQ ▸ addOrderOf_pos Q
  obtain ⟨B, hB⟩ := exists_prime_addOrderOf_dvd_card' (G := G) q (hG ▸ Dvd.intro_left m rfl)
  let T : AddSubgroup G := (nsmulAddMonoidHom m : G →+ G).ker
  have hT : ∀ x, x ∈ T ↔ m • x = 0 := fun x => AddMonoidHom.mem_ker
  have hinj : Function.Injective (fun x : AddSubgroup.zmultiples B × T => (x.1 : G) + x.2) := by
    rintro ⟨⟨b, hb⟩, ⟨t, ht⟩⟩ ⟨⟨b', hb'⟩, ⟨t', ht'⟩⟩ h
    have h : b + t = b' + t' := h
    have hd : b - b' = t' - t := by rw [sub_eq_sub_iff_add_eq_add, h, add_comm]
    have h1 : q • (b - b') = 0 := by
      have hz : ∀ x ∈ AddSubgroup.zmultiples B, q • x = 0 := by
        rintro x ⟨i, rfl⟩
        show q • (i • B) = 0
        rw [smul_comm, ← hB, addOrderOf_nsmul_eq_zero, smul_zero]
      rw [nsmul_sub, hz b hb, hz b' hb', sub_zero]
    have h2 : m • (b - b') = 0 := by
      rw [hd, nsmul_sub, (hT t).1 ht, (hT t').1 ht', sub_zero]
    have h3 := nsmul_gcd h2 h1
    rw [hc, one_nsmul] at h3
    have hb : b = b' := sub_eq_zero.1 h3
    have ht : t = t' := by rw [hb] at h; exact add_left_cancel h
    subst hb ht
    rfl
  have hcard := Nat.card_le_card_of_injective _ hinj
  rw [Nat.card_prod, Nat.card_zmultiples, hB, hG, mul_comm m q] at hcard
  have hTc : Nat.card T ≤ m := Nat.le_of_mul_le_mul_left hcard hq.pos
  have hle : AddSubgroup.zmultiples Q ≤ T := by
    rw [AddSubgroup.zmultiples_le]
    rw [hT, ← hQ, addOrderOf_nsmul_eq_zero]
  have heq : AddSubgroup.zmultiples Q = T :=
    AddSubgroup.eq_of_le_of_card_ge hle (by rw [Nat.card_zmultiples, hQ]; exact hTc)
  have hPT : P ∈ AddSubgroup.zmultiples Q := by rw [heq, hT]; exact hP
  rw [← mem_multiples_iff_mem_zmultiples, mem_multiples_iff_mem_range_addOrderOf, hQ] at hPT
  obtain ⟨n, hn, he⟩ := Finset.mem_image.1 hPT
  exact ⟨n, Finset.mem_range.1 hn, he⟩

/-- `-1` is the coordinate of points of the twist of order 4. -/
theorem minus_one {P : EK.Point} (h : uK P = emb ((p - 1 : Nat) : Fp)) : P ∈ twistGroup ∧ addOrderOf P = 4 := by
  have hm := minus_one_eq
  have hne : ((p - 1 : Nat) : Fp) ≠ 0 := by
    rw [hm]
    exact neg_ne_zero.2 one_ne_zero
  refine ⟨(mem_of_isField ⟨_, h⟩).resolve_left fun hc => ?_, ?_⟩
  · rw [mem_curve] at hc
    cases P with
    | zero => exact hne (emb_inj (h.symm.trans (map_zero _).symm))
    | some x y hn =>
      have hx : x = emb _ := h
      subst hx
      rw [frob_some, Point.some.injEq] at hc
      obtain ⟨v, hv⟩ := frobK_fixed hc.2
      have he := equation hn
      rw [← hv, hm] at he
      have : emb (v ^ 2) = emb ((486660 : Nat) : Fp) := by
        rw [map_pow, he]
        simp only [map_neg, map_one, map_natCast]
        norm_num
      exact not_square (a := 486660) (by decide +kernel) (emb_inj this) (by decide +kernel)
  · have : Fact (Nat.Prime 2) := ⟨Nat.prime_two⟩
    refine addOrderOf_eq_prime_pow (p := 2) (n := 1) ?_ ?_
    · rw [pow_one]
      exact one_not_two hne h
    · rw [show 2 ^ (1 + 1) = 2 * 2 from rfl, mul_nsmul]
      refine two_nsmul_of_uK ?_
      rw [← ladder_uK (by decide +kernel) (dvd_refl 2) h, ← ladderN_eq,
        show ladderN 2 (p - 1) = 0 by decide +kernel, Nat.cast_zero, map_zero]

/-- The coordinates of the points whose order divides 8 -/
theorem small_order {P : EK.Point} {a : Fp} (ha : uK P = emb a) (h8 : 8 • P = 0) :
    a = 0 ∨ a = 1 ∨ a = (alpha1 : Fp) ∨ a = (alpha2 : Fp) ∨ a = -1 := by
  rcases mem_of_isField ⟨a, ha⟩ with hP | hP
  · obtain ⟨n, hn, he⟩ := torsion (G := curveGroup) order_prime (by decide +kernel) card_curve
      (Q := ⟨eightK, eightK_mem⟩) (P := ⟨P, hP⟩) (by rw [AddSubgroup.addOrderOf_mk, addOrderOf_eight])
      (Subtype.ext h8)
    have he : n • eightK = P := congrArg Subtype.val he
    have key : ∀ r : Nat, ladderN n alpha1 = r → a = (r : Fp) := fun r hr => by
      have := ladderN_uK (k := n) (lt_trans hn (by decide +kernel)) hr eight_nonsingular alpha1_ne
      refine emb_inj (ha.symm.trans ?_)
      rw [← this, ← he]
      rfl
    interval_cases n
    · exact Or.inl ((key 0 (by decide +kernel)).trans Nat.cast_zero)
    · exact Or.inr (Or.inr (Or.inl (key alpha1 (by decide +kernel))))
    · exact Or.inr (Or.inl ((key 1 (by decide +kernel)).trans Nat.cast_one))
    · exact Or.inr (Or.inr (Or.inr (Or.inl (key alpha2 (by decide +kernel)))))
    · exact Or.inl ((key 0 (by decide +kernel)).trans Nat.cast_zero)
    · exact Or.inr (Or.inr (Or.inr (Or.inl (key alpha2 (by decide +kernel)))))
    · exact Or.inr (Or.inl ((key 1 (by decide +kernel)).trans Nat.cast_one))
    · exact Or.inr (Or.inr (Or.inl (key alpha1 (by decide +kernel))))
  · have hm := minus_one_eq
    have h4 : 4 • P = 0 := by
      have := nsmul_gcd h8 (twist_nsmul hP)
      rwa [show Nat.gcd 8 (4 * twistOrder) = 4 by decide +kernel] at this
    have hQ := minus_one (uK_over ((p - 1 : Nat) : Fp))
    obtain ⟨n, hn, he⟩ := torsion (G := twistGroup) twist_prime (by decide +kernel) card_twist
      (Q := ⟨_, hQ.1⟩) (P := ⟨P, hP⟩) (by rw [AddSubgroup.addOrderOf_mk, hQ.2]) (Subtype.ext h4)
    have he : n • over ((p - 1 : Nat) : Fp) = P := congrArg Subtype.val he
    have hne : ((p - 1 : Nat) : Fp) ≠ 0 := by
      rw [hm]
      exact neg_ne_zero.2 one_ne_zero
    have key : ∀ r : Nat, ladderN n (p - 1) = r → a = (r : Fp) := fun r hr => by
      have := ladderN_uK (k := n) (lt_trans hn (by decide +kernel)) hr
        (exists_pointK ((p - 1 : Nat) : Fp)).choose_spec.choose hne
      refine emb_inj (ha.symm.trans ?_)
      rw [← this, ← he]
      rfl
    interval_cases n
    · exact Or.inl ((key 0 (by decide +kernel)).trans Nat.cast_zero)
    · exact Or.inr (Or.inr (Or.inr (Or.inr ((key (p - 1) (by decide +kernel)).trans hm))))
    · exact Or.inl ((key 0 (by decide +kernel)).trans Nat.cast_zero)
    · exact Or.inr (Or.inr (Or.inr (Or.inr ((key (p - 1) (by decide +kernel)).trans hm))))

/-- They do have order dividing 8. -/
theorem eight_of_small {P : EK.Point} {n : Nat} (hn : n = 0 ∨ n = 1 ∨ n = alpha1 ∨ n = alpha2 ∨ n = p - 1)
    (h : uK P = emb (n : Fp)) : 8 • P = 0 := by
  have h4 : ladderN 4 n = 0 := by
    rcases hn with rfl | rfl | rfl | rfl | rfl <;> decide +kernel
  rw [show 8 = 4 * 2 from rfl, mul_nsmul]
  refine two_nsmul_of_uK ?_
  rw [← ladder_uK (by decide +kernel) (by decide) h, ← ladderN_eq, h4, Nat.cast_zero, map_zero]

end
end Rfc7748
