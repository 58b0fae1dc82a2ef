import Verif.Proofs.X25519
import Verif.Proofs.Order25519
import Mathlib.FieldTheory.IsAlgClosed.AlgebraicClosure
import Mathlib.GroupTheory.OrderOfElement
import Mathlib.Tactic.FieldSimp
/-!
Curve25519 over the algebraic closure of its field, where every `u` is the coordinate of a point. The points with `u` in
the field are those that the Frobenius map sends to themselves, the curve, or to their negatives, the twist.
-/
namespace Rfc7748
open Montgomery WeierstrassCurve WeierstrassCurve.Affine

noncomputable section

/-- The algebraic closure of the field -/
abbrev K := AlgebraicClosure Fp

instance : DecidableEq K := Classical.decEq _

/-- The field in its closure -/
abbrev emb : Fp →+* K := algebraMap Fp K

theorem emb_inj {a b : Fp} (h : emb a = emb b) : a = b := emb.injective h

/-- curve25519 over the closure -/
abbrev EK := curve (486662 : K)

theorem two_neK : (2 : K) ≠ 0 := by
  intro h
  exact two_ne (emb_inj (by rw [map_ofNat, map_zero]; exact h))

theorem disc_neK : (486662 : K) ^ 2 ≠ 4 := by
  intro h
  exact disc_ne (emb_inj (by rw [map_pow, map_ofNat, map_ofNat]; exact h))

theorem a24_eqK : 4 * (121665 : K) = 486662 - 2 := by norm_num

/-- The point has the `u`-coordinate `u`, which is 0 for the point at infinity. -/
def uK : EK.Point → K
  | .zero => 0
  | .some x _ _ => x

/-! ### The ladder -/

/-- As `Inv`, over the closure -/
def InvK (k : Nat) (P : EK.Point) (b : Nat) (s : Ladder) : Prop :=
  if s.swap then Rep (emb s.x_3) (emb s.z_3) ((k >>> b) • P) ∧ Rep (emb s.x_2) (emb s.z_2) ((k >>> b + 1) • P)
  else Rep (emb s.x_2) (emb s.z_2) ((k >>> b) • P) ∧ Rep (emb s.x_3) (emb s.z_3) ((k >>> b + 1) • P)

theorem invK_step {k b : Nat} {u : Fp} {v : K} {hP : EK.Nonsingular (emb u) v} (hu : u ≠ 0) {s : Ladder}
    (h : InvK k (.some (emb u) v hP) (b + 1) s) : InvK k (.some (emb u) v hP) b (step k u s b) := by
  have hu' : emb u ≠ 0 := fun h => hu (emb_inj (by rw [h, map_zero]))
  generalize hPt : (Point.some (emb u) v hP : EK.Point) = P at h ⊢
  have hbit := shiftRight_bit k b
  have hR : ∃ x z x' z', (if s.swap then (s.x_3, s.z_3, s.x_2, s.z_2) else (s.x_2, s.z_2, s.x_3, s.z_3)) = (x, z, x', z') ∧
      Rep (emb x) (emb z) ((k >>> (b + 1)) • P) ∧ Rep (emb x') (emb z') ((k >>> (b + 1) + 1) • P) := by
    unfold InvK at h
    cases hs : s.swap <;> simp only [hs, if_true, Bool.false_eq_true, if_false] at h ⊢
    · exact ⟨_, _, _, _, rfl, h⟩
    · exact ⟨_, _, _, _, rfl, h⟩
  obtain ⟨x, z, x', z', he, h0, h1⟩ := hR
  generalize k >>> (b + 1) = n at *
  have hd : (n + 1) • P - n • P = .some (emb u) v hP := by rw [hPt, succ_nsmul]; abel
  have hd' : n • P - (n + 1) • P = .some (emb u) _ ((nonsingular_neg (emb u) v).mpr hP) := by
    rw [← Point.neg_some hP, hPt, succ_nsmul]
    abel
  cases hb : k.testBit b with
  | false =>
    have e : k >>> b = 2 * n := by rw [hbit, hb]; rfl
    have hst : step k u s b = ⟨(x + z) ^ 2 * (x - z) ^ 2,
        ((x + z) ^ 2 - (x - z) ^ 2) * ((x + z) ^ 2 + 121665 * ((x + z) ^ 2 - (x - z) ^ 2)),
        ((x' - z') * (x + z) + (x' + z') * (x - z)) ^ 2, u * ((x' - z') * (x + z) - (x' + z') * (x - z)) ^ 2, false⟩ := by
      cases hs : s.swap <;> simp only [hs, if_true, Bool.false_eq_true, if_false, Prod.mk.injEq] at he <;>
        obtain ⟨rfl, rfl, rfl, rfl⟩ := he <;> simp only [step, cswap, hb, hs] <;> rfl
    rw [hst]
    unfold InvK
    rw [if_neg Bool.false_ne_true, e]
    simp only [map_mul, map_pow, map_add, map_sub, map_ofNat]
    refine ⟨?_, ?_⟩
    · have := rep_double two_neK disc_neK a24_eqK h0
      rwa [← two_nsmul, ← mul_nsmul'] at this
    · have := rep_add two_neK disc_neK hu' h0 h1 hd'
      rwa [← add_nsmul, show n + (n + 1) = 2 * n + 1 by omega] at this
  | true =>
    have e : k >>> b = 2 * n + 1 := by rw [hbit, hb]; rfl
    have hst : step k u s b = ⟨(x' + z') ^ 2 * (x' - z') ^ 2,
        ((x' + z') ^ 2 - (x' - z') ^ 2) * ((x' + z') ^ 2 + 121665 * ((x' + z') ^ 2 - (x' - z') ^ 2)),
        ((x - z) * (x' + z') + (x + z) * (x' - z')) ^ 2, u * ((x - z) * (x' + z') - (x + z) * (x' - z')) ^ 2, true⟩ := by
      cases hs : s.swap <;> simp only [hs, if_true, Bool.false_eq_true, if_false, Prod.mk.injEq] at he <;>
        obtain ⟨rfl, rfl, rfl, rfl⟩ := he <;> simp only [step, cswap, hb, hs] <;> rfl
    rw [hst]
    unfold InvK
    rw [if_pos rfl, e]
    simp only [map_mul, map_pow, map_add, map_sub, map_ofNat]
    refine ⟨?_, ?_⟩
    · have := rep_add two_neK disc_neK hu' h1 h0 hd
      rwa [← add_nsmul, show n + 1 + n = 2 * n + 1 by omega] at this
    · have := rep_double two_neK disc_neK a24_eqK h1
      rwa [← two_nsmul, ← mul_nsmul', show 2 * (n + 1) = 2 * n + 1 + 1 by omega] at this

theorem invK_fold {k : Nat} {u : Fp} {v : K} {hP : EK.Nonsingular (emb u) v} (hu : u ≠ 0) (b : Nat) {s : Ladder}
    (h : InvK k (.some (emb u) v hP) b s) :
    InvK k (.some (emb u) v hP) 0 ((List.range b).reverse.foldl (step k u) s) := by
  induction b generalizing s with
  | zero => exact h
  | succ b ih =>
    rw [List.range_succ, List.reverse_append]
    exact ih (invK_step hu h)

theorem uK_rep {X Z : Fp} {P : EK.Point} (h : Rep (emb X) (emb Z) P) : emb (X * Z ^ (p - 2)) = uK P := by
  have hp : p - 2 ≠ 0 := by decide +kernel
  cases P with
  | zero =>
    obtain ⟨_, hz⟩ := h
    have : Z = 0 := emb_inj (by rw [hz, map_zero])
    rw [this, zero_pow hp, mul_zero, map_zero]
    rfl
  | some x y hn =>
    obtain ⟨hz, hx⟩ := h
    have hz' : Z ≠ 0 := fun h => hz (by rw [h, map_zero])
    have hf := ZMod.pow_card_sub_one_eq_one hz'
    have hp1 : p - 1 = p - 2 + 1 := by decide +kernel
    rw [hp1, pow_succ'] at hf
    have hf' := congrArg emb hf
    rw [map_mul, map_one] at hf'
    rw [map_mul, hx, mul_assoc, hf', mul_one]
    rfl

/-- The ladder computes the `u`-coordinate of `k P`. -/
theorem ladderK_eq {k : Nat} (hk : k < 2 ^ 255) {u : Fp} {v : K} (hP : EK.Nonsingular (emb u) v) (hu : u ≠ 0) :
    emb (ladder k u) = uK (k • (.some (emb u) v hP : EK.Point)) := by
  unfold ladder
  generalize 255 = b at hk ⊢
  have h0 : InvK k (.some (emb u) v hP) b { x_2 := 1, z_2 := 0, x_3 := u, z_3 := 1, swap := false } := by
    unfold InvK
    rw [if_neg Bool.false_ne_true, Nat.shiftRight_eq_div_pow, Nat.div_eq_of_lt hk, zero_nsmul, zero_add, one_nsmul]
    simp only [map_one, map_zero]
    exact ⟨⟨one_ne_zero, rfl⟩, ⟨one_ne_zero, (mul_one _).symm⟩⟩
  have h := invK_fold hu b h0
  generalize (List.range b).reverse.foldl (step k u) _ = s at h
  unfold InvK at h
  rw [Nat.shiftRight_zero] at h
  cases hs : s.swap <;> simp only [hs, if_true, Bool.false_eq_true, if_false] at h
  · exact (by simpa only [cswap, hs, Bool.false_eq_true, if_false] using uK_rep h.1)
  · exact (by simpa only [cswap, hs, if_true] using uK_rep h.1)

theorem neg_eqK (x y : K) : EK.negY x y = -y := Montgomery.negY x y

/-- A point whose `u`-coordinate is 0 vanishes when doubled. -/
theorem two_nsmul_of_uK {Q : EK.Point} (h : uK Q = 0) : 2 • Q = 0 := by
  cases Q with
  | zero => exact nsmul_zero 2
  | some x y hn =>
    have hx : x = 0 := h
    subst hx
    have hy := equation hn
    have hy : y = 0 := by
      have : y ^ 2 = 0 := by rw [hy]; ring
      exact pow_eq_zero_iff (by decide) |>.1 this
    rw [two_nsmul, Point.add_self_of_Y_eq (by rw [Montgomery.negY, hy, neg_zero])]

/-- The ladder multiplies every point with `u` in the field by every even number. -/
theorem ladder_uK {k : Nat} (hk : k < 2 ^ 255) (he : 2 ∣ k) {Q : EK.Point} {u : Fp} (hQ : uK Q = emb u) :
    emb (ladder k u) = uK (k • Q) := by
  by_cases h : u = 0
  · subst h
    obtain ⟨m, rfl⟩ := he
    rw [map_zero] at hQ
    rw [ladder_zero, mul_comm, mul_nsmul', two_nsmul_of_uK hQ, nsmul_zero, map_zero]
    rfl
  · cases Q with
    | zero => exact absurd (emb_inj (hQ.symm.trans (map_zero emb).symm)) h
    | some x y hn =>
      have hx : x = emb u := hQ
      subst hx
      exact ladderK_eq hk hn h

/-! ### Every `u` is the coordinate of a point -/

theorem nonsingularK {x y : K} (h : y ^ 2 = x ^ 3 + 486662 * x ^ 2 + x) : EK.Nonsingular x y := by
  rw [Affine.nonsingular_iff, Affine.equation_iff]
  simp only [curve]
  refine ⟨by linear_combination h, ?_⟩
  by_cases hy : y = 0
  · left
    intro hd
    subst hy
    have h1 : x * (x ^ 2 + 486662 * x + 1) = 0 := by linear_combination -h
    have h2 : 3 * x ^ 2 + 2 * 486662 * x + 1 = 0 := by linear_combination -hd
    rcases mul_eq_zero.1 h1 with h3 | h3
    · rw [h3] at h2
      norm_num at h2
    · have h4 : x * (2 * x + 486662) = 0 := by linear_combination h2 - h3
      rcases mul_eq_zero.1 h4 with h5 | h5
      · rw [h5] at h3
        norm_num at h3
      · refine disc_neK ?_
        linear_combination (2 * x + 486662) * h5 - 4 * h3
  · right
    intro h1
    refine hy ?_
    have : (2 : K) * y = 0 := by linear_combination h1
    exact (mul_eq_zero.1 this).resolve_left two_neK

theorem exists_pointK (u : Fp) : ∃ v, ∃ h : EK.Nonsingular (emb u) v, uK (.some (emb u) v h) = emb u := by
  obtain ⟨v, hv⟩ := IsAlgClosed.exists_pow_nat_eq (emb u ^ 3 + 486662 * emb u ^ 2 + emb u) (n := 2) (by norm_num)
  exact ⟨v, nonsingularK hv, rfl⟩

/-! ### The Frobenius map -/

/-- `x ↦ x ^ p` -/
def frobK : K →+* K := frobenius K p

theorem frobK_apply (x : K) : frobK x = x ^ p := frobenius_def ..

theorem frobK_emb (u : Fp) : frobK (emb u) = emb u := by
  rw [frobK_apply, ← map_pow, ZMod.pow_card]

theorem curve_map : EK.map frobK = EK := by
  ext
  case a₂ => exact map_ofNat frobK 486662
  all_goals simp [curve, WeierstrassCurve.map]

theorem frob_nonsingular {x y : K} (h : EK.Nonsingular x y) : EK.Nonsingular (frobK x) (frobK y) := by
  have := (map_nonsingular EK (f := frobK) frobK.injective x y).2 h
  rwa [curve_map] at this

/-- The Frobenius map on points -/
def frob : EK.Point →+ EK.Point where
  toFun
    | .zero => .zero
    | .some x y h => .some (frobK x) (frobK y) (frob_nonsingular h)
  map_zero' := rfl
  map_add' := by
    rintro (_ | ⟨x₁, y₁, h₁⟩) (_ | ⟨x₂, y₂, h₂⟩)
    any_goals rfl
    have hX : ∀ ℓ, frobK (EK.addX x₁ x₂ ℓ) = EK.addX (frobK x₁) (frobK x₂) (frobK ℓ) := fun ℓ => by
      have := map_addX (W' := EK) frobK x₁ x₂ ℓ
      rw [curve_map] at this
      exact this.symm
    have hY : ∀ ℓ, frobK (EK.addY x₁ x₂ y₁ ℓ) = EK.addY (frobK x₁) (frobK x₂) (frobK y₁) (frobK ℓ) := fun ℓ => by
      have := map_addY (W' := EK) frobK x₁ y₁ x₂ ℓ
      rw [curve_map] at this
      exact this.symm
    have hS : frobK (EK.slope x₁ x₂ y₁ y₂) = EK.slope (frobK x₁) (frobK x₂) (frobK y₁) (frobK y₂) := by
      have := map_slope (W := EK) frobK x₁ x₂ y₁ y₂
      rw [curve_map] at this
      exact this.symm
    have hN : EK.negY (frobK x₂) (frobK y₂) = frobK (EK.negY x₂ y₂) := by
      rw [neg_eqK, neg_eqK, map_neg]
    by_cases hxy : x₁ = x₂ ∧ y₁ = EK.negY x₂ y₂
    · rw [Point.add_of_Y_eq hxy.1 hxy.2]
      show _ = Point.some _ _ _ + Point.some _ _ _
      rw [Point.add_of_Y_eq (congrArg frobK hxy.1) (by rw [hN, hxy.2])]
      rfl
    · rw [Point.add_some hxy]
      show Point.some _ _ _ = Point.some _ _ _ + Point.some _ _ _
      rw [Point.add_some (fun h => hxy ⟨frobK.injective h.1, frobK.injective (h.2.trans hN)⟩)]
      simp only [hX, hY, hS]

theorem frob_some {x y : K} (h : EK.Nonsingular x y) :
    frob (.some x y h) = .some (frobK x) (frobK y) (frob_nonsingular h) := rfl

/-- The elements of the field are the fixed points. -/
theorem frobK_fixed {x : K} (h : frobK x = x) : ∃ u, emb u = x := by
  classical
  rw [frobK_apply] at h
  have hp1 := (Fact.out : p.Prime).one_lt
  let f : Polynomial K := Polynomial.X ^ p - Polynomial.X
  have hf : f ≠ 0 := FiniteField.X_pow_card_sub_X_ne_zero K hp1
  have hroot : ∀ y : K, y ^ p = y → y ∈ f.roots.toFinset := fun y hy => by
    rw [Multiset.mem_toFinset, Polynomial.mem_roots hf]
    simp [f, hy]
  have hcard : f.roots.toFinset.card ≤ p := by
    refine (Multiset.toFinset_card_le _).trans ((Polynomial.card_roots' f).trans ?_)
    exact (FiniteField.X_pow_card_sub_X_natDegree_eq K hp1).le
  have hsub : Finset.univ.image emb ⊆ f.roots.toFinset := by
    intro y hy
    obtain ⟨u, -, rfl⟩ := Finset.mem_image.1 hy
    exact hroot _ (by rw [← map_pow, ZMod.pow_card])
  have heq : Finset.univ.image emb = f.roots.toFinset := by
    refine Finset.eq_of_subset_of_card_le hsub (hcard.trans ?_)
    rw [Finset.card_image_of_injective _ emb.injective, Finset.card_univ, ZMod.card]
  have := hroot x h
  rw [← heq] at this
  obtain ⟨u, -, hu⟩ := Finset.mem_image.1 this
  exact ⟨u, hu⟩

/-- The points of the curve over the field -/
def curveGroup : AddSubgroup EK.Point := (frob - AddMonoidHom.id _).ker

/-- The points of the twist -/
def twistGroup : AddSubgroup EK.Point := (frob + AddMonoidHom.id _).ker

theorem mem_curve {P : EK.Point} : P ∈ curveGroup ↔ frob P = P := by
  unfold curveGroup
  rw [AddMonoidHom.mem_ker, AddMonoidHom.sub_apply, sub_eq_zero]
  rfl

theorem mem_twist {P : EK.Point} : P ∈ twistGroup ↔ frob P = -P := by
  unfold twistGroup
  rw [AddMonoidHom.mem_ker, AddMonoidHom.add_apply, add_eq_zero_iff_eq_neg]
  rfl

end
end Rfc7748
