import Verif.Proofs.Montgomery
import Verif.Proofs.Prime25519
import Verif.Spec.Rfc7748
import Mathlib.FieldTheory.Finite.Basic
/-! The ladder of RFC 7748 computes multiples of a point of curve25519. -/
namespace Rfc7748
open Montgomery WeierstrassCurve WeierstrassCurve.Affine

instance : Fact (Nat.Prime p) := ⟨Prime25519.prime⟩

theorem two_ne : (2 : Fp) ≠ 0 := by
  intro h
  have : ((2 : Nat) : ZMod p) = 0 := by exact_mod_cast h
  rw [ZMod.natCast_eq_zero_iff] at this
  revert this
  decide +kernel

/-- The coefficient of curve25519 -/
abbrev A25519 : Fp := 486662

theorem disc_ne : A25519 ^ 2 ≠ 4 := by
  intro h
  have h' : (A25519 ^ 2 - 4 : Fp) = 0 := by rw [h, sub_self]
  have e : (A25519 ^ 2 - 4 : Fp) = ((486662 ^ 2 - 4 : Nat) : Fp) := by
    rw [Nat.cast_sub (by decide)]
    push_cast
    rfl
  rw [e, ZMod.natCast_eq_zero_iff] at h'
  revert h'
  decide +kernel

theorem a24_eq : 4 * (121665 : Fp) = A25519 - 2 := by
  norm_num

/-- curve25519 -/
abbrev E25519 := curve A25519

/-- The pair of points the ladder holds before it takes bit `b - 1`, with `n` the bits of `k` already taken -/
def Inv (k : Nat) (P : E25519.Point) (b : Nat) (s : Ladder) : Prop :=
  if s.swap then Rep s.x_3 s.z_3 ((k >>> b) • P) ∧ Rep s.x_2 s.z_2 ((k >>> b + 1) • P)
  else Rep s.x_2 s.z_2 ((k >>> b) • P) ∧ Rep s.x_3 s.z_3 ((k >>> b + 1) • P)

theorem shiftRight_bit (k b : Nat) : k >>> b = 2 * (k >>> (b + 1)) + (k.testBit b).toNat := by
  rw [Nat.shiftRight_succ, Nat.toNat_testBit, Nat.shiftRight_eq_div_pow]
  omega

theorem inv_step {k b : Nat} {u v : Fp} {hP : E25519.Nonsingular u v} (hu : u ≠ 0) {s : Ladder}
    (h : Inv k (.some u v hP) (b + 1) s) : Inv k (.some u v hP) b (step k u s b) := by
  generalize hPt : (Point.some u v hP : E25519.Point) = P at h ⊢
  have hbit := shiftRight_bit k b
  -- the two points after the conditional swap
  have hR : ∃ x z x' z', (if s.swap then (s.x_3, s.z_3, s.x_2, s.z_2) else (s.x_2, s.z_2, s.x_3, s.z_3)) = (x, z, x', z') ∧
      Rep x z ((k >>> (b + 1)) • P) ∧ Rep x' z' ((k >>> (b + 1) + 1) • P) := by
    unfold Inv at h
    cases hs : s.swap <;> simp only [hs, if_true, Bool.false_eq_true, if_false] at h ⊢
    · exact ⟨_, _, _, _, rfl, h⟩
    · exact ⟨_, _, _, _, rfl, h⟩
  obtain ⟨x, z, x', z', he, h0, h1⟩ := hR
  generalize k >>> (b + 1) = n at *
  have hd : (n + 1) • P - n • P = .some u v hP := by rw [hPt, succ_nsmul]; abel
  have hd' : n • P - (n + 1) • P = .some u _ ((nonsingular_neg u v).mpr hP) := by
    rw [← Point.neg_some hP, hPt, succ_nsmul]
    abel
  cases hb : k.testBit b with
  | false =>
    have e : k >>> b = 2 * n := by rw [hbit, hb]; rfl
    have hst : step k u s b = ⟨(x + z) ^ 2 * (x - z) ^ 2,
        ((x + z) ^ 2 - (x - z) ^ 2) * ((x + z) ^ 2 + 121665 * ((x + z) ^ 2 - (x - z) ^ 2)),
        ((x' - z') * (x + z) + (x' + z') * (x - z)) ^ 2, u * ((x' - z') * (x + z) - (x' + z') * (x - z)) ^ 2, false⟩ := by
      cases hs : s.swap <;> simp only [hs, if_true, Bool.false_eq_true, if_false, Prod.mk.injEq] at he <;>
        obtain ⟨rfl, rfl, rfl, rfl⟩ := he <;> simp only [step, cswap, hb, hs] <;> rfl
    rw [hst]
    unfold Inv
    rw [if_neg Bool.false_ne_true, e]
    refine ⟨?_, ?_⟩
    · have := rep_double two_ne disc_ne a24_eq h0
      rwa [← two_nsmul, ← mul_nsmul'] at this
    · have := rep_add two_ne disc_ne hu h0 h1 hd'
      rwa [← add_nsmul, show n + (n + 1) = 2 * n + 1 by omega] at this
  | true =>
    have e : k >>> b = 2 * n + 1 := by rw [hbit, hb]; rfl
    have hst : step k u s b = ⟨(x' + z') ^ 2 * (x' - z') ^ 2,
        ((x' + z') ^ 2 - (x' - z') ^ 2) * ((x' + z') ^ 2 + 121665 * ((x' + z') ^ 2 - (x' - z') ^ 2)),
        ((x - z) * (x' + z') + (x + z) * (x' - z')) ^ 2, u * ((x - z) * (x' + z') - (x + z) * (x' - z')) ^ 2, true⟩ := by
      cases hs : s.swap <;> simp only [hs, if_true, Bool.false_eq_true, if_false, Prod.mk.injEq] at he <;>
        obtain ⟨rfl, rfl, rfl, rfl⟩ := he <;> simp only [step, cswap, hb, hs] <;> rfl
    rw [hst]
    unfold Inv
    rw [if_pos rfl, e]
    refine ⟨?_, ?_⟩
    · have := rep_add two_ne disc_ne hu h1 h0 hd
      rwa [← add_nsmul, show n + 1 + n = 2 * n + 1 by omega] at this
    · have := rep_double two_ne disc_ne a24_eq h1
      rwa [← two_nsmul, ← mul_nsmul', show 2 * (n + 1) = 2 * n + 1 + 1 by omega] at this

theorem inv_fold {k : Nat} {u v : Fp} {hP : E25519.Nonsingular u v} (hu : u ≠ 0) (b : Nat) {s : Ladder}
    (h : Inv k (.some u v hP) b s) : Inv k (.some u v hP) 0 ((List.range b).reverse.foldl (step k u) s) := by
  induction b generalizing s with
  | zero => exact h
  | succ b ih =>
    rw [List.range_succ, List.reverse_append]
    exact ih (inv_step hu h)

/-- The `u`-coordinate of a point, with 0 for the point at infinity -/
def uOf : E25519.Point → Fp
  | .zero => 0
  | .some x _ _ => x

theorem uOf_rep {X Z : Fp} {P : E25519.Point} (h : Rep X Z P) : X * Z ^ (p - 2) = uOf P := by
  have hp : p - 2 ≠ 0 := by decide +kernel
  cases P with
  | zero =>
    obtain ⟨_, rfl⟩ := h
    rw [zero_pow hp, mul_zero]
    rfl
  | some x y hn =>
    obtain ⟨hz, rfl⟩ := h
    have hf := ZMod.pow_card_sub_one_eq_one hz
    have hp1 : p - 1 = p - 2 + 1 := by decide +kernel
    rw [hp1, pow_succ'] at hf
    rw [mul_assoc, hf, mul_one]
    rfl

/-- The ladder computes the `u`-coordinate of `k P`. -/
theorem ladder_eq {k : Nat} (hk : k < 2 ^ 255) {u v : Fp} (hP : E25519.Nonsingular u v) (hu : u ≠ 0) :
    ladder k u = uOf (k • (.some u v hP : E25519.Point)) := by
  unfold ladder
  generalize 255 = b at hk ⊢
  have h0 : Inv k (.some u v hP) b { x_2 := 1, z_2 := 0, x_3 := u, z_3 := 1, swap := false } := by
    unfold Inv
    rw [if_neg Bool.false_ne_true, Nat.shiftRight_eq_div_pow, Nat.div_eq_of_lt hk, zero_nsmul, zero_add, one_nsmul]
    exact ⟨⟨one_ne_zero, rfl⟩, ⟨one_ne_zero, (mul_one _).symm⟩⟩
  have h := inv_fold hu b h0
  generalize (List.range b).reverse.foldl (step k u) _ = s at h
  unfold Inv at h
  rw [Nat.shiftRight_zero] at h
  cases hs : s.swap <;> simp only [hs, if_true, Bool.false_eq_true, if_false] at h
  · exact (by simpa only [cswap, hs, Bool.false_eq_true, if_false] using uOf_rep h.1)
  · exact (by simpa only [cswap, hs, if_true] using uOf_rep h.1)

theorem zero_step {k b : Nat} {s : Ladder} (h2 : s.x_2 * s.z_2 = 0) (h3 : s.x_3 * s.z_3 = 0) :
    (step k 0 s b).z_2 = 0 ∧ (step k 0 s b).z_3 = 0 := by
  refine ⟨?_, zero_mul _⟩
  cases hs : s.swap ^^ k.testBit b <;> simp only [step, cswap, hs, if_true, Bool.false_eq_true, if_false]
  · linear_combination (4 * (s.x_2 + s.z_2) ^ 2 + 4 * 121665 * (4 * (s.x_2 * s.z_2))) * h2
  · linear_combination (4 * (s.x_3 + s.z_3) ^ 2 + 4 * 121665 * (4 * (s.x_3 * s.z_3))) * h3

theorem zero_fold {k : Nat} (l : List Nat) {s : Ladder} (h2 : s.z_2 = 0) (h3 : s.z_3 = 0) :
    (l.foldl (step k 0) s).z_2 = 0 ∧ (l.foldl (step k 0) s).z_3 = 0 := by
  induction l generalizing s with
  | nil => exact ⟨h2, h3⟩
  | cons b l ih =>
    have := zero_step (k := k) (b := b) (s := s) (by rw [h2, mul_zero]) (by rw [h3, mul_zero])
    exact ih this.1 this.2

theorem ladder_zero (k : Nat) : ladder k 0 = 0 := by
  have hp : p - 2 ≠ 0 := by decide +kernel
  unfold ladder
  rw [show (255 : Nat) = 254 + 1 from rfl, List.range_succ, List.reverse_append]
  generalize 254 = b
  have h1 := zero_step (k := k) (b := b) (s := { x_2 := 1, z_2 := 0, x_3 := 0, z_3 := 1, swap := false })
    (mul_zero _) (zero_mul _)
  have h := zero_fold (k := k) (List.range b).reverse h1.1 h1.2
  rw [List.reverse_singleton, List.singleton_append, List.foldl_cons]
  generalize List.foldl (step k 0) _ _ = s at h
  show _ * (cswap s.swap s.z_2 s.z_3).1 ^ (p - 2) = 0
  have : (cswap s.swap s.z_2 s.z_3).1 = 0 := by
    unfold cswap
    split
    · exact h.2
    · exact h.1
  rw [this, zero_pow hp, mul_zero]

/-- A point whose `u`-coordinate is 0 vanishes when doubled. -/
theorem two_nsmul_of_uOf {Q : E25519.Point} (h : uOf Q = 0) : 2 • Q = 0 := by
  cases Q with
  | zero => exact nsmul_zero 2
  | some x y hn =>
    have hx : x = 0 := h
    subst hx
    have hy := equation hn
    have hy : y = 0 := by
      have : y ^ 2 = 0 := by rw [hy]; ring
      exact pow_eq_zero_iff (by decide) |>.1 this
    rw [two_nsmul, Point.add_self_of_Y_eq (by rw [Montgomery.negY, hy, neg_zero])]

/-- The ladder multiplies every point by every even number. -/
theorem ladder_uOf {k : Nat} (hk : k < 2 ^ 255) (he : 2 ∣ k) (Q : E25519.Point) :
    ladder k (uOf Q) = uOf (k • Q) := by
  by_cases h : uOf Q = 0
  · obtain ⟨m, rfl⟩ := he
    rw [h, ladder_zero, mul_comm, mul_nsmul', two_nsmul_of_uOf h, nsmul_zero]
    rfl
  · cases Q with
    | zero => exact absurd rfl h
    | some x y hn => exact ladder_eq hk hn h

/-! ### Bytes -/

theorem sum_digits (n : Nat) : ∀ m, ∑ i : Fin m, n / 2 ^ (8 * i.val) % 256 * 2 ^ (8 * i.val) = n % 2 ^ (8 * m)
  | 0 => by simp [Nat.mod_one]
  | m + 1 => by
    rw [Fin.sum_univ_castSucc]
    simp only [Fin.val_castSucc, Fin.val_last]
    rw [sum_digits n m, show 8 * (m + 1) = 8 * m + 8 by omega, pow_add, Nat.mod_mul, show 2 ^ 8 = 256 from rfl,
      mul_comm (2 ^ (8 * m))]

theorem sum_lt (f : Nat → Nat) (h : ∀ i, f i < 256) : ∀ m, ∑ i : Fin m, f i.val * 2 ^ (8 * i.val) < 2 ^ (8 * m)
  | 0 => by simp
  | m + 1 => by
    rw [Fin.sum_univ_castSucc]
    simp only [Fin.val_castSucc, Fin.val_last]
    have h1 := sum_lt f h m
    have h2 := Nat.mul_le_mul_right (2 ^ (8 * m)) (Nat.le_of_lt_succ (h m))
    rw [show 8 * (m + 1) = 8 * m + 8 by omega, pow_add]
    omega

theorem sum_lt_top (f : Nat → Nat) (h : ∀ i, f i < 256) (m : Nat) (ht : f m < 128) :
    ∑ i : Fin (m + 1), f i.val * 2 ^ (8 * i.val) < 2 ^ (8 * m + 7) := by
  rw [Fin.sum_univ_castSucc]
  simp only [Fin.val_castSucc, Fin.val_last]
  have h1 := sum_lt f h m
  have h2 := Nat.mul_le_mul_right (2 ^ (8 * m)) (Nat.le_of_lt_succ ht)
  rw [pow_add]
  omega

theorem decode_lt {b : Rust.Bytes 32} (h : b[31].toNat < 128) : decodeLittleEndian b < 2 ^ 255 := by
  have e : decodeLittleEndian b = ∑ i : Fin 32, (b[i.val]?.getD 0).toNat * 2 ^ (8 * i.val) := by
    refine Finset.sum_congr rfl fun i _ => ?_
    rw [Vector.getElem?_eq_getElem i.isLt]
    rfl
  rw [e]
  exact sum_lt_top (fun i => (b[i]?.getD 0).toNat) (fun i => UInt8.toNat_lt _) 31 h

theorem decode_dvd {b : Rust.Bytes 32} (h : 8 ∣ b[0].toNat) : 8 ∣ decodeLittleEndian b := by
  unfold decodeLittleEndian
  refine Finset.dvd_sum fun i _ => ?_
  by_cases h0 : i = 0
  · subst h0
    exact Dvd.dvd.mul_right h _
  · refine Dvd.dvd.mul_left ?_ _
    have : 3 ≤ 8 * i.val := by
      have : i.val ≠ 0 := fun h => h0 (Fin.ext h)
      omega
    exact pow_dvd_pow 2 this

theorem decodeScalar_lt (k : Rust.Bytes 32) : decodeScalar25519 k < 2 ^ 255 := by
  refine decode_lt ?_
  simp only [Vector.getElem_set_self]
  have : ∀ x : UInt8, (x &&& 127 ||| 64).toNat < 128 := by
    intro x
    have hx : x.toNat < 256 := x.toNat_lt
    simp only [UInt8.toNat_or, UInt8.toNat_and]
    exact Nat.or_lt_two_pow (n := 7) (Nat.and_lt_two_pow _ (by decide)) (by decide)
  exact this _

theorem decodeScalar_dvd (k : Rust.Bytes 32) : 8 ∣ decodeScalar25519 k := by
  refine decode_dvd ?_
  have : ∀ x : UInt8, 8 ∣ (x &&& 248).toNat := by
    intro x
    have : ∀ n : Fin 256, 8 ∣ (n.val &&& 248) := by decide +kernel
    rw [UInt8.toNat_and]
    exact this ⟨x.toNat, x.toNat_lt⟩
  simpa using this k[0]

theorem p_lt : p < 2 ^ 255 := by decide +kernel

theorem decode_encode (u : Fp) : decodeUCoordinate (encodeUCoordinate u) = u := by
  have hu : u.val < 2 ^ 255 := lt_trans (ZMod.val_lt u) p_lt
  have e : (encodeUCoordinate u).set 31 ((encodeUCoordinate u)[31] &&& 0x7f) = encodeUCoordinate u := by
    have h31 : (encodeUCoordinate u)[31] = UInt8.ofNat (u.val / 2 ^ 248) := by
      simp [encodeUCoordinate]
    have : (encodeUCoordinate u)[31] &&& (0x7f : UInt8) = (encodeUCoordinate u)[31] := by
      rw [h31]
      have hlt : u.val / 2 ^ 248 < 128 := by omega
      generalize u.val / 2 ^ 248 = n at hlt
      have : ∀ n : Fin 128, UInt8.ofNat n.val &&& (0x7f : UInt8) = UInt8.ofNat n.val := by decide +kernel
      exact this ⟨n, hlt⟩
    rw [this]
    exact Vector.set_getElem_self _
  unfold decodeUCoordinate
  rw [e]
  have : decodeLittleEndian (encodeUCoordinate u) = u.val := by
    unfold decodeLittleEndian encodeUCoordinate
    have h := sum_digits u.val 32
    rw [Nat.mod_eq_of_lt (by omega)] at h
    rw [← h]
    refine Finset.sum_congr rfl fun i _ => ?_
    rw [h]
    simp
  rw [this]
  exact ZMod.natCast_zmod_val u

/-! ### The base point -/

/-- Its `v`-coordinate, section 4.1 -/
def baseV : Nat := 14781619447589544791020593568409986887264606134616475288964881837755586237401

theorem base_equation : ((baseV : Nat) : Fp) ^ 2 = 9 ^ 3 + A25519 * 9 ^ 2 + 9 := by
  have h : (baseV ^ 2) % p = (9 ^ 3 + 486662 * 9 ^ 2 + 9) % p := by decide +kernel
  have := (ZMod.natCast_eq_natCast_iff' _ _ p).2 h
  push_cast at this
  exact this

theorem base_nonsingular : E25519.Nonsingular 9 (baseV : Fp) := by
  rw [Affine.nonsingular_iff]
  refine ⟨?_, Or.inr ?_⟩
  · rw [Affine.equation_iff]
    simpa [curve] using base_equation
  · intro h
    have h0 : (2 : Fp) * (baseV : Fp) = 0 := by
      simp only [curve] at h
      linear_combination h
    have h1 : ((2 * baseV : Nat) : Fp) = 0 := by push_cast; exact h0
    rw [ZMod.natCast_eq_zero_iff] at h1
    revert h1
    decide +kernel

/-- The base point -/
def base : E25519.Point := .some 9 (baseV : Fp) base_nonsingular

/-- `X25519` multiplies points given by their `u`-coordinates. -/
theorem X25519_uOf (k : Rust.Bytes 32) (Q : E25519.Point) :
    X25519 k (encodeUCoordinate (uOf Q)) = encodeUCoordinate (uOf (decodeScalar25519 k • Q)) := by
  unfold X25519
  rw [decode_encode, ladder_uOf (decodeScalar_lt k) (dvd_trans (by decide) (decodeScalar_dvd k))]

/-! ### Evaluation in the kernel -/

/-- The loop body on natural numbers below `p` -/
def stepN (k x_1 : Nat) (s : Nat × Nat × Nat × Nat × Bool) (t : Nat) : Nat × Nat × Nat × Nat × Bool :=
  let k_t := k.testBit t
  let sw := s.2.2.2.2 ^^ k_t
  let x2 := if sw then s.2.2.1 else s.1
  let x3 := if sw then s.1 else s.2.2.1
  let z2 := if sw then s.2.2.2.1 else s.2.1
  let z3 := if sw then s.2.1 else s.2.2.2.1
  let a := x2 + z2
  let aa := a * a % p
  let b := x2 + (p - z2)
  let bb := b * b % p
  let e := aa + (p - bb)
  let da := (x3 + (p - z3)) * a % p
  let cb := (x3 + z3) * b % p
  (aa * bb % p, e * (aa + 121665 * e) % p, (da + cb) * (da + cb) % p, x_1 * ((da + (p - cb)) * (da + (p - cb)) % p) % p,
    k_t)

/-- The natural numbers stand for the field elements -/
def RepN (n : Nat × Nat × Nat × Nat × Bool) (s : Ladder) : Prop :=
  (n.1 : Fp) = s.x_2 ∧ (n.2.1 : Fp) = s.z_2 ∧ (n.2.2.1 : Fp) = s.x_3 ∧ (n.2.2.2.1 : Fp) = s.z_3 ∧ n.2.2.2.2 = s.swap ∧
  n.2.1 ≤ p ∧ n.2.2.2.1 ≤ p

theorem cast_mod (n : Nat) : ((n % p : Nat) : Fp) = n := ZMod.natCast_mod n p

theorem cast_neg {n : Nat} (h : n ≤ p) : ((p - n : Nat) : Fp) = -n := by
  rw [Nat.cast_sub h, ZMod.natCast_self, zero_sub]

theorem mod_le (n : Nat) : n % p ≤ p := (Nat.mod_lt _ (Nat.Prime.pos Prime25519.prime)).le

theorem stepN_rep {k x_1 t : Nat} {n s} (h : RepN n s) : RepN (stepN k x_1 n t) (step k x_1 s t) := by
  obtain ⟨h1, h2, h3, h4, h5, h6, h7⟩ := h
  obtain ⟨x2, z2, x3, z3, sw⟩ := n
  obtain ⟨x2', z2', x3', z3', sw'⟩ := s
  dsimp only at h1 h2 h3 h4 h5 h6 h7
  subst h1 h2 h3 h4 h5
  cases hs : sw ^^ k.testBit t <;> simp only [stepN, step, cswap, hs, if_true, Bool.false_eq_true, if_false]
  · refine ⟨?_, ?_, ?_, ?_, rfl, mod_le _, mod_le _⟩ <;> dsimp only <;>
      simp only [cast_mod, Nat.cast_mul, Nat.cast_add, cast_neg h6, cast_neg h7, cast_neg (mod_le _), Nat.cast_ofNat] <;> ring
  · refine ⟨?_, ?_, ?_, ?_, rfl, mod_le _, mod_le _⟩ <;> dsimp only <;>
      simp only [cast_mod, Nat.cast_mul, Nat.cast_add, cast_neg h6, cast_neg h7, cast_neg (mod_le _), Nat.cast_ofNat] <;> ring

theorem foldN_rep {k x_1 : Nat} (l : List Nat) {n s} (h : RepN n s) :
    RepN (l.foldl (stepN k x_1) n) (l.foldl (step k x_1) s) := by
  induction l generalizing n s with
  | nil => exact h
  | cons t l ih => exact ih (stepN_rep h)

/-- The ladder on natural numbers -/
def ladderN (k u : Nat) : Nat :=
  let s := (List.range 255).reverse.foldl (stepN k u) (1, 0, u, 1, false)
  let x := if s.2.2.2.2 then s.2.2.1 else s.1
  let z := if s.2.2.2.2 then s.2.2.2.1 else s.2.1
  x * Prime25519.powMod p 255 z (p - 2) % p

theorem ladderN_eq (k u : Nat) : ((ladderN k u : Nat) : Fp) = ladder k u := by
  unfold ladderN ladder
  have h0 : RepN (1, 0, u, 1, false) { x_2 := 1, z_2 := 0, x_3 := (u : Fp), z_3 := 1, swap := false } :=
    ⟨Nat.cast_one, Nat.cast_zero, rfl, Nat.cast_one, rfl, Nat.zero_le _, (Nat.Prime.one_lt Prime25519.prime).le⟩
  generalize (List.range 255).reverse = l
  have h := foldN_rep (k := k) (x_1 := u) l h0
  generalize l.foldl (step k u) _ = s at h
  generalize l.foldl (stepN k u) _ = n at h
  obtain ⟨h1, h2, h3, h4, h5, -, -⟩ := h
  have hp : p - 2 < 2 ^ 255 := lt_of_le_of_lt (Nat.sub_le _ _) p_lt
  dsimp only
  rw [cast_mod, Nat.cast_mul, Prime25519.powMod_eq _ _ _ _ hp, cast_mod, Nat.cast_pow, h5]
  cases s.swap <;> simp only [cswap, if_true, Bool.false_eq_true, if_false, h1, h2, h3, h4]

/-- `X25519` by the ladder on natural numbers -/
theorem X25519_eq (k u : Rust.Bytes 32) : X25519 k u = Vector.ofFn fun i => UInt8.ofNat
    (ladderN (decodeScalar25519 k) (decodeLittleEndian (u.set 31 (u[31] &&& 0x7f))) % p / 2 ^ (8 * i.val)) := by
  unfold X25519 decodeUCoordinate encodeUCoordinate
  rw [← ladderN_eq, ZMod.val_natCast]

end Rfc7748
