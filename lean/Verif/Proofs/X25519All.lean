import Verif.Proofs.Twist25519Count
/-! `X25519` on every string of 32 bytes, from the structure of the curve and its twist. -/
namespace Rfc7748

theorem decodeScalar_ge (k : Rust.Bytes 32) : 2 ^ 254 ≤ decodeScalar25519 k := by
  have key : ∀ b : Rust.Bytes 32, 64 ≤ b[31].toNat → 2 ^ 254 ≤ decodeLittleEndian b := by
    intro b hb
    have h := Finset.single_le_sum (f := fun i : Fin 32 => b[i].toNat * 2 ^ (8 * i.val))
      (fun _ _ => Nat.zero_le _) (Finset.mem_univ (31 : Fin 32))
    refine le_trans ?_ h
    show 2 ^ 254 ≤ b[31].toNat * 2 ^ (8 * 31)
    omega
  refine key _ ?_
  simp only [Vector.getElem_set_self]
  have : ∀ x : UInt8, 64 ≤ (x ||| 64).toNat := by
    intro x
    rw [UInt8.toNat_or]
    exact Nat.right_le_or
  exact this _

/-- The clamped scalar is 8 times a positive number less than the prime orders. -/
theorem clamped (k : Rust.Bytes 32) : ∃ m, decodeScalar25519 k = 8 * m ∧ 2 ^ 251 ≤ m ∧ m < 2 ^ 252 := by
  obtain ⟨m, hm⟩ := decodeScalar_dvd k
  have h1 := decodeScalar_ge k
  have h2 := decodeScalar_lt k
  exact ⟨m, hm, by omega, by omega⟩

theorem lt_order {m : Nat} (h : m < 2 ^ 252) : m < order :=
  h.trans_le (by decide +kernel)

theorem lt_twist {m : Nat} (h : m < 2 ^ 252) : m < twistOrder :=
  h.trans_le (by decide +kernel)

theorem encode_injective : Function.Injective encodeUCoordinate := fun a b h => by
  rw [← decode_encode a, h, decode_encode]

theorem encode_zero : encodeUCoordinate 0 = Vector.replicate 32 0 := by
  apply Vector.ext
  intro i hi
  simp [encodeUCoordinate]

/-- A point over the coordinate in the string -/
noncomputable def pt (b : Rust.Bytes 32) : EK.Point := over (decodeUCoordinate b)

theorem pt_isField (b : Rust.Bytes 32) : IsField (pt b) := ⟨_, uK_over _⟩

theorem isField_nsmul {P : EK.Point} (h : IsField P) (n : Nat) : IsField (n • P) := by
  rcases mem_of_isField h with h | h
  · exact isField_of_curve (nsmul_mem h n)
  · exact isField_of_twist (nsmul_mem h n)

theorem X_of {k b : Rust.Bytes 32} {P : EK.Point} (h : uK P = emb (decodeUCoordinate b)) :
    emb (decodeUCoordinate (X25519 k b)) = uK (decodeScalar25519 k • P) := by
  unfold X25519
  rw [decode_encode, ladder_uK (decodeScalar_lt k) (dvd_trans (by decide) (decodeScalar_dvd k)) h]

theorem X_pt (k b : Rust.Bytes 32) :
    emb (decodeUCoordinate (X25519 k b)) = uK (decodeScalar25519 k • pt b) := X_of (uK_over _)

/-- Equal results are equal coordinates. -/
theorem X_eq_iff {k k' b b' : Rust.Bytes 32} {P P' : EK.Point} (h : uK P = emb (decodeUCoordinate b))
    (h' : uK P' = emb (decodeUCoordinate b')) :
    X25519 k b = X25519 k' b' ↔ uK (decodeScalar25519 k • P) = uK (decodeScalar25519 k' • P') := by
  rw [← X_of h, ← X_of h']
  constructor
  · intro e
    rw [e]
  · intro e
    have := emb_inj e
    unfold X25519 at this
    rw [decode_encode, decode_encode] at this
    unfold X25519
    rw [this]

theorem X_zero_iff {k b : Rust.Bytes 32} {P : EK.Point} (h : uK P = emb (decodeUCoordinate b)) :
    X25519 k b = Vector.replicate 32 0 ↔ uK (decodeScalar25519 k • P) = 0 := by
  rw [← X_of h]
  constructor
  · intro e
    have : decodeUCoordinate (X25519 k b) = 0 := by
      rw [e, ← encode_zero, decode_encode]
    rw [this, map_zero]
  · intro e
    have := emb_inj (e.trans (map_zero emb).symm)
    unfold X25519 at this
    rw [decode_encode] at this
    unfold X25519
    rw [this, encode_zero]

/-- A clamped scalar takes a point to coordinate 0 only if the order of the point divides 8. -/
theorem clamped_zero (k : Rust.Bytes 32) {P : EK.Point} (hP : IsField P) :
    uK (decodeScalar25519 k • P) = 0 ↔ 8 • P = 0 := by
  obtain ⟨m, hm, h1, h2⟩ := clamped k
  rw [hm]
  constructor
  · intro h
    have := two_nsmul_of_uK h
    rw [← mul_nsmul, mul_comm] at this
    exact eight_of_nsmul hP (lt_of_lt_of_le (by decide +kernel) h1) (lt_order h2) this
  · intro h
    rw [mul_nsmul, h, nsmul_zero]
    rfl

theorem masked_lt (b : Rust.Bytes 32) : maskedInteger b < 2 ^ 255 := by
  refine decode_lt ?_
  simp only [Vector.getElem_set_self]
  have : ∀ x : UInt8, (x &&& 0x7f).toNat < 128 := by
    intro x
    rw [UInt8.toNat_and]
    exact Nat.and_lt_two_pow (n := 7) _ (by decide)
  exact this _

theorem masked_cast (b : Rust.Bytes 32) : decodeUCoordinate b = ((maskedInteger b : Nat) : Fp) := rfl

theorem masked_eq {b : Rust.Bytes 32} {n : Nat} (hn : n < p) (h : decodeUCoordinate b = (n : Fp)) :
    maskedInteger b = n ∨ maskedInteger b = n + p := by
  rw [masked_cast, ZMod.natCast_eq_natCast_iff', Nat.mod_eq_of_lt hn] at h
  have h1 := masked_lt b
  have h2 : 2 ^ 255 < 2 * p := by decide +kernel
  have h3 := Nat.div_add_mod (maskedInteger b) p
  rw [h] at h3
  have h4 : maskedInteger b / p < 2 := (Nat.div_lt_iff_lt_mul (by decide +kernel)).2 (by omega)
  interval_cases hq : maskedInteger b / p
  · left; omega
  · right; omega

theorem mem_smallOrder {b : Rust.Bytes 32} : maskedInteger b ∈ smallOrder ↔ 8 • pt b = 0 := by
  constructor
  · intro h
    have red : ∀ n m : Nat, n % p = m → maskedInteger b = n →
        (m = 0 ∨ m = 1 ∨ m = alpha1 ∨ m = alpha2 ∨ m = p - 1) → 8 • pt b = 0 := by
      intro n m hnm hb hm
      refine eight_of_small hm ?_
      rw [show uK (pt b) = emb (decodeUCoordinate b) from rfl, masked_cast, hb, ← hnm, cast_mod]
    simp only [smallOrder, List.mem_cons, List.not_mem_nil, or_false] at h
    rcases h with h | h | h | h | h | h | h
    · exact red _ 0 (by decide +kernel) h (by simp)
    · exact red _ 1 (by decide +kernel) h (by simp)
    · exact red _ alpha1 (by decide +kernel) h (by simp)
    · exact red _ alpha2 (by decide +kernel) h (by simp)
    · exact red _ (p - 1) (by decide +kernel) h (by simp)
    · exact red _ 0 (by decide +kernel) h (by simp)
    · exact red _ 1 (by decide +kernel) h (by simp)
  · intro h
    have hlt := masked_lt b
    have e : ∀ n : Nat, n < p → decodeUCoordinate b = (n : Fp) → n ∈ smallOrder →
        (2 ^ 255 ≤ n + p ∨ n + p ∈ smallOrder) → maskedInteger b ∈ smallOrder := by
      intro n hn hd hm hm'
      rcases masked_eq hn hd with h | h
      · rwa [h]
      · rcases hm' with h' | h'
        · omega
        · rwa [h]
    rcases small_order (uK_over _) h with h | h | h | h | h
    · exact e 0 (by decide +kernel) (by rw [h, Nat.cast_zero]) (by decide +kernel) (Or.inr (by decide +kernel))
    · exact e 1 (by decide +kernel) (by rw [h, Nat.cast_one]) (by decide +kernel) (Or.inr (by decide +kernel))
    · exact e alpha1 (by decide +kernel) h (by decide +kernel) (Or.inl (by decide +kernel))
    · exact e alpha2 (by decide +kernel) h (by decide +kernel) (Or.inl (by decide +kernel))
    · exact e (p - 1) (by decide +kernel) (by rw [h, minus_one_eq]) (by decide +kernel) (Or.inl (by decide +kernel))

/-- Clamped scalars do not distinguish more than 8-fold multiples do. -/
theorem clamped_eq (k : Rust.Bytes 32) {P P' : EK.Point} (hP : IsField P) (hP' : IsField P') :
    uK (decodeScalar25519 k • P) = uK (decodeScalar25519 k • P') ↔
      (8 • P : EK.Point) = 8 • P' ∨ (8 • P : EK.Point) = -(8 • P') := by
  obtain ⟨m, hm, h1, h2⟩ := clamped k
  have h0 : 0 < m := lt_of_lt_of_le (by decide +kernel) h1
  constructor
  · intro h
    by_cases hz : uK (decodeScalar25519 k • P) = 0
    · have h3 := (clamped_zero k hP).1 hz
      have h4 := (clamped_zero k hP').1 (h ▸ hz)
      exact Or.inl (h3.trans h4.symm)
    · -- the two points lie on the same one of the curve and the twist
      have hsame : ∀ ε : ℤ, decodeScalar25519 k • (P + ε • P') = 0 → IsField (P + ε • P') → 8 • (P + ε • P') = 0 := by
        intro ε h5 h6
        refine eight_of_nsmul h6 h0 (lt_order h2) ?_
        rw [mul_comm, mul_nsmul, ← hm, h5, nsmul_zero]
      have hmix : ∀ Q : EK.Point, uK Q = uK (decodeScalar25519 k • P) → Q ∈ curveGroup → Q ∈ twistGroup → False :=
        fun Q hQ ha hb => hz (hQ ▸ uK_zero_iff.2 (curve_inter_twist ha hb))
      have hgrp : ∀ ε : ℤ, decodeScalar25519 k • P = -(ε • (decodeScalar25519 k • P')) → IsField (P + ε • P') := by
        intro ε h5
        rcases mem_of_isField hP with ha | ha <;> rcases mem_of_isField hP' with hb | hb
        · exact isField_of_curve (add_mem ha (zsmul_mem hb ε))
        · exact (hmix _ rfl (nsmul_mem ha _) (h5 ▸ neg_mem (zsmul_mem (nsmul_mem hb _) ε))).elim
        · exact (hmix _ rfl (h5 ▸ neg_mem (zsmul_mem (nsmul_mem hb _) ε)) (nsmul_mem ha _)).elim
        · exact isField_of_twist (add_mem ha (zsmul_mem hb ε))
      have fin : ∀ ε : ℤ, decodeScalar25519 k • P = -(ε • (decodeScalar25519 k • P')) → 8 • (P + ε • P') = 0 := by
        intro ε h5
        refine hsame ε ?_ (hgrp ε h5)
        rw [nsmul_add, h5, smul_comm (decodeScalar25519 k) ε P', neg_add_cancel]
      rcases eq_or_neg h hz with h5 | h5
      · left
        have := fin (-1) (by rw [neg_one_zsmul, neg_neg, h5])
        rw [neg_one_zsmul, ← sub_eq_add_neg, nsmul_sub, sub_eq_zero] at this
        exact this
      · right
        have := fin 1 (by rw [one_zsmul, h5])
        rw [one_zsmul, nsmul_add, add_eq_zero_iff_eq_neg] at this
        exact this
  · rintro (h | h)
    · rw [hm, mul_nsmul, mul_nsmul, h]
    · rw [hm, mul_nsmul, mul_nsmul, h, neg_nsmul, uK_neg]

/-- The base point in the closure is over the encoding of 9. -/
theorem base_uK {b : Rust.Bytes 32} (h : decodeUCoordinate b = 9) : uK baseK = emb (decodeUCoordinate b) := by
  rw [h]
  show emb ((9 : Nat) : Fp) = emb 9
  rw [Nat.cast_ofNat]

theorem nsmul_eq_zero_of {P : EK.Point} {q : Nat} (hq : q.Prime) (h : q • P = 0) (h0 : P ≠ 0) {n : Nat}
    (hn : n • P = 0) : q ∣ n := by
  have := addOrderOf_dvd_of_nsmul_eq_zero h
  rcases (Nat.dvd_prime hq).1 this with h1 | h1
  · exact absurd (AddMonoid.addOrderOf_eq_one_iff.1 h1) h0
  · rw [← h1]
    exact addOrderOf_dvd_of_nsmul_eq_zero hn

/-- Two clamped scalars take a point of large order to the same coordinate only if they are equal or add up to 8 times
that order. -/
theorem scalars_eq {j k : Rust.Bytes 32} {P : EK.Point} {q : Nat} (hq : q.Prime) (hlo : 2 ^ 252 ≤ q)
    (h0 : 8 • P ≠ 0) (h : q • (8 • P) = 0) (hP : IsField P) :
    uK (decodeScalar25519 j • P) = uK (decodeScalar25519 k • P) ↔
      decodeScalar25519 j = decodeScalar25519 k ∨ decodeScalar25519 j + decodeScalar25519 k = 8 * q := by
  obtain ⟨m, hm, h1, h2⟩ := clamped j
  obtain ⟨n, hn, h3, h4⟩ := clamped k
  constructor
  · intro he
    have hz : uK (decodeScalar25519 j • P) ≠ 0 := fun hz => h0 ((clamped_zero j hP).1 hz)
    rw [hm, hn]
    rcases eq_or_neg he hz with h5 | h5
    · left
      rw [hm, hn, mul_nsmul, mul_nsmul] at h5
      have key : ∀ a b : Nat, a ≤ b → b < 2 ^ 252 → a • (8 • P) = b • (8 • P) → a = b := by
        intro a b hab hb e
        have : (b - a) • (8 • P) = 0 := by
          have e2 : b • (8 • P) = (b - a) • (8 • P) + a • (8 • P) := by rw [← add_nsmul, Nat.sub_add_cancel hab]
          rw [e2] at e
          exact (right_eq_add.1 e)
        have hd := nsmul_eq_zero_of hq h h0 this
        rcases Nat.eq_zero_or_pos (b - a) with h6 | h6
        · omega
        · have := Nat.le_of_dvd h6 hd
          omega
      rcases le_total m n with h6 | h6
      · rw [key m n h6 h4 h5]
      · rw [key n m h6 h2 h5.symm]
    · right
      rw [hm, hn, mul_nsmul, mul_nsmul] at h5
      have : (m + n) • (8 • P) = 0 := by rw [add_nsmul, h5, neg_add_cancel]
      obtain ⟨c, hc⟩ := nsmul_eq_zero_of hq h h0 this
      have hc2 : c < 2 := by
        by_contra h6
        have := Nat.mul_le_mul_left q (not_lt.1 h6)
        omega
      have hc0 : c ≠ 0 := by
        rintro rfl
        omega
      have : c = 1 := by omega
      subst this
      omega
  · rintro (h5 | h5)
    · rw [h5]
    · have h6 : (m + n) • (8 • P) = 0 := by
        have : m + n = q := by omega
        rw [this, h]
      rw [add_nsmul, add_eq_zero_iff_eq_neg] at h6
      rw [hm, hn, mul_nsmul, mul_nsmul, h6, uK_neg]

theorem eight_base : 8 • baseK ≠ 0 := by
  intro h
  have := addOrderOf_dvd_of_nsmul_eq_zero h
  rw [addOrderOf_base] at this
  revert this
  decide +kernel

theorem base_isField : IsField baseK := isField_of_curve baseK_mem

/-- Multiples of the base point by scalars below the order times 8 are not of small order. -/
theorem eight_multiple (k : Rust.Bytes 32) {P : EK.Point} (hP : IsField P) (h : 8 • P ≠ 0) :
    8 • (decodeScalar25519 k • P) ≠ 0 := by
  obtain ⟨m, hm, h1, h2⟩ := clamped k
  intro h3
  refine h ?_
  rw [hm, ← mul_nsmul] at h3
  rcases mem_of_isField hP with hP' | hP'
  · have h4 : order • (8 • P) = 0 := by rw [← mul_nsmul, curve_nsmul hP']
    by_contra h5
    have h6 : (8 * m) • (8 • P) = 0 := by rw [← mul_nsmul, mul_comm, h3]
    have := nsmul_eq_zero_of order_prime h4 h5 h6
    have hc : Nat.Coprime order 8 := by decide +kernel
    have := Nat.le_of_dvd (lt_of_lt_of_le (by decide +kernel) h1) (hc.dvd_of_dvd_mul_left this)
    have := lt_order h2
    omega
  · have h4 : twistOrder • (8 • P) = 0 := by
      rw [← mul_nsmul, show 8 * twistOrder = 4 * twistOrder * 2 by ring, mul_nsmul, twist_nsmul hP', nsmul_zero]
    by_contra h5
    have h6 : (8 * m) • (8 • P) = 0 := by rw [← mul_nsmul, mul_comm, h3]
    have := nsmul_eq_zero_of twist_prime h4 h5 h6
    have hc : Nat.Coprime twistOrder 8 := by decide +kernel
    have := Nat.le_of_dvd (lt_of_lt_of_le (by decide +kernel) h1) (hc.dvd_of_dvd_mul_left this)
    have := lt_twist h2
    omega

end Rfc7748
