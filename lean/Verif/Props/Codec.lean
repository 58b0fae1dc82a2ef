import Verif.Props.Repr
/-! C25-C28: byte encoding and compression. -/
namespace MlKem
open Rust Fips203 MInt
open FieldElement (ofN ofZ ofN_val zval_lt)

variable [Build]

/-! ### C25 -/

/-- Bit `t` of the bytes: byte `t / 8`, least significant bit first. -/
def bitOf {n : Nat} (b : Bytes n) (t : Nat) : Bool := (b.toList.getD (t / 8) 0).toNat.testBit (t % 8)

omit [Build] in
theorem bitOf_eq {n : Nat} (b : Bytes n) (t : Nat) : bitOf b t = bit b.toList t := rfl

omit [Build] in
theorem bit_encode {d : Nat} (F : Fin 256 → Nat) (i : Fin 256) {j : Nat} (hj : j < d) :
    bit (ByteEncode d F) (i.val * d + j) = (F i).testBit j := by
  have hlt : i.val * d + j < 256 * d := by
    have : (i.val + 1) * d ≤ 256 * d := Nat.mul_le_mul_right _ i.isLt
    rw [Nat.add_mul] at this; omega
  rw [bit_ByteEncode F hlt]
  have h1 : (i.val * d + j) / d = i.val := by
    rw [Nat.mul_comm, Nat.mul_add_div (by omega), Nat.div_eq_of_lt hj]; omega
  have h2 : (i.val * d + j) % d = j := by
    rw [Nat.mul_comm, Nat.mul_add_mod, Nat.mod_eq_of_lt hj]
  rw [h1, h2]
  congr 2
  exact Fin.ext (Nat.mod_eq_of_lt i.isLt)

/-- **C25** Encoding at width `d` puts bit `j` of coefficient `i` at bit `i*d+j`. -/
theorem C25_encode {d : Nat} (h1 : 1 ≤ d) (h12 : d ≤ 12) (f : Polynomial)
    (hf : ∀ i : Fin 256, f.coeffs[i].val.toNat < 2 ^ d) :
    ∃ b, Polynomial.encode d f = .ok b ∧
      ∀ (i : Fin 256) (j : Nat), j < d → bitOf b (i.val * d + j) = f.coeffs[i].val.toNat.testBit j := by
  obtain ⟨b, hb, hl⟩ := byte_encode_ok h1 h12 f.coeffs hf
  refine ⟨b, hb, fun i j hj => ?_⟩
  rw [bitOf_eq, hl, bit_encode _ i hj]

/-- **C25** Decoding reads exactly those bits; at width 12 (and only there) the value is then reduced
modulo 3329. -/
theorem C25_decode {d : Nat} (h1 : 1 ≤ d) (h12 : d ≤ 12) (b : EncodedPolynomial d) :
    ∃ f, Polynomial.decode d b = .ok f ∧
      ∀ i : Fin 256, ∃ raw, raw < 2 ^ d ∧
        (∀ j, j < d → raw.testBit j = bitOf b (i.val * d + j)) ∧
        f.coeffs[i].val.toNat = if d = 12 then raw % 3329 else raw := by
  refine ⟨⟨rawVec (ByteDecode d b.toList)⟩, by rw [Polynomial.decode, byte_decode_raw h1 h12]; rfl, ?_⟩
  intro i
  refine ⟨ofBits d fun j => bit b.toList (i.val * d + j), ofBits_lt _ _, ?_, ?_⟩
  · intro j hj
    rw [testBit_ofBits]; simp [hj, bitOf_eq]
  · have hlt := ByteDecode_lt_pow (d := d) b.toList i
    have hp : (2 : Nat) ^ d ≤ 2 ^ 12 := Nat.pow_le_pow_right (by omega) h12
    have : (rawVec (ByteDecode d b.toList))[i] = ofN (ByteDecode d b.toList i) :=
      rawVec_getElem _ i.isLt
    rw [this, ofN_val (by omega), ByteDecode]
    split
    · rfl
    · exact Nat.mod_eq_of_lt (ofBits_lt _ _)

omit [Build] in
theorem bit_block {d : Nat} (B : List UInt8) (c : Nat) {t : Nat} (ht : t < 256 * d) :
    bit (block d B c) t = bit B (c * (256 * d) + t) := by
  have h1 : (c * (256 * d) + t) / 8 = 32 * d * c + t / 8 := by
    rw [show c * (256 * d) = 8 * (32 * d * c) by ring, Nat.mul_add_div (by omega)]
  have h2 : (c * (256 * d) + t) % 8 = t % 8 := by
    rw [show c * (256 * d) = 8 * (32 * d * c) by ring, Nat.mul_add_mod]
  unfold bit block
  rw [h1, h2]
  congr 2
  rw [List.getD_eq_getElem?_getD, List.getD_eq_getElem?_getD, List.getElem?_take_of_lt (by omega),
    List.getElem?_drop]

omit [Build] in
theorem rv_eta {K : Nat} {v : PolynomialVector K} {F : Fin K → Fin 256 → Nat}
    (h : ∀ c, HoldsNat v.polys[c].coeffs (F c)) (hF : ∀ c i, F c i < 65536) : v = rv F := by
  obtain ⟨v⟩ := v
  unfold rv
  congr 1
  apply Vector.ext
  intro i hi
  have := (holdsNat_iff (hF ⟨i, hi⟩)).1 (h ⟨i, hi⟩)
  rw [Vector.getElem_ofFn, ← this]
  rfl

omit [Build] in
theorem rv_getElem {K : Nat} (F : Fin K → Fin 256 → Nat) (c : Fin K) :
    (rv F).polys[c].coeffs = rawVec (F c) := by simp [rv]

/-- **C25** for vectors: polynomial `c` occupies the bits from `256*d*c` on. -/
theorem C25_encode_vec {d K : Nat} (h1 : 1 ≤ d) (h12 : d ≤ 12) (v : PolynomialVector K)
    (hv : ∀ (c : Fin K) (i : Fin 256), v.polys[c].coeffs[i].val.toNat < 2 ^ d) :
    ∃ b, PolynomialVector.encode d v = .ok b ∧
      ∀ (c : Fin K) (i : Fin 256) (j : Nat), j < d →
        bitOf b (c.val * (256 * d) + (i.val * d + j)) = v.polys[c].coeffs[i].val.toNat.testBit j := by
  have hp : (2 : Nat) ^ d ≤ 2 ^ 12 := Nat.pow_le_pow_right (by omega) h12
  have hvr : v = rv fun c i => v.polys[c].coeffs[i].val.toNat :=
    rv_eta (fun c i => rfl) (fun c i => by have := hv c i; omega)
  refine ⟨bytesOf (encodeVec d fun c i => v.polys[c].coeffs[i].val.toNat), ?_, ?_⟩
  · conv_lhs => rw [hvr]
    exact rv_encode h1 h12 hv
  · intro c i j hj
    have hlt : i.val * d + j < 256 * d := by
      have : (i.val + 1) * d ≤ 256 * d := Nat.mul_le_mul_right _ i.isLt
      rw [Nat.add_mul] at this; omega
    rw [bitOf_eq, toList_bytesOf (by rw [encodeVec_length]), ← bit_block _ _ hlt]
    have := block_encodeVec d (fun (c : Fin K) i => v.polys[c].coeffs[i].val.toNat) [] c
    rw [List.append_nil] at this
    rw [this, bit_encode _ i hj]

/-- **C25** for vectors: decoding. -/
theorem C25_decode_vec {d K : Nat} (h1 : 1 ≤ d) (h12 : d ≤ 12) (b : EncodedPolynomialVector d K) :
    ∃ v, PolynomialVector.decode d b = .ok v ∧
      ∀ (c : Fin K) (i : Fin 256), ∃ raw, raw < 2 ^ d ∧
        (∀ j, j < d → raw.testBit j = bitOf b (c.val * (256 * d) + (i.val * d + j))) ∧
        v.polys[c].coeffs[i].val.toNat = if d = 12 then raw % 3329 else raw := by
  refine ⟨_, rv_decode h1 h12 b, ?_⟩
  intro c i
  refine ⟨ofBits d fun j => bit (block d b.toList c.val) (i.val * d + j), ofBits_lt _ _, ?_, ?_⟩
  · intro j hj
    have hlt : i.val * d + j < 256 * d := by
      have : (i.val + 1) * d ≤ 256 * d := Nat.mul_le_mul_right _ i.isLt
      rw [Nat.add_mul] at this; omega
    rw [testBit_ofBits, bit_block _ _ hlt]; simp [hj, bitOf_eq]
  · have hlt := ByteDecode_lt_pow (d := d) (block d b.toList c.val) i
    have hp : (2 : Nat) ^ d ≤ 2 ^ 12 := Nat.pow_le_pow_right (by omega) h12
    rw [rv_getElem]
    have : (rawVec (ByteDecode d (block d b.toList c.val)))[i]
        = ofN (ByteDecode d (block d b.toList c.val) i) := rawVec_getElem _ i.isLt
    rw [this, ofN_val (by omega), ByteDecode]
    split
    · rfl
    · exact Nat.mod_eq_of_lt (ofBits_lt _ _)

/-- The NTT-domain types use the same codec. -/
theorem C25_ntt_same (d : Nat) {K : Nat} :
    (∀ v : Vector FieldElement 256, NttPolynomial.encode d ⟨v⟩ = Polynomial.encode d ⟨v⟩) ∧
    (∀ (b : EncodedPolynomial d) v,
      NttPolynomial.decode d b = .ok ⟨v⟩ ↔ Polynomial.decode d b = .ok ⟨v⟩) ∧
    (∀ v : Fin K → Poly, NttVector.encode 12 (nv v) = PolynomialVector.encode 12 (pv v)) ∧
    (∀ (b : EncodedPolynomialVector 12 K) (v : Fin K → Poly),
      NttVector.decode 12 b = .ok (nv v) ↔ PolynomialVector.decode 12 b = .ok (pv v)) := by
  have hpr : ∀ v : Fin K → Poly, pv v = rv fun c => rep (v c) := by
    intro v
    unfold pv rv
    congr 1
    apply Vector.ext
    intro i hi
    simp [polyVec_eq_rawVec]
  refine ⟨fun _ => rfl, ?_, ?_, ?_⟩
  · intro b v
    unfold NttPolynomial.decode Polynomial.decode
    cases byte_decode d b <;> simp
  · intro v
    rw [nv_encode, hpr, rv_encode (by omega) (by omega)]
    intro i n
    have := zval_lt (v i n)
    show (v i n).val < _
    omega
  · intro b v
    rw [nv_decode, rv_decode (by omega) (by omega)]
    have : (rv fun i : Fin K => ByteDecode 12 (block 12 b.toList i.val))
        = pv fun i => ofNats (ByteDecode 12 (block 12 b.toList i.val)) := by
      unfold pv rv
      congr 1
      apply Vector.ext
      intro i hi
      rw [Vector.getElem_ofFn, Vector.getElem_ofFn, rawVec_eq_polyVec]
      intro n
      exact ByteDecode_lt 12 _ n
    rw [this]
    simp only [Res.ok.injEq]
    constructor
    · intro h; rw [nv_inj h]
    · intro h
      congr 1
      funext i
      have h2 : (pv fun i : Fin K => ofNats (ByteDecode 12 (block 12 b.toList i.val))).polys[i]
        = (pv v).polys[i] := by rw [h]
      simp only [pv, Fin.getElem_fin, Vector.getElem_ofFn, Polynomial.mk.injEq] at h2
      exact polyVec_inj h2

/-- Values in range for width 11 that use every bit position -/
example : ∀ i : Fin 256,
    (Vector.ofFn fun i : Fin 256 => (⟨UInt16.ofNat (2047 - i.val)⟩ : FieldElement))[i].val.toNat < 2 ^ 11 := by
  intro i
  simp only [Fin.getElem_fin, Vector.getElem_ofFn]
  rw [u16_toNat_ofNat (by omega)]
  omega

/-! ### C26 -/

/-- **C26** Decoding inverts encoding. -/
theorem C26_decode_encode {d : Nat} (h1 : 1 ≤ d) (h12 : d ≤ 12) (f : Polynomial)
    (hf : ∀ i : Fin 256, f.coeffs[i].val.toNat < if d = 12 then 3329 else 2 ^ d) :
    ∃ b, Polynomial.encode d f = .ok b ∧ Polynomial.decode d b = .ok f := by
  obtain ⟨v⟩ := f
  have hp : (2 : Nat) ^ d ≤ 2 ^ 12 := Nat.pow_le_pow_right (by omega) h12
  have hlt : ∀ i : Fin 256, v[i].val.toNat < 2 ^ d := by
    intro i
    have := hf i
    by_cases h : d = 12
    · subst h; simp only [if_true] at this; omega
    · simpa [h] using this
  have hv : v = rawVec fun i => v[i].val.toNat :=
    (holdsNat_iff fun i => by have := hlt i; omega).1 fun _ => rfl
  refine ⟨_, by rw [Polynomial.encode, hv]; exact byte_encode_raw h1 h12 hlt, ?_⟩
  rw [Polynomial.decode, byte_decode_raw h1 h12, toList_bytesOf (by rw [ByteEncode_length]; ring),
    ByteDecode_ByteEncode h1 hf h12, ← hv]
  rfl

/-- **C26** Below width 12 encoding inverts decoding, on every byte string. -/
theorem C26_encode_decode {d : Nat} (h1 : 1 ≤ d) (h12 : d < 12) (b : EncodedPolynomial d) :
    ∃ f, Polynomial.decode d b = .ok f ∧ Polynomial.encode d f = .ok b := by
  refine ⟨_, by rw [Polynomial.decode, byte_decode_raw h1 (by omega)]; rfl, ?_⟩
  rw [Polynomial.encode, byte_encode_raw h1 (by omega) (fun i => ByteDecode_lt_pow _ i),
    ByteEncode_ByteDecode h1 (by omega) (by simp [Nat.mul_comm]), bytesOf_toList]

/-- **C26** At width 12 encoding inverts decoding exactly on the byte strings whose 12-bit fields
are all below 3329. -/
theorem C26_encode_decode_12 (b : EncodedPolynomial 12) :
    ∃ f b', Polynomial.decode 12 b = .ok f ∧ Polynomial.encode 12 f = .ok b' ∧
      (b' = b ↔ ∀ i : Fin 256, ofBits 12 (fun j => bitOf b (i.val * 12 + j)) < 3329) := by
  refine ⟨_, _, by rw [Polynomial.decode, byte_decode_raw (by omega) (by omega)]; rfl,
    byte_encode_raw (by omega) (by omega) (fun i => ByteDecode_lt_pow _ i), ?_⟩
  have hl : b.toList.length = 384 := by simp
  rw [← show _ ↔ ∀ i : Fin 256, ofBits 12 (fun j => bitOf b (i.val * 12 + j)) < 3329 from
    ByteEncode_ByteDecode12 hl]
  constructor
  · intro h
    have := congrArg Vector.toList h
    rwa [toList_bytesOf (by rw [ByteEncode_length])] at this
  · intro h
    rw [h, bytesOf_toList]

/-- **C26** for vectors of any length. -/
theorem C26_decode_encode_vec {d K : Nat} (h1 : 1 ≤ d) (h12 : d ≤ 12) (v : PolynomialVector K)
    (hv : ∀ (c : Fin K) (i : Fin 256),
      v.polys[c].coeffs[i].val.toNat < if d = 12 then 3329 else 2 ^ d) :
    ∃ b, PolynomialVector.encode d v = .ok b ∧ PolynomialVector.decode d b = .ok v := by
  have hp : (2 : Nat) ^ d ≤ 2 ^ 12 := Nat.pow_le_pow_right (by omega) h12
  have hlt : ∀ (c : Fin K) (i : Fin 256), v.polys[c].coeffs[i].val.toNat < 2 ^ d := by
    intro c i
    have := hv c i
    by_cases h : d = 12
    · subst h; simp only [if_true] at this; omega
    · simpa [h] using this
  have hvr : v = rv fun c i => v.polys[c].coeffs[i].val.toNat :=
    rv_eta (fun c i => rfl) (fun c i => by have := hlt c i; omega)
  refine ⟨_, by conv_lhs => rw [hvr]
                exact rv_encode h1 h12 hlt, ?_⟩
  rw [rv_decode h1 h12, toList_bytesOf (by rw [encodeVec_length])]
  conv_rhs => rw [hvr]
  congr 2
  funext c
  have := block_encodeVec d (fun (c : Fin K) i => v.polys[c].coeffs[i].val.toNat) [] c
  rw [List.append_nil] at this
  rw [this, ByteDecode_ByteEncode h1 (hv c) h12]

theorem C26_encode_decode_vec {d K : Nat} (h1 : 1 ≤ d) (h12 : d < 12) (b : EncodedPolynomialVector d K) :
    ∃ v, PolynomialVector.decode d b = .ok v ∧ PolynomialVector.encode d v = .ok b := by
  obtain ⟨v, hv, hbits⟩ := C25_decode_vec h1 (by omega) b
  have hlt : ∀ (c : Fin K) (i : Fin 256), v.polys[c].coeffs[i].val.toNat < 2 ^ d := by
    intro c i
    obtain ⟨raw, hr, -, he⟩ := hbits c i
    rw [if_neg (by omega)] at he
    omega
  obtain ⟨b', hb', hbits'⟩ := C25_encode_vec h1 (by omega) v hlt
  refine ⟨v, hv, ?_⟩
  rw [hb']
  congr 1
  apply bytes_ext
  apply list_u8_ext (by simp)
  intro t ht
  simp only [Vector.length_toList] at ht
  have hd : 0 < 256 * d := by omega
  have hc : t / (256 * d) < K := by
    apply Nat.div_lt_of_lt_mul
    calc t < 8 * (d * 32 * K) := ht
      _ = 256 * d * K := by ring
  have hi : t % (256 * d) / d < 256 := by
    apply Nat.div_lt_of_lt_mul
    calc t % (256 * d) < 256 * d := Nat.mod_lt _ hd
      _ = d * 256 := by ring
  have hj : t % (256 * d) % d < d := Nat.mod_lt _ (by omega)
  have e : t = t / (256 * d) * (256 * d) + (t % (256 * d) / d * d + t % (256 * d) % d) := by
    rw [Nat.div_add_mod', Nat.div_add_mod']
  have a1 := hbits' ⟨_, hc⟩ ⟨_, hi⟩ _ hj
  obtain ⟨raw, hr, hb2, he⟩ := hbits ⟨_, hc⟩ ⟨_, hi⟩
  have a2 := hb2 _ hj
  rw [if_neg (by omega)] at he
  rw [he, a2] at a1
  simp only [bitOf_eq] at a1
  rw [← e] at a1
  exact a1

/-- A byte string that is not canonical at width 12: all bits set -/
example : ∀ i : Fin 256,
    ¬ ofBits 12 (fun j => bitOf (Vector.replicate 384 255 : EncodedPolynomial 12) (i.val * 12 + j)) < 3329 := by
  intro i
  have : ofBits 12 (fun j => bitOf (Vector.replicate 384 255 : EncodedPolynomial 12) (i.val * 12 + j))
      = ofBits 12 (fun j => true) := by
    apply ofBits_congr
    intro j hj
    have h : (i.val * 12 + j) / 8 < 384 := by omega
    have h8 : (i.val * 12 + j) % 8 < 8 := by omega
    unfold bitOf
    rw [Vector.toList_replicate, List.getD_eq_getElem?_getD, List.getElem?_replicate, if_pos h]
    generalize (i.val * 12 + j) % 8 = r at h8
    revert r
    decide
  rw [this]
  decide

/-! ### C27 -/

/-- **C27** `compress` rounds to nearest, ties up, modulo `2^d`. -/
theorem C27_compress {d : Nat} (h12 : d ≤ 12) (x : FieldElement) (hx : x.val.toNat < 3329) :
    ∃ y, x.compress d = .ok y ∧
      (y.val.toNat : ℤ) = round ((2 ^ d : ℚ) / 3329 * x.val.toNat) % 2 ^ d := by
  have hp : (2 : Nat) ^ d ≤ 2 ^ 12 := Nat.pow_le_pow_right (by omega) h12
  have hxz : x = ofZ (x.val.toNat : Zq) := by
    show x = ⟨UInt16.ofNat (x.val.toNat : Zq).val⟩
    rw [ZMod.val_natCast, Nat.mod_eq_of_lt hx, UInt16.ofNat_toNat]
  have hz : ((x.val.toNat : Zq)).val = x.val.toNat := by
    rw [ZMod.val_natCast, Nat.mod_eq_of_lt hx]
  refine ⟨ofN (Compress d (x.val.toNat : Zq)), ?_, ?_⟩
  · conv_lhs => rw [hxz]
    exact compress_ok h12 _
  · have hl := Compress_lt d (x.val.toNat : Zq)
    rw [ofN_val (by omega), Compress, hz]
    apply Int.toNat_of_nonneg
    exact Int.emod_nonneg _ (by positivity)

/-- **C27** `decompress` rounds to nearest, ties up. -/
theorem C27_decompress {d : Nat} (h1 : 1 ≤ d) (h12 : d ≤ 12) (y : FieldElement)
    (hy : y.val.toNat < 2 ^ d) :
    ∃ x, y.decompress d = .ok x ∧ x.val.toNat < 3329 ∧
      (x.val.toNat : ℤ) = round ((3329 : ℚ) / 2 ^ d * y.val.toNat) := by
  have hlt := decompressN_lt h1 h12 hy
  refine ⟨_, decompress_raw h1 h12 y, ?_, ?_⟩
  · rw [ofN_val (by omega)]; exact hlt
  · rw [ofN_val (by omega)]
    have e : (3329 : ℚ) / 2 ^ d * y.val.toNat = ((3329 * y.val.toNat : Nat) : ℚ) / ((2 ^ d : Nat) : ℚ) := by
      push_cast; ring
    rw [e, round_div _ _ (Nat.two_pow_pos _)]
    obtain ⟨k, rfl⟩ : ∃ k, d = k + 1 := ⟨d - 1, by omega⟩
    simp only [Nat.add_sub_cancel]
    have : 2 * (3329 * y.val.toNat) + 2 ^ (k + 1) = 2 * (3329 * y.val.toNat + 2 ^ k) := by ring
    rw [this, Nat.mul_div_mul_left _ _ (by omega)]

/-- **C27** No 16-bit input makes either operation overflow. -/
theorem C27_no_overflow {d : Nat} (h1 : 1 ≤ d) (h12 : d ≤ 12) (x : FieldElement) :
    (∃ y, x.compress d = .ok y ∧ y.val.toNat < 2 ^ d) ∧ (∃ y, x.decompress d = .ok y) := by
  refine ⟨?_, _, decompress_raw h1 h12 x⟩
  have hx := x.val.toNat_lt
  have hpow : (2 : Nat) ^ d ≤ 2 ^ 12 := Nat.pow_le_pow_right (by omega) h12
  have hb : x.val.toNat * 2 ^ d ≤ 65535 * 2 ^ 12 := Nat.mul_le_mul (by omega) hpow
  unfold FieldElement.compress
  dsimp only
  have hc : toNat (cast x.val : UInt64) = x.val.toNat := by
    rw [toNat_cast_le (by simp), toNat_u16]
  rw [shl_ok (by simp only [bits_u64]; omega), hc]
  rw [Res.ok_bind]
  have t1 : toNat (ofNat (x.val.toNat * 2 ^ d) : UInt64) = x.val.toNat * 2 ^ d :=
    toNat_ofNat_lt (by simp only [bits_u64]; omega)
  rw [add_ok (by rw [t1, toNat_Q_HALF]; simp only [bits_u64]; omega), t1, toNat_Q_HALF]
  rw [Res.ok_bind]
  have t2 : toNat (ofNat (x.val.toNat * 2 ^ d + 1665) : UInt64) = x.val.toNat * 2 ^ d + 1665 :=
    toNat_ofNat_lt (by simp only [bits_u64]; omega)
  rw [mul_ok (by rw [t2, toNat_DIV_MUL]; simp only [bits_u64]; omega)]
  rw [Res.ok_bind]
  rw [shr_ok (by simp [DIV_SHIFT])]
  rw [Res.ok_bind]
  rw [truncate_ok (by simp)]
  rw [Res.ok_bind]
  rw [truncate_ok (by simp)]
  rw [Res.ok_bind]
  have tK : toNat (MASK d) = 2 ^ d - 1 := by
    rw [MASK, Nat.one_shiftLeft]
    exact toNat_ofNat_lt (α := UInt16) (by simp only [bits_u16]; omega)
  refine ⟨_, rfl, ?_⟩
  show toNat (Rust.and _ (MASK d)) < _
  rw [Rust.and, tK, Nat.and_two_pow_sub_one_eq_mod]
  rw [toNat_ofNat]
  exact Nat.lt_of_le_of_lt (Nat.mod_le _ _) (Nat.mod_lt _ (Nat.two_pow_pos d))

/-- **C27** for whole polynomials and vectors: coefficient by coefficient. -/
theorem C27_vec {d K : Nat} (h1 : 1 ≤ d) (h12 : d ≤ 12) (F : Fin K → Poly)
    (E : Fin K → Fin 256 → Nat) (hE : ∀ c i, E c i < 2 ^ d) (v w : PolynomialVector K)
    (hv : VecHolds v F) (hw : ∀ c, HoldsNat w.polys[c].coeffs (E c)) :
    (∃ v', v.compress d = .ok v' ∧ ∀ c i, v'.polys[c].coeffs[i].val.toNat = Compress d (F c i)) ∧
    (∃ w', w.decompress d = .ok w' ∧ VecHolds w' fun c i => Decompress d (E c i)) := by
  have hpow : (2 : Nat) ^ d ≤ 2 ^ 12 := Nat.pow_le_pow_right (by omega) h12
  obtain rfl := vecHolds_iff.1 hv
  obtain rfl : w = rv E := rv_eta hw (fun c i => by have := hE c i; omega)
  refine ⟨⟨_, pv_compress h12 F, ?_⟩, ⟨_, rv_decompress h1 h12 hE, vecHolds_iff.2 rfl⟩⟩
  intro c i
  have := Compress_lt d (F c i)
  rw [rv_getElem]
  have e : (rawVec fun n => Compress d (F c n))[i] = ofN (Compress d (F c i)) :=
    rawVec_getElem _ i.isLt
  rw [e, ofN_val (by omega)]

/-- A tie-free case and the wrap-around at the top: 3328 is compressed to 0 at width 10. -/
example : FieldElement.compress 10 ⟨3328⟩ = .ok ⟨0⟩ ∧ FieldElement.compress 10 ⟨1000⟩ = .ok ⟨308⟩ ∧
    FieldElement.decompress 10 ⟨308⟩ = .ok ⟨1001⟩ := by
  rename Build => B
  obtain ⟨b, w, hw⟩ := B
  cases b <;> exact ⟨rfl, rfl, rfl⟩

/-! ### C28 -/

/-- **C28** Compression inverts decompression below width 12. -/
theorem C28_compress_decompress {d : Nat} (h1 : 1 ≤ d) (h11 : d < 12) (y : FieldElement)
    (hy : y.val.toNat < 2 ^ d) :
    ∃ x, y.decompress d = .ok x ∧ x.compress d = .ok y := by
  have he : y = ofN y.val.toNat := by
    show y = ⟨UInt16.ofNat y.val.toNat⟩
    rw [UInt16.ofNat_toNat]
  refine ⟨ofZ (Decompress d y.val.toNat), ?_, ?_⟩
  · conv_lhs => rw [he]
    exact decompress_ok h1 (by omega) hy
  · rw [compress_ok (by omega), Compress_Decompress h1 (by omega) hy, ← he]

/-- **C28** The other order loses at most `⌈3329/2^(d+1)⌋`: the result differs from `x` by a multiple
of 3329 plus an `e` of at most that absolute value. -/
theorem C28_decompress_compress {d : Nat} (h1 : 1 ≤ d) (h11 : d < 12) (x : FieldElement)
    (hx : x.val.toNat < 3329) :
    ∃ y x', x.compress d = .ok y ∧ y.decompress d = .ok x' ∧ x'.val.toNat < 3329 ∧
      ∃ e : ℤ, |e| ≤ round ((3329 : ℚ) / 2 ^ (d + 1)) ∧
        (x'.val.toNat : ℤ) ≡ x.val.toNat + e [ZMOD 3329] := by
  have hxz : x = ofZ (x.val.toNat : Zq) := by
    show x = ⟨UInt16.ofNat (x.val.toNat : Zq).val⟩
    rw [ZMod.val_natCast, Nat.mod_eq_of_lt hx, UInt16.ofNat_toNat]
  set X : Zq := (x.val.toNat : Zq) with hX
  have hv : (ofZ (Decompress d (Compress d X))).val.toNat = (Decompress d (Compress d X)).val :=
    ofN_val (by have := zval_lt (Decompress d (Compress d X)); omega)
  refine ⟨_, _, by conv_lhs => rw [hxz]
                   exact compress_ok (by omega) X,
    decompress_ok h1 (by omega) (Compress_lt d X), ?_, cmod (Decompress d (Compress d X) - X),
    Decompress_Compress h1 (by omega) X, ?_⟩
  · rw [hv]; exact zval_lt _
  · rw [hv]
    refine (ZMod.intCast_eq_intCast_iff _ _ 3329).1 ?_
    push_cast
    rw [cmod_cast, ZMod.natCast_val, ZMod.cast_id', id, ← hX]
    ring

/-- **C28** does not extend to width 12: compression after decompression is not the identity there
(4096 codes, 3329 values), which is why the code never compresses at 12 bits. -/
theorem C28_width_12 : ∃ y x : FieldElement, y.val.toNat < 2 ^ 12 ∧ y.decompress 12 = .ok x ∧
    x.compress 12 ≠ .ok y := by
  have h : FieldElement.decompress 12 ⟨3⟩ = .ok ⟨2⟩ ∧ FieldElement.compress 12 ⟨2⟩ = .ok ⟨2⟩ := by
    rename Build => B
    obtain ⟨b, w, hw⟩ := B
    cases b <;> exact ⟨rfl, rfl⟩
  exact ⟨⟨3⟩, ⟨2⟩, by decide, h.1, fun e => absurd (h.2.symm.trans e) (by decide)⟩

example : FieldElement.decompress 4 ⟨11⟩ = .ok ⟨2289⟩ ∧ FieldElement.compress 4 ⟨2289⟩ = .ok ⟨11⟩ ∧
    round ((3329 : ℚ) / 2 ^ 5) = 104 := by
  rename Build => B
  obtain ⟨b, w, hw⟩ := B
  cases b <;> exact ⟨rfl, rfl, by norm_num [round_eq]⟩

end MlKem
