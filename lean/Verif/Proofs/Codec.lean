import Verif.Proofs.Encode
import Verif.Proofs.Compress
import Verif.Proofs.NttSpec
/-! `ByteEncode` and `ByteDecode` are inverse; arrays and byte strings in equational form. -/
namespace MlKem
open Rust MInt Fips203 FieldElement

variable [Build]

omit [Build] in
theorem ByteEncode_length (d : Nat) (F : Fin 256 → Nat) : (ByteEncode d F).length = 32 * d := by
  simp [ByteEncode]

omit [Build] in
theorem bit_ByteEncode {d : Nat} (F : Fin 256 → Nat) {t : Nat} (ht : t < 256 * d) :
    bit (ByteEncode d F) t = (F (Fin.ofNat 256 (t / d))).testBit (t % d) := by
  have h8 : t / 8 < 32 * d := by omega
  have hm : t % 8 < 8 := Nat.mod_lt _ (by omega)
  rw [bit, List.getD_eq_getElem?_getD, ByteEncode, List.getElem?_ofFn, dif_pos h8, Option.getD_some,
    testBit_u8_ofNat _ hm, testBit_ofBits]
  simp only [hm, decide_true, Bool.true_and, Nat.div_add_mod]

omit [Build] in
theorem ByteDecode_ByteEncode {d : Nat} (h1 : 1 ≤ d) {F : Fin 256 → Nat} (hF : ∀ i, F i < decMod d)
    (h12 : d ≤ 12) : ByteDecode d (ByteEncode d F) = F := by
  funext i
  have hi := i.isLt
  have hFi := hF i
  have hpow : F i < 2 ^ d := by
    unfold decMod at hFi
    split at hFi
    · subst d; omega
    · exact hFi
  rw [ByteDecode]
  change _ % decMod d = _
  have : ofBits d (fun j => bit (ByteEncode d F) (i.val * d + j)) = F i := by
    rw [ofBits_congr (c := (F i).testBit), ofBits_testBit, Nat.mod_eq_of_lt hpow]
    intro s hs
    have hb : i.val * d + s < 256 * d := by
      have : (i.val + 1) * d ≤ 256 * d := Nat.mul_le_mul_right _ hi
      rw [Nat.add_mul] at this; omega
    rw [bit_ByteEncode F hb, Nat.mul_comm, Nat.mul_add_div h1, Nat.mul_add_mod,
      Nat.div_eq_of_lt hs, Nat.mod_eq_of_lt hs]
    simp
  rw [this, Nat.mod_eq_of_lt hFi]

omit [Build] in
theorem list_u8_ext {A B : List UInt8} (hl : A.length = B.length)
    (h : ∀ t, t < 8 * A.length → bit A t = bit B t) : A = B := by
  apply List.ext_getElem hl
  intro k hk hk2
  apply u8_ext
  intro s hs
  have := h (8 * k + s) (by omega)
  have e1 : (8 * k + s) / 8 = k := by omega
  have e2 : (8 * k + s) % 8 = s := by omega
  simpa [bit, e1, e2, List.getD_eq_getElem?_getD, hk, hk2] using this

omit [Build] in
/-- Decoding without the final reduction, then encoding, is the identity. -/
theorem ByteEncode_bits {d : Nat} (h1 : 1 ≤ d) {B : List UInt8} (hB : B.length = 32 * d) :
    ByteEncode d (fun i => ofBits d fun j => bit B (i.val * d + j)) = B := by
  apply list_u8_ext (by rw [ByteEncode_length, hB])
  intro t ht
  rw [ByteEncode_length] at ht
  have htd : t / d < 256 := Nat.div_lt_of_lt_mul (by rw [Nat.mul_comm]; omega)
  have hm : t % d < d := Nat.mod_lt _ h1
  rw [bit_ByteEncode _ (by omega), testBit_ofBits]
  simp only [hm, decide_true, Bool.true_and, Fin.val_ofNat, Nat.mod_eq_of_lt htd]
  rw [Nat.mul_comm, Nat.div_add_mod]

/-- The 12-bit values of a byte string -/
def raw12 (B : List UInt8) (i : Fin 256) : Nat := ofBits 12 fun j => bit B (i.val * 12 + j)

omit [Build] in
theorem ByteEncode_ByteDecode {d : Nat} (h1 : 1 ≤ d) (h12 : d ≠ 12) {B : List UInt8}
    (hB : B.length = 32 * d) : ByteEncode d (ByteDecode d B) = B := by
  have : ByteDecode d B = fun i => ofBits d fun j => bit B (i.val * d + j) := by
    funext i
    rw [ByteDecode, if_neg h12, Nat.mod_eq_of_lt (ofBits_lt _ _)]
  rw [this, ByteEncode_bits h1 hB]

omit [Build] in
theorem ByteDecode12 (B : List UInt8) (i : Fin 256) : ByteDecode 12 B i = raw12 B i % 3329 := by
  rw [ByteDecode, if_pos rfl, raw12]

omit [Build] in
theorem ByteEncode_ByteDecode12 {B : List UInt8} (hB : B.length = 384) :
    ByteEncode 12 (ByteDecode 12 B) = B ↔ ∀ i, raw12 B i < 3329 := by
  constructor
  · intro h i
    have h2 : ByteDecode 12 B i < 3329 := by rw [ByteDecode12]; exact Nat.mod_lt _ (by omega)
    have : raw12 B i = ByteDecode 12 B i := by
      have hi := i.isLt
      conv_lhs => rw [raw12, ← h]
      rw [ofBits_congr (c := (ByteDecode 12 B i).testBit), ofBits_testBit, Nat.mod_eq_of_lt (by omega)]
      intro s hs
      rw [bit_ByteEncode _ (by omega), show (i.val * 12 + s) / 12 = i.val by omega,
        show (i.val * 12 + s) % 12 = s by omega]
      simp
    rw [this]; exact h2
  · intro h
    have : ByteDecode 12 B = fun i => ofBits 12 fun j => bit B (i.val * 12 + j) := by
      funext i
      rw [ByteDecode12, Nat.mod_eq_of_lt (h i), raw12]
    rw [this, ByteEncode_bits (by omega) (by omega)]

omit [Build] in
theorem ByteDecode_lt (d : Nat) (B : List UInt8) (i : Fin 256) : ByteDecode d B i < decMod d := by
  rw [ByteDecode]
  change _ % decMod d < _
  apply Nat.mod_lt
  unfold decMod
  split
  · omega
  · exact Nat.two_pow_pos d

omit [Build] in
theorem ByteDecode_lt_pow {d : Nat} (B : List UInt8) (i : Fin 256) : ByteDecode d B i < 2 ^ d := by
  have := ByteDecode_lt d B i
  unfold decMod at this
  split at this
  · subst d; omega
  · exact this

omit [Build] in
theorem ByteEncode_inj {d : Nat} (h1 : 1 ≤ d) (h12 : d ≤ 12) {F G : Fin 256 → Nat}
    (hF : ∀ i, F i < decMod d) (hG : ∀ i, G i < decMod d) (h : ByteEncode d F = ByteEncode d G) :
    F = G := by
  rw [← ByteDecode_ByteEncode h1 hF h12, h, ByteDecode_ByteEncode h1 hG h12]

/-! ### Byte strings of known length as arrays -/

/-- The array with the bytes of `l` -/
def bytesOf {n : Nat} (l : List UInt8) : Bytes n := Vector.ofFn fun i => l.getD i.val 0

omit [Build] in
theorem toList_bytesOf {n : Nat} {l : List UInt8} (h : l.length = n) :
    (bytesOf l : Bytes n).toList = l := by
  apply List.ext_getElem
  · simp [h]
  · intro i h1 h2
    simp [bytesOf, List.getD_eq_getElem?_getD, h2]

omit [Build] in
theorem bytesOf_toList {n : Nat} (b : Bytes n) : bytesOf b.toList = b := by
  ext i hi
  simp [bytesOf, List.getD_eq_getElem?_getD]

omit [Build] in
theorem eq_bytesOf {n : Nat} {b : Bytes n} {l : List UInt8} (h : b.toList = l) : b = bytesOf l := by
  rw [← h, bytesOf_toList]

omit [Build] in
theorem bytesOf_inj {n : Nat} {l m : List UInt8} (hl : l.length = n) (hm : m.length = n)
    (h : (bytesOf l : Bytes n) = bytesOf m) : l = m := by
  rw [← toList_bytesOf hl, h, toList_bytesOf hm]

omit [Build] in
theorem bytes_ext {n : Nat} {a b : Bytes n} (h : a.toList = b.toList) : a = b := by
  rw [← bytesOf_toList a, h, bytesOf_toList]

/-! ### Coefficient arrays given by natural numbers -/

/-- The coefficient array with the given numbers -/
def rawVec (F : Fin 256 → Nat) : DecodedValue := Vector.ofFn fun i => ofN (F i)

omit [Build] in
theorem rawVec_getElem (F : Fin 256 → Nat) {i : Nat} (h : i < 256) :
    (rawVec F)[i] = ofN (F ⟨i, h⟩) := by simp [rawVec]

omit [Build] in
theorem polyVec_eq_rawVec (f : Poly) : polyVec f = rawVec (rep f) := by
  ext1 i hi
  rw [polyVec_getElem, rawVec_getElem, ofZ_eq_ofN]; rfl

omit [Build] in
theorem rawVec_eq_polyVec {F : Fin 256 → Nat} (h : ∀ i, F i < 3329) :
    rawVec F = polyVec (ofNats F) := by
  ext1 i hi
  rw [polyVec_getElem, rawVec_getElem, ofZ_eq_ofN, ofNats, ZMod.val_natCast, Nat.mod_eq_of_lt (h _)]

attribute [irreducible] rawVec

theorem byte_encode_raw {D : Nat} (h1 : 1 ≤ D) (h2 : D ≤ 12) {F : Fin 256 → Nat}
    (hF : ∀ i, F i < 2 ^ D) : byte_encode D (rawVec F) = .ok (bytesOf (ByteEncode D F)) := by
  have hpow : (2 : Nat) ^ D ≤ 2 ^ 12 := Nat.pow_le_pow_right (by omega) h2
  have hv : ∀ i : Fin 256, (rawVec F)[i].val.toNat = F i := by
    intro i
    have := hF i
    rw [Fin.getElem_fin, rawVec_getElem]
    exact ofN_val (n := F i) (by omega)
  obtain ⟨b, hb1, hb2⟩ := byte_encode_ok h1 h2 (rawVec F) (fun i => by rw [hv]; exact hF i)
  rw [hb1]
  congr 1
  apply eq_bytesOf
  rw [hb2]
  congr 1
  funext i
  exact hv i

theorem byte_decode_raw {D : Nat} (h1 : 1 ≤ D) (h2 : D ≤ 12) (b : EncodedPolynomial D) :
    byte_decode D b = .ok (rawVec (ByteDecode D b.toList)) := by
  rw [byte_decode_ok h1 h2]
  unfold rawVec
  rfl

theorem byte_encode_poly (f : Poly) : byte_encode 12 (polyVec f) = .ok (bytesOf (ByteEncode 12 (rep f))) := by
  rw [polyVec_eq_rawVec, byte_encode_raw (by omega) (by omega)]
  intro i
  have := zval_lt (f i)
  simp only [rep]; omega

theorem byte_decode_poly (b : EncodedPolynomial 12) :
    byte_decode 12 b = .ok (polyVec (ofNats (ByteDecode 12 b.toList))) := by
  rw [byte_decode_raw (by omega) (by omega), rawVec_eq_polyVec]
  intro i
  exact ByteDecode_lt 12 _ i

/-! ### Compression of polynomials -/

theorem poly_compress_ok {D : Nat} (h2 : D ≤ 12) (f : Poly) :
    Polynomial.compress D ⟨polyVec f⟩ = .ok ⟨rawVec fun i => Compress D (f i)⟩ := by
  unfold Polynomial.compress
  dsimp only
  rw [mapVec_ok (g := fun i => ofN (Compress D (f i)))]
  · unfold rawVec; rfl
  · intro i
    rw [Fin.getElem_fin, polyVec_getElem, compress_ok h2]

theorem poly_decompress_ok {D : Nat} (h1 : 1 ≤ D) (h2 : D ≤ 12) {F : Fin 256 → Nat}
    (hF : ∀ i, F i < 2 ^ D) :
    Polynomial.decompress D ⟨rawVec F⟩ = .ok ⟨polyVec fun i => Decompress D (F i)⟩ := by
  unfold Polynomial.decompress
  dsimp only
  rw [mapVec_ok (g := fun i => ofZ (Decompress D (F i)))]
  · rw [ofFn_eq_polyVec (fun i => Decompress D (F i))]; rfl
  · intro i
    rw [Fin.getElem_fin, rawVec_getElem, decompress_ok h1 h2 (hF i)]

end MlKem
