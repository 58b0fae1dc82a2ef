import Verif.Model.Encode
import Verif.Proofs.Bits
import Verif.Proofs.Field
import Mathlib.Tactic.IntervalCases
/-! The byte codec computes `ByteEncode` and `ByteDecode` of FIPS 203, for every width 1..12. -/
namespace MlKem
open Rust MInt Fips203 FieldElement

variable [Build]

omit [Build] in
/-- The size arithmetic of one encoding unit -/
theorem unit_facts {D : Nat} (h1 : 1 ≤ D) (h2 : D ≤ 12) :
    ∃ n, ValueStep D * n = 256 ∧ ByteStep D * n = D * 32 ∧ D * ValueStep D = 8 * ByteStep D ∧
      ByteStep D ≤ 16 ∧ 0 < ValueStep D ∧ 0 < ByteStep D ∧ ValueStep D ≤ 256 := by
  interval_cases D
  · exact ⟨32, by decide⟩
  · exact ⟨64, by decide⟩
  · exact ⟨32, by decide⟩
  · exact ⟨128, by decide⟩
  · exact ⟨32, by decide⟩
  · exact ⟨64, by decide⟩
  · exact ⟨32, by decide⟩
  · exact ⟨256, by decide⟩
  · exact ⟨32, by decide⟩
  · exact ⟨64, by decide⟩
  · exact ⟨32, by decide⟩
  · exact ⟨128, by decide⟩

/-- Bit `t` of a list of `D`-bit values -/
def valBit (D : Nat) (v : List FieldElement) (t : Nat) : Bool :=
  (v.getD (t / D) ⟨0⟩).val.toNat.testBit (t % D)

theorem packChunk_ok {D : Nat} {v : List FieldElement} (hD : 0 < D) (hlen : D * v.length ≤ 128)
    (hv : ∀ x ∈ v, x.val.toNat < 2 ^ D) :
    ∃ x, packChunk D v = .ok x ∧
      ∀ t, t < D * v.length → (BitVec.toNat x).testBit t = valBit D v t := by
  obtain ⟨s', h1, h2⟩ := forEach_list_inv v.zipIdx (init := (0 : U128))
    (body := fun x (vj, j) => do
      .ok (Rust.or x (← Rust.shl (cast vj.val : U128) (← mulUsize D j))))
    (fun i s => ∀ t, (BitVec.toNat s).testBit t = (decide (t < D * i) && valBit D v t))
    (by intro t; simp)
    (by
      intro i hi s hI
      rw [List.length_zipIdx] at hi
      simp only [List.getElem_zipIdx, Nat.zero_add]
      have hDi : D * i + D ≤ 128 := by
        have : D * (i + 1) ≤ D * v.length := Nat.mul_le_mul_left _ hi
        rw [Nat.mul_add] at this; omega
      have hvi : v[i].val.toNat < 2 ^ D := hv _ (List.getElem_mem _)
      have hc : toNat (cast v[i].val : U128) = v[i].val.toNat := by
        have := v[i].val.toNat_lt
        rw [toNat_cast, toNat_u16]; simp only [bits_u128]
        exact Nat.mod_eq_of_lt (by omega)
      rw [mulUsize_ok (by omega), Res.ok_bind, shl_ok (by simp only [bits_u128]; omega), hc]
      refine ⟨_, rfl, ?_⟩
      have hlt : v[i].val.toNat * 2 ^ (D * i) < 2 ^ 128 := by
        calc v[i].val.toNat * 2 ^ (D * i) < 2 ^ D * 2 ^ (D * i) :=
              Nat.mul_lt_mul_of_pos_right hvi (Nat.two_pow_pos _)
          _ = 2 ^ (D * i + D) := by rw [← Nat.pow_add, Nat.add_comm]
          _ ≤ 2 ^ 128 := Nat.pow_le_pow_right (by omega) hDi
      intro t
      rw [← toNat_u128, toNat_or, toNat_ofNat_lt (by simpa using hlt), Nat.testBit_or, toNat_u128, hI,
        Nat.testBit_mul_two_pow]
      by_cases c1 : t < D * i
      · have c2 : t < D * (i + 1) := by rw [Nat.mul_add]; omega
        have c3 : ¬ D * i ≤ t := by omega
        simp [c1, c2, c3]
      · by_cases c2 : t < D * (i + 1)
        · have c3 : D * i ≤ t := by omega
          rw [Nat.mul_add] at c2
          have e : t = D * i + (t - D * i) := by omega
          have e1 : t / D = i := by
            rw [e, Nat.mul_add_div hD, Nat.div_eq_of_lt (by omega)]; omega
          have e2 : t % D = t - D * i := by
            conv_lhs => rw [e, Nat.mul_add_mod, Nat.mod_eq_of_lt (by omega)]
          have c2' : t < D * (i + 1) := by rw [Nat.mul_add]; omega
          simp [c1, c2', c3, valBit, e1, e2, List.getD_eq_getElem?_getD, hi]
        · have c3 : D * i ≤ t := by omega
          rw [Nat.mul_add] at c2
          have c2' : ¬ t < D * (i + 1) := by rw [Nat.mul_add]; omega
          have : v[i].val.toNat.testBit (t - D * i) = false :=
            Nat.testBit_lt_two_pow (Nat.lt_of_lt_of_le hvi
              (Nat.pow_le_pow_right (by omega) (by omega)))
          simp [c1, c2', c3, this])
  refine ⟨s', h1, fun t ht => ?_⟩
  rw [h2 t, List.length_zipIdx]
  simp [ht]

/-- Byte `k` of the packed bits of `v` -/
def packByte (D : Nat) (v : List FieldElement) (k : Nat) : UInt8 :=
  UInt8.ofNat (ofBits 8 fun s => valBit D v (8 * k + s))

theorem encodeChunk_ok {D : Nat} {v : List FieldElement} {b : List UInt8} (hD : 0 < D)
    (hB : ByteStep D ≤ 16) (hV : D * v.length = 8 * ByteStep D) (hb : b.length = ByteStep D)
    (hv : ∀ x ∈ v, x.val.toNat < 2 ^ D) :
    encodeChunk D v b = .ok ((List.range (ByteStep D)).map (packByte D v)) := by
  obtain ⟨x, h1, h2⟩ := packChunk_ok hD (by omega) hv
  unfold encodeChunk
  dsimp only
  rw [h1]
  simp only [Res.ok_bind]
  have hlen : (U128.toLeBytes x).toList.length = 16 := by simp
  rw [if_pos (by rw [hlen]; exact hB)]
  simp only [copyFromSlice]
  rw [if_pos (by rw [List.length_take, hlen, hb]; omega)]
  congr 1
  apply List.ext_getElem
  · rw [List.length_take, hlen]; simp; omega
  · intro k hk _
    rw [List.length_take, hlen] at hk
    simp only [List.getElem_take, Vector.getElem_toList, U128.toLeBytes, Vector.getElem_ofFn,
      List.getElem_map, List.getElem_range]
    apply u8_ext
    intro s hs
    rw [testBit_u8_ofNat _ hs, packByte, testBit_u8_ofNat _ hs, testBit_ofBits,
      Nat.testBit_shiftRight, h2 _ (by omega)]
    simp [hs]

theorem byte_encode_ok {D : Nat} (h1 : 1 ≤ D) (h2 : D ≤ 12) (vals : DecodedValue)
    (hv : ∀ i : Fin 256, vals[i].val.toNat < 2 ^ D) :
    ∃ b, byte_encode D vals = .ok b ∧ b.toList = ByteEncode D (fun i => vals[i].val.toNat) := by
  obtain ⟨n, hVn, hBn, hDV, hB16, hV0, hB0, hV256⟩ := unit_facts h1 h2
  unfold byte_encode
  dsimp only
  rw [chunks_eq (n := n) hV0 (by rw [Vector.length_toList, hVn]),
    chunks_eq (n := n) hB0 (by rw [Vector.length_toList, hBn]), List.zip_map',
    mapM_ok (g := fun vb => (List.range (ByteStep D)).map (packByte D vb.1)), List.map_map]
  rotate_left
  · rintro ⟨v, b⟩ hvb
    simp only [List.mem_map, List.mem_range, Prod.mk.injEq] at hvb
    obtain ⟨c, hc, rfl, rfl⟩ := hvb
    have hcV : c * ValueStep D + ValueStep D ≤ 256 := by
      have : ValueStep D * (c + 1) ≤ ValueStep D * n := Nat.mul_le_mul_left _ hc
      rw [Nat.mul_add, Nat.mul_comm] at this; omega
    have hcB : c * ByteStep D + ByteStep D ≤ EncodedPolynomialSize D := by
      change _ ≤ D * 32
      have : ByteStep D * (c + 1) ≤ ByteStep D * n := Nat.mul_le_mul_left _ hc
      rw [Nat.mul_add, Nat.mul_comm] at this; omega
    refine encodeChunk_ok h1 hB16 ?_ ?_ ?_
    · rw [List.length_take, List.length_drop, Vector.length_toList, Nat.min_eq_left (by omega)]
      exact hDV
    · rw [List.length_take, List.length_drop, Vector.length_toList, Nat.min_eq_left (by omega)]
    · intro x hx
      have hx2 := List.mem_of_mem_drop (List.mem_of_mem_take hx)
      rw [Vector.mem_toList_iff, Vector.mem_iff_getElem] at hx2
      obtain ⟨i, hi, rfl⟩ := hx2
      exact hv ⟨i, hi⟩
  simp only [Res.ok_bind]
  set g : Nat → List UInt8 := ((fun vb : List FieldElement × List UInt8 =>
      (List.range (ByteStep D)).map (packByte D vb.1)) ∘ fun x =>
        ((vals.toList.drop (x * ValueStep D)).take (ValueStep D),
          ((Vector.replicate (D * 32) (0 : UInt8)).toList.drop (x * ByteStep D)).take (ByteStep D)))
    with hg
  have hgl : ∀ c, c < n → (g c).length = ByteStep D := by
    intro c _; simp [hg]
  have hlen : ((List.range n).map g).flatten.length = D * 32 := by
    rw [flatten_uniform_length n hgl, hBn]
  obtain ⟨b, hb1, hb2⟩ := arrayOfList_ok hlen
  refine ⟨b, hb1, ?_⟩
  rw [hb2]
  apply List.ext_getElem?
  intro k
  by_cases hk : k < D * 32
  · rw [flatten_uniform_getElem? n hgl (by rw [hBn]; exact hk)]
    have hkB : k % ByteStep D < ByteStep D := Nat.mod_lt _ hB0
    have hkn : k / ByteStep D < n := Nat.div_lt_of_lt_mul (by rw [hBn]; exact hk)
    have hk32 : k < 32 * D := by omega
    simp only [hg, Function.comp, List.getElem?_map, List.getElem?_range hkB, Option.map_some,
      ByteEncode, List.getElem?_ofFn, hk32, dif_pos]
    congr 1
    unfold packByte
    congr 1
    apply ofBits_congr
    intro s hs
    -- position arithmetic
    set c := k / ByteStep D with hc
    set r := k % ByteStep D with hr
    have hkcr : k = ByteStep D * c + r := (Nat.div_add_mod _ _).symm
    have e : 8 * k + s = D * (ValueStep D * c) + (8 * r + s) := by
      rw [hkcr, ← Nat.mul_assoc, hDV]; ring
    have hq : (8 * r + s) / D < ValueStep D := Nat.div_lt_of_lt_mul (by rw [hDV]; omega)
    have e1 : (8 * k + s) / D = ValueStep D * c + (8 * r + s) / D := by
      rw [e, Nat.mul_add_div h1]
    have e2 : (8 * k + s) % D = (8 * r + s) % D := by
      rw [e, Nat.mul_add_mod]
    have hcV : ValueStep D * c + ValueStep D ≤ 256 := by
      have : ValueStep D * (c + 1) ≤ ValueStep D * n := Nat.mul_le_mul_left _ hkn
      rw [Nat.mul_add] at this; omega
    have hlt : ValueStep D * c + (8 * r + s) / D < 256 := by omega
    rw [valBit, e1, e2]
    congr 2
    rw [List.getD_eq_getElem?_getD, List.getElem?_take_of_lt hq, List.getElem?_drop,
      Nat.mul_comm c]
    simp only [Vector.getElem?_toList, Fin.getElem_fin, Fin.ofNat, Nat.mod_eq_of_lt hlt]
    rw [Vector.getElem?_eq_getElem hlt]
    rfl
  · rw [List.getElem?_eq_none (by omega), List.getElem?_eq_none (by simp [ByteEncode]; omega)]

/-! ### Decoding -/

/-- The modulus of `ByteDecode` -/
def decMod (D : Nat) : Nat := if D = 12 then 3329 else 2 ^ D

theorem unpackValue_ok {D j : Nat} {x : U128} (_h1 : 1 ≤ D) (h2 : D ≤ 12) (hj : D * j < 128) :
    unpackValue D x j =
      .ok (ofN (ofBits D (fun s => (BitVec.toNat x).testBit (D * j + s)) % decMod D)) := by
  have hpow : (2 : Nat) ^ D ≤ 2 ^ 12 := Nat.pow_le_pow_right (by omega) h2
  have hpos : 0 < 2 ^ D := Nat.two_pow_pos D
  unfold unpackValue
  have t1 : toNat (1 : UInt16) = 1 := rfl
  rw [shl_ok (by simp only [bits_u16]; omega), t1, Nat.one_mul]
  simp only [Res.ok_bind]
  have t2 : toNat (ofNat (2 ^ D) : UInt16) = 2 ^ D := toNat_ofNat_lt (by simp only [bits_u16]; omega)
  rw [sub_ok (by rw [t1, t2]; omega), t1, t2]
  simp only [Res.ok_bind]
  rw [mulUsize_ok (by omega), Res.ok_bind, shr_ok (by simpa using hj)]
  simp only [Res.ok_bind]
  rw [truncate_ok (by simp)]
  simp only [Res.ok_bind]
  set val := Rust.and (ofNat (toNat (ofNat (toNat x / 2 ^ (D * j)) : U128)) : UInt16)
    (ofNat (2 ^ D - 1)) with hval
  have hN : toNat val = BitVec.toNat x / 2 ^ (D * j) % 2 ^ D := by
    rw [hval, toNat_and, toNat_ofNat_lt (n := 2 ^ D - 1) (by simp only [bits_u16]; omega),
      Nat.and_two_pow_sub_one_eq_mod, toNat_ofNat]
    have : toNat x / 2 ^ (D * j) < 2 ^ bits U128 :=
      Nat.lt_of_le_of_lt (Nat.div_le_self _ _) (toNat_lt x)
    rw [toNat_ofNat_lt this]
    simp only [bits_u16]
    rw [Nat.mod_mod_of_dvd _ (Nat.pow_dvd_pow 2 (by omega : D ≤ 16))]
    rfl
  have hB := ofBits_shift D (BitVec.toNat x) (D * j)
  rw [hB, ← hN]
  have hvlt : toNat val < 2 ^ D := by rw [hN]; exact Nat.mod_lt _ hpos
  by_cases h12 : D = 12
  · rw [if_pos h12]
    have hQ : toNat FieldElement.Q = 3329 := rfl
    simp only [Rust.rem, hQ, decMod, if_pos h12]
    rfl
  · rw [if_neg h12]
    simp only [decMod, if_neg h12, Nat.mod_eq_of_lt hvlt]
    congr 1
    simp only [ofN]
    congr 1
    exact (ofNat_toNat val).symm

theorem decodeChunk_ok {D : Nat} {v : List FieldElement} {b : List UInt8} (h1 : 1 ≤ D)
    (h2 : D ≤ 12) (hB : ByteStep D ≤ 16) (hV : D * v.length = 8 * ByteStep D)
    (hb : b.length = ByteStep D) :
    decodeChunk D v b = .ok ((List.range v.length).map fun j =>
      ofN (ofBits D (fun s => bit b (D * j + s)) % decMod D)) := by
  unfold decodeChunk
  dsimp only
  rw [if_pos hB, copyFromSlice, if_pos (by simp [hb])]
  simp only [Res.ok_bind]
  obtain ⟨xb, hx1, hx2⟩ := arrayOfList_ok (n := 16)
    (l := b ++ List.replicate (16 - ByteStep D) (0 : UInt8)) (by simp [hb]; omega)
  rw [hx1]
  simp only [Res.ok_bind]
  have hbit : ∀ t, t < 8 * ByteStep D →
      (BitVec.toNat (U128.fromLeBytes xb)).testBit t = bit b t := by
    intro t ht
    have hl := leValue_lt xb.toList
    rw [Vector.length_toList] at hl
    rw [U128.fromLeBytes, BitVec.toNat_ofNat, Nat.mod_eq_of_lt (by simpa using hl),
      testBit_leValue, hx2, bit, bit]
    congr 2
    have : t / 8 < b.length := by rw [hb]; omega
    rw [List.getD_append _ _ _ _ this]
  rw [mapM_ok (g := fun p => ofN (ofBits D (fun s => bit b (D * p.2 + s)) % decMod D))]
  · congr 1
    apply List.ext_getElem
    · simp
    · intro k _ _
      simp [List.getElem_zipIdx]
  · rintro ⟨y, j⟩ hj
    have hj' : j < v.length := by
      rw [List.mem_iff_getElem] at hj
      obtain ⟨i, hi, he⟩ := hj
      rw [List.getElem_zipIdx] at he
      simp only [Prod.mk.injEq] at he
      rw [List.length_zipIdx] at hi
      omega
    have hDj : D * j + D ≤ 8 * ByteStep D := by
      rw [← hV, ← Nat.mul_succ]; exact Nat.mul_le_mul_left _ hj'
    dsimp only
    rw [unpackValue_ok h1 h2 (by omega)]
    congr 3
    apply ofBits_congr
    intro s hs
    exact hbit _ (by omega)

theorem byte_decode_ok {D : Nat} (h1 : 1 ≤ D) (h2 : D ≤ 12) (b : EncodedPolynomial D) :
    byte_decode D b = .ok (Vector.ofFn fun i => ofN (ByteDecode D b.toList i)) := by
  obtain ⟨n, hVn, hBn, hDV, hB16, hV0, hB0, hV256⟩ := unit_facts h1 h2
  unfold byte_decode
  dsimp only
  rw [chunks_eq (n := n) hV0 (by rw [Vector.length_toList, hVn]),
    chunks_eq (n := n) hB0 (by rw [Vector.length_toList, hBn]), List.zip_map',
    mapM_ok (g := fun vb => (List.range (ValueStep D)).map fun j =>
      ofN (ofBits D (fun s => bit vb.2 (D * j + s)) % decMod D)), List.map_map]
  rotate_left
  · rintro ⟨v, b'⟩ hvb
    simp only [List.mem_map, List.mem_range, Prod.mk.injEq] at hvb
    obtain ⟨c, hc, rfl, rfl⟩ := hvb
    have hcV : c * ValueStep D + ValueStep D ≤ 256 := by
      have : ValueStep D * (c + 1) ≤ ValueStep D * n := Nat.mul_le_mul_left _ hc
      rw [Nat.mul_add, Nat.mul_comm] at this; omega
    have hcB : c * ByteStep D + ByteStep D ≤ EncodedPolynomialSize D := by
      change _ ≤ D * 32
      have : ByteStep D * (c + 1) ≤ ByteStep D * n := Nat.mul_le_mul_left _ hc
      rw [Nat.mul_add, Nat.mul_comm] at this; omega
    have hl : (((Vector.replicate 256 (⟨0⟩ : FieldElement)).toList.drop (c * ValueStep D)).take
        (ValueStep D)).length = ValueStep D := by
      rw [List.length_take, List.length_drop, Vector.length_toList, Nat.min_eq_left (by omega)]
    rw [decodeChunk_ok h1 h2 hB16 (by rw [hl]; exact hDV), hl]
    rw [List.length_take, List.length_drop, Vector.length_toList, Nat.min_eq_left (by omega)]
  simp only [Res.ok_bind]
  set g : Nat → List FieldElement := ((fun vb : List FieldElement × List UInt8 =>
      (List.range (ValueStep D)).map fun j =>
      ofN (ofBits D (fun s => bit vb.2 (D * j + s)) % decMod D)) ∘ fun x =>
        (((Vector.replicate 256 (⟨0⟩ : FieldElement)).toList.drop (x * ValueStep D)).take (ValueStep D),
          (b.toList.drop (x * ByteStep D)).take (ByteStep D)))
    with hg
  have hgl : ∀ c, c < n → (g c).length = ValueStep D := by
    intro c _
    rw [hg, Function.comp, List.length_map, List.length_range]
  have hlen : ((List.range n).map g).flatten.length = 256 := by
    rw [flatten_uniform_length n hgl, hVn]
  obtain ⟨w, hw1, hw2⟩ := arrayOfList_ok hlen
  rw [hw1]
  suffices hs : w = Vector.ofFn fun i => ofN (ByteDecode D b.toList i) by rw [hs]
  ext1 i hi
  have hw3 : w[i] = (((List.range n).map g).flatten)[i]'(by rw [hlen]; exact hi) := by
    simp only [← hw2, Vector.getElem_toList]
  have hq := flatten_uniform_getElem? n hgl (k := i) (by rw [hVn]; exact hi)
  rw [List.getElem?_eq_getElem (by rw [hlen]; exact hi), ← hw3] at hq
  have hiV : i % ValueStep D < ValueStep D := Nat.mod_lt _ hV0
  have hin : i / ValueStep D < n := Nat.div_lt_of_lt_mul (by rw [hVn]; exact hi)
  simp only [hg, Function.comp, List.getElem?_map, List.getElem?_range hiV, Option.map_some,
    Option.some.injEq] at hq
  rw [hq]
  simp only [Vector.getElem_ofFn]
  congr 1
  rw [ByteDecode]
  change _ % decMod D = _ % decMod D
  congr 1
  apply ofBits_congr
  intro s hs
  set c := i / ValueStep D with hc
  set r := i % ValueStep D with hr
  have hicr : i = ValueStep D * c + r := (Nat.div_add_mod _ _).symm
  have hrs : D * r + s < 8 * ByteStep D := by
    have : D * (r + 1) ≤ D * ValueStep D := Nat.mul_le_mul_left _ hiV
    rw [Nat.mul_add, hDV] at this; omega
  have e : i * D + s = 8 * (ByteStep D * c) + (D * r + s) := by
    have : i * D = D * ValueStep D * c + D * r := by rw [hicr]; ring
    rw [this, hDV]; ring
  rw [bit, bit]
  simp only []
  rw [e, Nat.mul_add_div (by omega), Nat.mul_add_mod]
  congr 2
  have hq2 : (D * r + s) / 8 < ByteStep D := by omega
  rw [List.getD_eq_getElem?_getD, List.getD_eq_getElem?_getD, List.getElem?_take_of_lt hq2,
    List.getElem?_drop, Nat.mul_comm c]

end MlKem
