import Verif.Spec.Layout
import Verif.Props.Common
/-! Parsing and re-encoding keys, field by field. -/
namespace MlKem
open Rust MInt Fips203 FieldElement Finset

variable [Build]

omit [Build] in
theorem bit_drop (B : List UInt8) (o t : Nat) : bit (B.drop o) t = bit B (8 * o + t) := by
  unfold bit
  have e1 : (8 * o + t) / 8 = o + t / 8 := by omega
  have e2 : (8 * o + t) % 8 = t % 8 := by omega
  rw [e1, e2, List.getD_eq_getElem?_getD, List.getD_eq_getElem?_getD, List.getElem?_drop]

omit [Build] in
theorem bit_take (B : List UInt8) {l t : Nat} (h : t < 8 * l) : bit (B.take l) t = bit B t := by
  unfold bit
  rw [List.getD_eq_getElem?_getD, List.getD_eq_getElem?_getD,
    List.getElem?_take_of_lt (by omega)]

omit [Build] in
theorem raw12_block (B : List UInt8) (i : Nat) (n : Fin 256) :
    raw12 (block 12 B i) n = field12 B (256 * i + n.val) := by
  unfold raw12 field12 block
  apply ofBits_congr
  intro j hj
  rw [bit_take _ (by omega), bit_drop]
  congr 1
  omega

omit [Build] in
theorem field12_append {A B : List UInt8} {n : Nat} (h : 12 * n + 12 ≤ 8 * A.length) :
    field12 (A ++ B) n = field12 A n := by
  unfold field12
  apply ofBits_congr
  intro j hj
  unfold bit
  rw [List.getD_eq_getElem?_getD, List.getD_eq_getElem?_getD, List.getElem?_append_left (by omega)]

omit [Build] in
theorem field12_take (B : List UInt8) {l n : Nat} (h : 12 * n + 12 ≤ 8 * l) :
    field12 (B.take l) n = field12 B n := by
  unfold field12
  apply ofBits_congr
  intro j hj
  rw [bit_take _ (by omega)]

omit [Build] in
/-- The coefficients of a re-encoded vector are the residues of the original fields. -/
theorem field12_enc12 {K : Nat} {t : Fin K → Poly} {B : List UInt8}
    (ht : ∀ i, t i = ofNats (ByteDecode 12 (block 12 B i.val))) {n : Nat} (hn : n < 256 * K) :
    field12 (enc12 t) n = field12 B n % 3329 := by
  have hi : n / 256 < K := Nat.div_lt_of_lt_mul hn
  have hm : n % 256 < 256 := Nat.mod_lt _ (by omega)
  have e : n = 256 * (n / 256) + n % 256 := by omega
  have h1 := raw12_block (enc12 t) (n / 256) ⟨n % 256, hm⟩
  have h2 := raw12_block B (n / 256) ⟨n % 256, hm⟩
  simp only [← e] at h1 h2
  rw [← h1, ← h2, ← ByteDecode12 (block 12 B (n / 256))]
  have hb : block 12 (enc12 t) (n / 256) = ByteEncode 12 (rep (t ⟨n / 256, hi⟩)) := by
    have := block_encodeVec 12 (fun i => rep (t i)) [] ⟨n / 256, hi⟩
    rw [List.append_nil] at this
    exact this
  have hdec := ByteDecode_ByteEncode (d := 12) (by omega) (F := rep (t ⟨n / 256, hi⟩))
    (fun _ => zval_lt _) (by omega)
  have hraw : raw12 (ByteEncode 12 (rep (t ⟨n / 256, hi⟩))) ⟨n % 256, hm⟩
      = rep (t ⟨n / 256, hi⟩) ⟨n % 256, hm⟩ := by
    unfold raw12
    rw [ofBits_congr (c := (rep (t ⟨n / 256, hi⟩) ⟨n % 256, hm⟩).testBit), ofBits_testBit, Nat.mod_eq_of_lt]
    · exact (zval_lt _).trans (by norm_num)
    · intro s hs
      simp only
      rw [bit_ByteEncode _ (by omega)]
      have a1 : (n % 256 * 12 + s) / 12 = n % 256 := by omega
      have a2 : (n % 256 * 12 + s) % 12 = s := by omega
      rw [a1, a2]
      congr 2
      apply Fin.ext
      show n % 256 % 256 = n % 256
      omega
  rw [hb, hraw, ht ⟨n / 256, hi⟩]
  show (((ByteDecode 12 (block 12 B (n / 256)) ⟨n % 256, hm⟩ : Nat) : Zq)).val = _
  rw [ZMod.val_natCast, Nat.mod_eq_of_lt]
  exact ByteDecode_lt 12 _ _

omit [Build] in
/-- Re-encoding gives the original bytes exactly if all fields are reduced. -/
theorem enc12_eq_iff {K : Nat} {t : Fin K → Poly} {B : List UInt8} (hB : 384 * K ≤ B.length)
    (ht : ∀ i, t i = ofNats (ByteDecode 12 (block 12 B i.val))) :
    enc12 t = B.take (384 * K) ↔ ∀ n, n < 256 * K → field12 B n < 3329 := by
  constructor
  · intro h n hn
    have := field12_enc12 ht hn
    rw [h, field12_take _ (by omega)] at this
    rw [this]
    exact Nat.mod_lt _ (by omega)
  · intro h
    apply list_u8_ext
    · rw [enc12_length, List.length_take]; omega
    · intro b hb
      rw [enc12_length] at hb
      have hn : b / 12 < 256 * K := by omega
      have hf := field12_enc12 ht hn
      rw [Nat.mod_eq_of_lt (h _ hn)] at hf
      have hb12 : b = 12 * (b / 12) + b % 12 := by omega
      have t1 : (field12 (enc12 t) (b / 12)).testBit (b % 12) = bit (enc12 t) b := by
        unfold field12
        rw [testBit_ofBits, ← hb12]
        simp [Nat.mod_lt]
      have t2 : (field12 B (b / 12)).testBit (b % 12) = bit B b := by
        unfold field12
        rw [testBit_ofBits, ← hb12]
        simp [Nat.mod_lt]
      rw [bit_take _ (by omega), ← t1, ← t2, hf]

end MlKem
