import Verif.Proofs.RustLemmas
import Verif.Spec.Fips203
/-! Bit-level lemmas for the byte codec. -/
namespace MlKem
open Rust MInt Fips203 Finset

theorem ofBits_succ (n : Nat) (b : Nat → Bool) :
    ofBits (n + 1) b = 2 ^ n * (b n).toNat + ofBits n b := by
  rw [ofBits, sum_range_succ, ← ofBits, Nat.mul_comm, Nat.add_comm]

theorem ofBits_lt (n : Nat) (b : Nat → Bool) : ofBits n b < 2 ^ n := by
  induction n with
  | zero => simp [ofBits]
  | succ n ih =>
    rw [ofBits_succ, Nat.pow_succ]
    cases b n <;> simp <;> omega

theorem testBit_ofBits (n : Nat) (b : Nat → Bool) (s : Nat) :
    (ofBits n b).testBit s = (decide (s < n) && b s) := by
  induction n with
  | zero => simp [ofBits]
  | succ n ih =>
    rw [ofBits_succ, Nat.testBit_two_pow_mul_add _ (ofBits_lt n b), ih]
    by_cases h : s < n
    · have : s < n + 1 := by omega
      simp [h, this]
    · rw [if_neg h]
      by_cases h2 : s = n
      · subst h2; cases b s <;> simp
      · have h3 : ¬ s < n + 1 := by omega
        have h4 : s - n ≠ 0 := by omega
        simp only [h3, decide_false, Bool.false_and]
        obtain ⟨m, hm⟩ : ∃ m, s - n = m + 1 := ⟨s - n - 1, by omega⟩
        rw [hm, Nat.testBit_succ]
        cases b n <;> simp

theorem ofBits_congr {n : Nat} {b c : Nat → Bool} (h : ∀ s, s < n → b s = c s) :
    ofBits n b = ofBits n c := by
  apply sum_congr rfl
  intro j hj
  rw [h j (Finset.mem_range.mp hj)]

theorem ofBits_testBit (n x : Nat) : ofBits n x.testBit = x % 2 ^ n := by
  apply Nat.eq_of_testBit_eq
  intro s
  rw [testBit_ofBits, Nat.testBit_mod_two_pow]

theorem ofBits_shift (n x k : Nat) : ofBits n (fun s => x.testBit (k + s)) = x / 2 ^ k % 2 ^ n := by
  rw [← ofBits_testBit]
  apply ofBits_congr
  intro s _
  rw [Nat.testBit_div_two_pow, Nat.add_comm]

theorem u8_ext {a b : UInt8} (h : ∀ s, s < 8 → a.toNat.testBit s = b.toNat.testBit s) : a = b := by
  apply UInt8.toNat_inj.mp
  apply Nat.eq_of_testBit_eq
  intro s
  by_cases hs : s < 8
  · exact h s hs
  · have : ∀ c : UInt8, c.toNat.testBit s = false := fun c =>
      Nat.testBit_lt_two_pow (Nat.lt_of_lt_of_le c.toNat_lt
        (Nat.pow_le_pow_right (by omega) (by omega : 8 ≤ s)))
    rw [this, this]

theorem testBit_u8_ofNat (n : Nat) {s : Nat} (h : s < 8) :
    (UInt8.ofNat n).toNat.testBit s = n.testBit s := by
  rw [UInt8.toNat_ofNat', Nat.testBit_mod_two_pow]; simp [h]

theorem testBit_leValue (l : List UInt8) (t : Nat) : (leValue l).testBit t = bit l t := by
  induction l generalizing t with
  | nil => simp [leValue, bit]
  | cons b bs ih =>
    rw [leValue, Nat.add_comm, show (256 : Nat) = 2 ^ 8 by rfl,
      Nat.testBit_two_pow_mul_add _ b.toNat_lt]
    by_cases h : t < 8
    · rw [if_pos h, bit, Nat.div_eq_of_lt h, Nat.mod_eq_of_lt h]; rfl
    · rw [if_neg h, ih, bit, bit]
      obtain ⟨m, rfl⟩ : ∃ m, t = m + 8 := ⟨t - 8, by omega⟩
      rw [Nat.add_sub_cancel, Nat.add_div_right _ (by omega), Nat.add_mod_right, List.getD_cons_succ]

theorem leValue_lt (l : List UInt8) : leValue l < 2 ^ (8 * l.length) := by
  induction l with
  | nil => simp [leValue]
  | cons b bs ih =>
    have := b.toNat_lt
    rw [leValue, List.length_cons, Nat.mul_add, Nat.pow_add]
    omega

/-! ### Lists of chunks -/

theorem chunks_eq {α : Type} {s n : Nat} {l : List α} (hs : 0 < s) (h : l.length = s * n) :
    chunks s l = (List.range n).map fun c => (l.drop (c * s)).take s := by
  rw [chunks, h]
  congr 2
  rw [Nat.add_sub_assoc (by omega), Nat.add_comm, Nat.add_mul_div_left _ _ hs,
    Nat.div_eq_of_lt (by omega)]; omega

theorem mapM_ok {α β : Type} {l : List α} {f : α → Res β} {g : α → β}
    (h : ∀ a ∈ l, f a = .ok (g a)) : l.mapM f = .ok (l.map g) := by
  induction l with
  | nil => rfl
  | cons a l ih =>
    rw [List.mapM_cons, h a (by simp), ih (fun a ha => h a (by simp [ha]))]
    rfl

theorem flatten_uniform_length {α : Type} {B : Nat} (n : Nat) {g : Nat → List α}
    (h : ∀ c, c < n → (g c).length = B) :
    ((List.range n).map g).flatten.length = B * n := by
  induction n with
  | zero => simp
  | succ n ih =>
    rw [List.range_succ, List.map_append, List.flatten_append, List.length_append,
      ih (fun c hc => h c (by omega))]
    simp [h n (by omega), Nat.mul_succ]

theorem flatten_uniform_getElem? {α : Type} {B : Nat} (n : Nat) {g : Nat → List α}
    (h : ∀ c, c < n → (g c).length = B) {k : Nat} (hk : k < B * n) :
    ((List.range n).map g).flatten[k]? = (g (k / B))[k % B]? := by
  induction n with
  | zero => simp at hk
  | succ n ih =>
    have hlen := flatten_uniform_length n (fun c hc => h c (by omega))
    rw [List.range_succ, List.map_append, List.flatten_append]
    by_cases hk2 : k < B * n
    · rw [List.getElem?_append_left (by rw [hlen]; exact hk2), ih (fun c hc => h c (by omega)) hk2]
    · rw [List.getElem?_append_right (by rw [hlen]; omega), hlen]
      rw [Nat.mul_succ] at hk
      have hkB : k = B * n + (k - B * n) := by omega
      have h1 : k / B = n := by
        rw [hkB, Nat.mul_add_div (by omega), Nat.div_eq_of_lt (by omega)]; omega
      have h2 : k % B = k - B * n := by
        conv_lhs => rw [hkB, Nat.mul_add_mod, Nat.mod_eq_of_lt (by omega)]
      rw [h1, h2]; simp

theorem arrayOfList_ok {α : Type} {n : Nat} {l : List α} (h : l.length = n) :
    ∃ v : Vector α n, arrayOfList n l = .ok v ∧ v.toList = l := by
  refine ⟨⟨l.toArray, by simpa using h⟩, by simp [arrayOfList, h], by simp [Vector.toList]⟩

end MlKem
