import Verif.Model.Util
import Mathlib.Data.Nat.Bitwise
import Mathlib.Tactic.Linarith
/-! Lemmas about the Rust layer: loops, tabulation, checked arithmetic. -/
namespace Rust
open MInt

theorem tabulate_ok {α : Type} {n : Nat} {f : Fin n → Res α} {g : Fin n → α}
    (h : ∀ i, f i = .ok (g i)) : tabulate n f = .ok (Vector.ofFn g) := by
  induction n with
  | zero => simp [tabulate]
  | succ n ih =>
    have := ih (f := fun i => f i.castSucc) (g := fun i => g i.castSucc) (fun i => h _)
    rw [tabulate, this]
    simp only [Res.ok_bind, h]
    congr 1
    rw [Vector.ofFn_succ]
    rfl

theorem tabulate_eq_ok {α : Type} {n : Nat} {f : Fin n → Res α} {v : Vector α n} :
    tabulate n f = .ok v ↔ ∀ i : Fin n, f i = .ok v[i] := by
  constructor
  · intro h
    induction n with
    | zero => intro i; exact i.elim0
    | succ n ih =>
      simp only [tabulate, Res.bind_eq_ok] at h
      obtain ⟨init, h1, last, h2, h3⟩ := h
      simp only [Res.ok.injEq] at h3
      subst h3
      intro i
      refine Fin.lastCases ?_ (fun j => ?_) i
      · simp [h2]
      · rw [ih h1 j]; simp
  · intro h
    rw [tabulate_ok h]
    congr 1
    ext i hi
    simp

theorem mapVec_ok {α β : Type} {n : Nat} {f : α → Res β} {a : Vector α n} {g : Fin n → β}
    (h : ∀ i : Fin n, f a[i] = .ok (g i)) : mapVec f a = .ok (Vector.ofFn g) :=
  tabulate_ok h

theorem zipVec_ok {α β γ : Type} {n : Nat} {f : α → β → Res γ} {a : Vector α n} {b : Vector β n}
    {g : Fin n → γ} (h : ∀ i : Fin n, f a[i] b[i] = .ok (g i)) :
    zipVec f a b = .ok (Vector.ofFn g) :=
  tabulate_ok h

theorem tabulateState_inv {α σ : Type} {n : Nat} {f : Fin n → σ → Res (α × σ)} {s0 : σ}
    (I : Nat → σ → Prop) (g : Fin n → α) (h0 : I 0 s0)
    (hs : ∀ (i : Fin n) s, I i.val s → ∃ s', f i s = .ok (g i, s') ∧ I (i.val + 1) s') :
    ∃ s', tabulateState n f s0 = .ok (Vector.ofFn g, s') ∧ I n s' := by
  induction n with
  | zero => exact ⟨s0, by simp [tabulateState], h0⟩
  | succ n ih =>
    obtain ⟨s1, h1, hI1⟩ := ih (f := fun i => f i.castSucc) (fun i => g i.castSucc)
      (fun i s hi => hs i.castSucc s hi)
    obtain ⟨s2, h2, hI2⟩ := hs (Fin.last n) s1 hI1
    refine ⟨s2, ?_, hI2⟩
    simp only [tabulateState, h1, Res.ok_bind, h2]
    congr 2
    rw [Vector.ofFn_succ]
    rfl

theorem forEach_nil {ι σ : Type} (init : σ) (body : σ → ι → Res σ) :
    forEach [] init body = .ok init := rfl

theorem forEach_cons {ι σ : Type} (x : ι) (xs : List ι) (init : σ) (body : σ → ι → Res σ) :
    forEach (x :: xs) init body = (body init x >>= fun s => forEach xs s body) := by
  simp [forEach]

/-- Loop over a list that is given by an index function. -/
theorem forEach_list_inv {ι σ : Type} (xs : List ι) {init : σ} {body : σ → ι → Res σ}
    (I : Nat → σ → Prop) (h0 : I 0 init)
    (hs : ∀ (i : Nat) (hi : i < xs.length) s, I i s →
      ∃ s', body s xs[i] = .ok s' ∧ I (i + 1) s') :
    ∃ s', forEach xs init body = .ok s' ∧ I xs.length s' := by
  induction xs generalizing init I with
  | nil => exact ⟨init, rfl, h0⟩
  | cons x xs ih =>
    obtain ⟨s1, h1, hI1⟩ := hs 0 (by simp) init h0
    obtain ⟨s2, h2, hI2⟩ := ih (init := s1) (I := fun i s => I (i + 1) s) hI1
      (fun i hi s hI => hs (i + 1) (by simpa using hi) s hI)
    refine ⟨s2, ?_, hI2⟩
    rw [forEach_cons]
    simp only [List.getElem_cons_zero] at h1
    rw [h1]; exact h2

theorem forEach_range_inv {σ : Type} {lo hi : Nat} {init : σ} {body : σ → Nat → Res σ}
    (I : Nat → σ → Prop) (hle : lo ≤ hi) (h0 : I lo init)
    (hs : ∀ i s, lo ≤ i → i < hi → I i s → ∃ s', body s i = .ok s' ∧ I (i + 1) s') :
    ∃ s', forEach (range lo hi) init body = .ok s' ∧ I hi s' := by
  obtain ⟨s', h1, h2⟩ := forEach_list_inv (range lo hi) (init := init) (body := body)
    (fun i s => I (lo + i) s) h0 (by
      intro i hi' s hI
      simp only [range, List.length_range'] at hi'
      simp only [range, List.getElem_range']
      have := hs (lo + i) s (by omega) (by omega) hI
      simpa [Nat.add_assoc] using this)
  refine ⟨s', h1, ?_⟩
  simpa [range, Nat.add_sub_cancel' hle] using h2

@[simp] theorem idx_ok {α : Type} {n : Nat} (a : Vector α n) {i : Nat} (h : i < n) :
    idx a i = .ok a[i] := by simp [idx, h]

@[simp] theorem setIdx_ok {α : Type} {n : Nat} (a : Vector α n) {i : Nat} (x : α) (h : i < n) :
    setIdx a i x = .ok (a.set i x) := by simp [setIdx, h]

theorem usize_lt [Build] {n : Nat} (h : n < 65536) : n < 2 ^ Build.usizeBits :=
  lt_of_lt_of_le h (Nat.pow_le_pow_right (n := 2) (by omega) Build.usizeBits_ge)

theorem addUsize_ok [Build] {a b : Nat} (h : a + b < 65536) : addUsize a b = .ok (a + b) := if_pos (usize_lt h)

theorem mulUsize_ok [Build] {a b : Nat} (h : a * b < 65536) : mulUsize a b = .ok (a * b) := if_pos (usize_lt h)

theorem add_ok [Build] {α : Type} [MInt α] {a b : α} (h : toNat a + toNat b < 2 ^ bits α) :
    Rust.add a b = .ok (ofNat (toNat a + toNat b)) := by simp [Rust.add, h]
theorem sub_ok [Build] {α : Type} [MInt α] {a b : α} (h : toNat b ≤ toNat a) :
    Rust.sub a b = .ok (ofNat (toNat a - toNat b)) := by simp [Rust.sub, h]
theorem mul_ok [Build] {α : Type} [MInt α] {a b : α} (h : toNat a * toNat b < 2 ^ bits α) :
    Rust.mul a b = .ok (ofNat (toNat a * toNat b)) := by simp [Rust.mul, h]
theorem shl_ok [Build] {α : Type} [MInt α] {a : α} {n : Nat} (h : n < bits α) :
    Rust.shl a n = .ok (ofNat (toNat a * 2 ^ n)) := by simp [Rust.shl, h, Nat.shiftLeft_eq]
theorem shr_ok [Build] {α : Type} [MInt α] {a : α} {n : Nat} (h : n < bits α) :
    Rust.shr a n = .ok (ofNat (toNat a / 2 ^ n)) := by simp [Rust.shr, h, Nat.shiftRight_eq_div_pow]

theorem toNat_ofNat_lt {α : Type} [MInt α] {n : Nat} (h : n < 2 ^ bits α) :
    toNat (ofNat n : α) = n := by rw [toNat_ofNat, Nat.mod_eq_of_lt h]

theorem ofNat_mod {α : Type} [MInt α] (n : Nat) : (ofNat (n % 2 ^ bits α) : α) = ofNat n := by
  rw [← toNat_ofNat, ofNat_toNat]

theorem MInt.ext {α : Type} [MInt α] {a b : α} (h : toNat a = toNat b) : a = b := by
  rw [← ofNat_toNat a, h, ofNat_toNat]

theorem toNat_max {α : Type} [MInt α] : toNat (Rust.max α) = 2 ^ bits α - 1 := by
  have : 0 < 2 ^ bits α := Nat.two_pow_pos _
  rw [Rust.max, toNat_ofNat_lt (by omega)]

theorem toNat_cast {α β : Type} [MInt α] [MInt β] (a : α) :
    toNat (cast a : β) = toNat a % 2 ^ bits β := by rw [cast, toNat_ofNat]

theorem toNat_cast_le {α β : Type} [MInt α] [MInt β] {a : α} (h : bits α ≤ bits β) :
    toNat (cast a : β) = toNat a := by
  rw [toNat_cast, Nat.mod_eq_of_lt]
  exact Nat.lt_of_lt_of_le (toNat_lt a) (Nat.pow_le_pow_right (by omega) h)

theorem toNat_and {α : Type} [MInt α] (a b : α) : toNat (Rust.and a b) = toNat a &&& toNat b := by
  rw [Rust.and, toNat_ofNat_lt]
  exact Nat.lt_of_le_of_lt Nat.and_le_left (toNat_lt a)

theorem toNat_or {α : Type} [MInt α] (a b : α) : toNat (Rust.or a b) = toNat a ||| toNat b := by
  rw [Rust.or, toNat_ofNat_lt]
  exact Nat.or_lt_two_pow (toNat_lt a) (toNat_lt b)

@[simp] theorem bits_u8 : bits UInt8 = 8 := rfl
@[simp] theorem bits_u16 : bits UInt16 = 16 := rfl
@[simp] theorem bits_u32 : bits UInt32 = 32 := rfl
@[simp] theorem bits_u64 : bits UInt64 = 64 := rfl
@[simp] theorem bits_u128 : bits U128 = 128 := rfl
theorem toNat_u8 (x : UInt8) : toNat x = x.toNat := rfl
theorem toNat_u16 (x : UInt16) : toNat x = x.toNat := rfl
theorem toNat_u32 (x : UInt32) : toNat x = x.toNat := rfl
theorem toNat_u64 (x : UInt64) : toNat x = x.toNat := rfl
theorem toNat_u128 (x : U128) : toNat x = BitVec.toNat x := rfl

end Rust

namespace MlKem
open Rust MInt

/-- Truncation to a narrower integer never fails and keeps the low-order bits. -/
theorem truncate_ok {α β : Type} [MInt α] [MInt β] (hb : bits β ≤ bits α) (x : α) :
    truncate β x = .ok (ofNat (toNat x)) := by
  have hm : toNat (Rust.and x (cast (Rust.max β) : α)) = toNat x % 2 ^ bits β := by
    rw [toNat_and, toNat_cast, toNat_max, Nat.mod_eq_of_lt (b := 2 ^ bits α),
      Nat.and_two_pow_sub_one_eq_mod]
    have := Nat.pow_le_pow_right (n := 2) (by omega) hb
    have := Nat.two_pow_pos (bits β)
    omega
  simp only [truncate, hm]
  rw [if_pos (Nat.mod_lt _ (Nat.two_pow_pos _)), ofNat_mod]

theorem truncateUsize_ok (n : Nat) : truncateUsize n = .ok (UInt8.ofNat n) := by
  have h : n &&& 255 = n % 256 := Nat.and_two_pow_sub_one_eq_mod n 8
  simp only [truncateUsize, h]
  rw [if_pos (Nat.mod_lt _ (by omega))]
  congr 1
  apply UInt8.toNat_inj.mp
  simp

end MlKem
