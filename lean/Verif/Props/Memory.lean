import Verif.Model.UtilMem
import Verif.Proofs.Flatten
/-! C87: the pointer casts of `flatten` and `unflatten` are sound. -/
namespace MlKem.Mem
open Rust Rust.Memory

variable [Build] {C T : Type}

omit [Build] in
theorem read_stored {T : Type} {L : Layout C T} {o : Object C} {r : Ref L} {t : T}
    (h : Stored o r t) : o.read (⟨r.offset⟩ : Ptr L) = .ok t := by
  rw [Object.read, if_pos ⟨h.aligned, h.bound⟩]
  dsimp only
  rw [h.cells, L.read_write]

omit [Build] in
theorem deref_stored {T : Type} {L : Layout C T} {o : Object C} {r : Ref L} {t : T}
    (h : Stored o r t) : o.deref r = some t := by
  rw [Object.deref, h.cells, L.read_write]

omit [Build] in
theorem ofFn_getElem {α β : Type} {n : Nat} (v : Vector α n) (f : α → List β) :
    (List.ofFn fun i : Fin n => f v[i]).flatten = v.toList.flatMap f := by
  rw [List.flatMap_def]
  congr 1
  apply List.ext_getElem
  · simp
  · intro i h1 h2; simp

omit [Build] in
/-- The memory of an array of arrays is that of the flat array. -/
theorem stored_flatten {L : Layout C T} {M N : Nat} {o : Object C}
    {place : Ref ((L.array M).array N)} {v : Vector (Vector T M) N} (h : Stored o place v) :
    Stored o (⟨place.offset⟩ : Ref (L.array (M * N))) (MlKem.flatten v) := by
  have e : (L.array (M * N)).size = ((L.array M).array N).size := by
    show M * N * L.size = N * (M * L.size)
    rw [Nat.mul_comm M N, Nat.mul_assoc]
  refine ⟨h.aligned, by rw [e]; exact h.bound, ?_⟩
  rw [e, h.cells]
  show v.toList.flatMap (fun w => w.toList.flatMap L.write) = (MlKem.flatten v).toList.flatMap L.write
  rw [flatten_toList, ofFn_getElem v fun w => w.toList, List.flatMap_assoc]

omit [Build] in
/-- The memory of part `i` of a flat array lies `i * P` elements behind its start. -/
theorem stored_part {L : Layout C T} {N P M : Nat} (hN : N = P * M) {o : Object C}
    {place : Ref (L.array N)} {v : Vector T N} (h : Stored o place v) {i : Nat} (hi : i < M) :
    Stored o (⟨place.offset + i * P * L.size⟩ : Ref (L.array P)) (MlKem.unflatten hN v)[i] := by
  have hle : (i + 1) * P ≤ N := by
    rw [hN, Nat.mul_comm P M]; exact Nat.mul_le_mul_right _ hi
  have hs : i * P * L.size + P * L.size ≤ N * L.size := by
    rw [← Nat.add_mul, ← Nat.succ_mul]; exact Nat.mul_le_mul_right _ hle
  have hb : place.offset + N * L.size ≤ o.cells.length := h.bound
  refine ⟨?_, ?_, ?_⟩
  · show L.align ∣ o.base + (place.offset + i * P * L.size)
    rw [← Nat.add_assoc]
    exact Nat.dvd_add h.aligned (Nat.dvd_mul_left_of_dvd L.align_size _)
  · show place.offset + i * P * L.size + P * L.size ≤ o.cells.length
    omega
  · have hc : (o.cells.drop place.offset).take (N * L.size) = v.toList.flatMap L.write := h.cells
    show (o.cells.drop (place.offset + i * P * L.size)).take (P * L.size)
      = (MlKem.unflatten hN v)[i].toList.flatMap L.write
    rw [unflatten_toList hN v hi, Nat.mul_comm P i, ← take_flatMap _ L.size_write,
      ← drop_flatMap _ L.size_write, ← hc, ← List.drop_drop, List.drop_take, List.take_take,
      Nat.min_eq_left (by omega)]

omit [Build] in
/-- **C87** `flatten` has no undefined behaviour, whatever the element type and wherever the array
lies. It returns the array that C33 is about. It runs no destructor itself, and dropping what it
returns runs the destructors that dropping its argument would have run, each once. -/
theorem C87_flatten (L : Layout C T) {M N : Nat} (o : Object C) (place : Ref ((L.array M).array N))
    (self : Vector (Vector T M) N) (h : Stored o place self) :
    ∃ result, flatten L o place self = .ok (result, []) ∧ result = MlKem.flatten self ∧
      Drops.drops result = Drops.drops self := by
  refine ⟨_, ?_, rfl, ?_⟩
  · unfold flatten
    dsimp only [Ref.asPtr, Ptr.cast]
    rw [read_stored (stored_flatten h)]
    rfl
  · show (MlKem.flatten self).toList = self.toList.flatMap fun w => w.toList
    rw [flatten_toList, ofFn_getElem self fun w => w.toList]

omit [Build] in
theorem size_quot {N M : Nat} (hM : N % M = 0) : N = N / M * M :=
  (Nat.div_mul_cancel (Nat.dvd_of_mod_eq_zero hM)).symm

omit [Build] in
theorem unflatten_drops {N P M : Nat} (hN : N = P * M) (v : Vector T N) :
    (MlKem.unflatten hN v).toList.flatMap (fun w => w.toList) = v.toList := by
  subst hN
  rw [← ofFn_getElem (MlKem.unflatten rfl v) fun w => w.toList, ← flatten_toList, flatten_unflatten]

theorem add_ok {L : Layout C T} {o : Object C} (ho : o.cells.length < 2 ^ (Build.usizeBits - 1))
    (p : Ptr L) {k : Nat} (h : p.offset + k * L.size ≤ o.cells.length) :
    o.add p k = .ok ⟨p.offset + k * L.size⟩ := by
  rw [Object.add, if_pos ⟨by omega, h⟩]

/-- **C87** The same for `unflatten` of an owned array. `N % M = 0` is the bound
`Rem<M, Output = U0>`, an object has at most `isize::MAX` bytes and `N` is a `usize`. -/
theorem C87_unflatten (L : Layout C T) {N M : Nat} (hNM : N % M = 0)
    (hN : N < 2 ^ Build.usizeBits) (o : Object C)
    (ho : o.cells.length < 2 ^ (Build.usizeBits - 1)) (place : Ref (L.array N)) (self : Vector T N)
    (h : Stored o place self) :
    ∃ result, unflatten L M o place self = .ok (result, []) ∧
      result = MlKem.unflatten (size_quot hNM) self ∧ Drops.drops result = Drops.drops self := by
  refine ⟨_, ?_, rfl, ?_⟩
  · unfold unflatten
    dsimp only [Ref.asPtr, Ptr.cast]
    rw [tabulate_ok (g := fun i : Fin M => (MlKem.unflatten (size_quot hNM) self)[i.val])]
    · rw [Res.ok_bind]
      have e : (Vector.ofFn fun i : Fin M => (MlKem.unflatten (size_quot hNM) self)[i.val])
          = MlKem.unflatten (size_quot hNM) self := by ext; simp
      rw [e]
      rfl
    · intro i
      have hi : i.val * (N / M) ≤ N := by
        calc i.val * (N / M) ≤ M * (N / M) := Nat.mul_le_mul_right _ i.isLt.le
          _ ≤ N := Nat.mul_div_le N M
      have hb : place.offset + N * L.size ≤ o.cells.length := h.bound
      have hs : i.val * (N / M) * L.size ≤ N * L.size := Nat.mul_le_mul_right _ hi
      rw [mulUsize, if_pos (by omega), Res.ok_bind, add_ok ho _ (by dsimp only; omega), Res.ok_bind]
      exact read_stored (stored_part (size_quot hNM) h i.isLt)
  · show (MlKem.unflatten (size_quot hNM) self).toList.flatMap (fun w => w.toList) = self.toList
    exact unflatten_drops _ self

/-- **C87** `unflatten` of a borrowed array has no undefined behaviour. Part `i` is a valid reference
into the borrowed array, `i * (N / M)` elements behind its start, to the part that C33 is about. -/
theorem C87_unflattenRef (L : Layout C T) {N M : Nat} (hNM : N % M = 0) (o : Object C)
    (ho : o.cells.length < 2 ^ (Build.usizeBits - 1)) (self : Ref (L.array N)) (v : Vector T N)
    (h : Stored o self v) :
    ∃ result, unflattenRef L M o self = .ok result ∧
      ∀ i : Fin M, result[i].offset = self.offset + i.val * (N / M) * L.size ∧
        Stored o result[i] (MlKem.unflatten (size_quot hNM) v)[i] ∧
        o.deref result[i] = some (MlKem.unflatten (size_quot hNM) v)[i] := by
  refine ⟨Vector.ofFn fun i : Fin M => ⟨self.offset + i.val * (N / M) * L.size⟩, ?_, fun i => ?_⟩
  · unfold unflattenRef
    dsimp only [Ref.asPtr, Ptr.cast]
    obtain ⟨s', h1, _⟩ := tabulateState_inv (n := M) (σ := Ptr L) (s0 := ⟨self.offset⟩)
      (f := fun _i ptr => do
        let part ← o.borrow (⟨ptr.offset⟩ : Ptr (L.array (N / M)))
        let ptr ← o.add ptr (N / M)
        .ok (part, ptr))
      (fun i ptr => ptr = ⟨self.offset + i * (N / M) * L.size⟩)
      (fun i => ⟨self.offset + i.val * (N / M) * L.size⟩) (by simp) (by
        intro i ptr hptr
        subst hptr
        have hi : (i.val + 1) * (N / M) ≤ N := by
          calc (i.val + 1) * (N / M) ≤ M * (N / M) := Nat.mul_le_mul_right _ i.isLt
            _ ≤ N := Nat.mul_div_le N M
        have hb : self.offset + N * L.size ≤ o.cells.length := h.bound
        have hs : i.val * (N / M) * L.size + N / M * L.size ≤ N * L.size := by
          rw [← Nat.add_mul, ← Nat.succ_mul]; exact Nat.mul_le_mul_right _ hi
        refine ⟨_, ?_, rfl⟩
        rw [Object.borrow, read_stored (stored_part (size_quot hNM) h i.isLt), Res.ok_bind,
          Res.ok_bind, add_ok ho _ (by dsimp only; omega), Res.ok_bind]
        dsimp only
        rw [Nat.add_assoc, ← Nat.add_mul, ← Nat.succ_mul])
    rw [h1]
    rfl
  · have hp := stored_part (size_quot hNM) h i.isLt
    simp only [Fin.getElem_fin, Vector.getElem_ofFn]
    exact ⟨trivial, hp, deref_stored hp⟩

/-- The bytes that a reference covers -/
def Covers {T : Type} {L : Layout C T} (r : Ref L) (k : Nat) : Prop :=
  r.offset ≤ k ∧ k < r.offset + L.size

/-- **C87** The parts do not overlap, and together they are the borrowed array: each of its bytes
lies in exactly one part. -/
theorem C87_cover (L : Layout C T) {N M : Nat} (hNM : N % M = 0) (o : Object C)
    (ho : o.cells.length < 2 ^ (Build.usizeBits - 1)) (self : Ref (L.array N)) (v : Vector T N)
    (h : Stored o self v) (result : Vector (Ref (L.array (N / M))) M)
    (hr : unflattenRef L M o self = .ok result) (k : Nat) :
    (Covers self k → ∃ i : Fin M, Covers result[i] k ∧ ∀ j : Fin M, Covers result[j] k → j = i) ∧
    ((∃ i : Fin M, Covers result[i] k) → Covers self k) := by
  obtain ⟨r, h1, h2⟩ := C87_unflattenRef L hNM o ho self v h
  obtain rfl : r = result := Res.ok.inj (h1.symm.trans hr)
  have e : ∀ i : Fin M, Covers r[i] k ↔ self.offset + i.val * (N / M * L.size) ≤ k ∧
      k < self.offset + (i.val + 1) * (N / M * L.size) := by
    intro i
    show r[i].offset ≤ k ∧ k < r[i].offset + N / M * L.size ↔ _
    rw [(h2 i).1, Nat.add_assoc, Nat.mul_assoc, ← Nat.succ_mul]
  have e' : Covers self k ↔ self.offset ≤ k ∧ k < self.offset + M * (N / M * L.size) := by
    show self.offset ≤ k ∧ k < self.offset + N * L.size ↔ _
    rw [← Nat.mul_assoc, Nat.mul_comm M, ← size_quot hNM]
  simp only [e, e']
  generalize N / M * L.size = s
  constructor
  · rintro ⟨ha, hb⟩
    have hs : 0 < s := Nat.pos_of_ne_zero fun h0 => by subst h0; omega
    have hd : (k - self.offset) / s < M := by
      apply Nat.div_lt_of_lt_mul; rw [Nat.mul_comm]; omega
    have l1 : (k - self.offset) / s * s ≤ k - self.offset := Nat.div_mul_le_self _ _
    have l2 : k - self.offset < ((k - self.offset) / s + 1) * s := by
      rw [Nat.mul_comm]; exact Nat.lt_mul_div_succ _ hs
    refine ⟨⟨_, hd⟩, ⟨by dsimp only; omega, by dsimp only; omega⟩, ?_⟩
    rintro j ⟨hj1, hj2⟩
    apply Fin.ext
    show j.val = (k - self.offset) / s
    symm
    apply Nat.div_eq_of_lt_le <;> omega
  · rintro ⟨i, hi1, hi2⟩
    have : (i.val + 1) * s ≤ M * s := Nat.mul_le_mul_right _ i.isLt
    omega

/-! ### A concrete case: `u16` at an even address, in the middle of a larger object -/

/-- Two bytes, little-endian, aligned to two bytes -/
def u16 : Layout UInt8 (Fin 256 × Fin 256) where
  size := 2
  align := 2
  write t := [UInt8.ofNat t.1.val, UInt8.ofNat t.2.val]
  read
    | [a, b] => some (⟨a.toNat, UInt8.toNat_lt a⟩, ⟨b.toNat, UInt8.toNat_lt b⟩)
    | _ => none
  size_write _ := rfl
  read_write t := by
    obtain ⟨⟨a, ha⟩, ⟨b, hb⟩⟩ := t
    simp only [Option.some.injEq, Prod.mk.injEq, Fin.mk.injEq]
    exact ⟨UInt8.toNat_ofNat_of_lt ha, UInt8.toNat_ofNat_of_lt hb⟩
  align_size := by decide

def someObject : Object UInt8 := ⟨1000, [9, 9, 1, 2, 3, 4, 5, 6, 7, 8, 9]⟩

example : Stored someObject (⟨2⟩ : Ref (u16.array 4)) #v[(1, 2), (3, 4), (5, 6), (7, 8)] :=
  ⟨by decide, by decide, by decide⟩

example : Stored someObject (⟨2⟩ : Ref ((u16.array 2).array 2))
    #v[#v[(1, 2), (3, 4)], #v[(5, 6), (7, 8)]] := ⟨by decide, by decide, by decide⟩

example : someObject.cells.length < 2 ^ (Build.usizeBits - 1) := by
  have h := Build.usizeBits_ge
  calc someObject.cells.length < 2 ^ 15 := by decide
    _ ≤ _ := Nat.pow_le_pow_right (by decide) (by omega)

/-- At an odd address, reading is undefined. -/
example : someObject.read (⟨3⟩ : Ptr (u16.array 2)) = .panic := by decide +kernel

/-- So it is beyond the end. -/
example : someObject.read (⟨8⟩ : Ptr (u16.array 2)) = .panic := by decide +kernel

end MlKem.Mem
