import Verif.Rust.Basic
/-! A memory model for the raw pointers of ml-kem/src/util.rs: objects are sequences of cells, a
pointer is an offset into one object, and everything that Rust calls undefined behaviour is
`panic`. What the rules are taken from: the Rust reference, chapters "Type layout" and "Behavior
considered undefined", and the documentation of `pointer::add`, `ptr::read` and `ManuallyDrop`. -/
namespace Rust.Memory

/-- How values of the type `T` are stored. A cell `C` is what one byte of memory holds; `C` is left
open, because in Rust that may also be "uninitialised" or a part of a pointer. `read` is `none` for
cells that are not a valid value of the type. (of the types at ml-kem/src/util.rs:47, 73) -/
structure Layout (C T : Type) where
  size : Nat
  align : Nat
  write : T → List C
  read : List C → Option T
  size_write : ∀ t, (write t).length = size
  read_write : ∀ t, read (write t) = some t
  align_size : align ∣ size

/-- All the values, if there are all of them (ml-kem/src/util.rs:59) -/
def collect {T : Type} {n : Nat} (f : Fin n → Option T) : Option (Vector T n) :=
  if h : ∀ i, (f i).isSome then some (Vector.ofFn fun i => (f i).get (h i)) else none

theorem collect_some {T : Type} {n : Nat} (f : Fin n → Option T) (v : Vector T n)
    (h : ∀ i : Fin n, f i = some v[i]) : collect f = some v := by
  have h' : ∀ i, (f i).isSome := fun i => by rw [h]; rfl
  rw [collect, dif_pos h']
  congr 1
  apply Vector.ext
  intro i hi
  rw [Vector.getElem_ofFn]
  exact Option.some.inj ((Option.some_get _).trans (h ⟨i, hi⟩))

theorem length_flatMap {C T : Type} (w : T → List C) {s : Nat} (hw : ∀ t, (w t).length = s)
    (xs : List T) : (xs.flatMap w).length = xs.length * s := by
  induction xs with
  | nil => simp
  | cons x xs ih =>
    rw [List.flatMap_cons, List.length_append, hw, ih, List.length_cons, Nat.succ_mul, Nat.add_comm]

theorem drop_flatMap {C T : Type} (w : T → List C) {s : Nat} (hw : ∀ t, (w t).length = s)
    (xs : List T) (k : Nat) : (xs.flatMap w).drop (k * s) = (xs.drop k).flatMap w := by
  induction k generalizing xs with
  | zero => simp
  | succ k ih =>
    cases xs with
    | nil => simp
    | cons x xs =>
      rw [List.flatMap_cons, List.drop_succ_cons, ← ih, Nat.succ_mul, Nat.add_comm, ← hw x,
        List.drop_append]
      simp

theorem take_flatMap {C T : Type} (w : T → List C) {s : Nat} (hw : ∀ t, (w t).length = s)
    (xs : List T) (k : Nat) : (xs.flatMap w).take (k * s) = (xs.take k).flatMap w := by
  induction k generalizing xs with
  | zero => simp
  | succ k ih =>
    cases xs with
    | nil => simp
    | cons x xs =>
      rw [List.flatMap_cons, List.take_succ_cons, List.flatMap_cons, ← ih, Nat.succ_mul,
        Nat.add_comm, ← hw x, List.take_append, List.take_of_length_le (by omega)]
      simp

theorem slice_flatMap {C T : Type} (w : T → List C) {s : Nat} (hw : ∀ t, (w t).length = s)
    {n : Nat} (v : Vector T n) (i : Fin n) :
    ((v.toList.flatMap w).drop (i.val * s)).take s = w v[i] := by
  rw [drop_flatMap w hw]
  have := take_flatMap w hw (v.toList.drop i.val) 1
  rw [Nat.one_mul] at this
  rw [this, List.drop_eq_getElem_cons (by simp), List.take_succ_cons]
  simp

/-- The layout of `[T; n]`: the elements one after the other, with no gaps, aligned as `T` is.
`hybrid_array::Array` and `ManuallyDrop` are `repr(transparent)`: they have the layout of what they
wrap. (ml-kem/src/util.rs:47-53) -/
def Layout.array {C T : Type} (L : Layout C T) (n : Nat) : Layout C (Vector T n) where
  size := n * L.size
  align := L.align
  write v := v.toList.flatMap L.write
  read cells := collect fun i : Fin n => L.read ((cells.drop (i.val * L.size)).take L.size)
  size_write v := by rw [length_flatMap _ L.size_write]; simp
  read_write v := by
    apply collect_some
    intro i
    rw [slice_flatMap _ L.size_write, L.read_write]
  align_size := Nat.dvd_mul_left_of_dvd L.align_size n

/-- One allocated object: its address and what its bytes hold (ml-kem/src/util.rs:58, 87, 92) -/
structure Object (C : Type) where
  base : Nat
  cells : List C

/-- A raw pointer `*const T` into a given object, as the offset in bytes. Simplification: a pointer
belongs to one object; no code here makes a pointer out of an integer. (ml-kem/src/util.rs:59, 88, 106) -/
structure Ptr {C T : Type} (L : Layout C T) where
  offset : Nat

/-- `pointer::cast` (ml-kem/src/util.rs:59, 88, 108) -/
def Ptr.cast {C T T' : Type} {L : Layout C T} (p : Ptr L) (L' : Layout C T') : Ptr L' := ⟨p.offset⟩

/-- `pointer::add`, counting in elements. Undefined if the offset in bytes is more than `isize::MAX`
or the result is beyond the end of the object. (ml-kem/src/util.rs:88, 109) -/
def Object.add [Build] {C T : Type} {L : Layout C T} (o : Object C) (p : Ptr L) (n : Nat) :
    Res (Ptr L) :=
  if n * L.size < 2 ^ (Build.usizeBits - 1) ∧ p.offset + n * L.size ≤ o.cells.length then
    .ok ⟨p.offset + n * L.size⟩
  else .panic

/-- `ptr::read`. Undefined if the pointer is not aligned, if the value does not lie within the
object, or if the bytes are not a valid value. The memory is not changed. (ml-kem/src/util.rs:59, 88) -/
def Object.read {C T : Type} {L : Layout C T} (o : Object C) (p : Ptr L) : Res T :=
  if L.align ∣ o.base + p.offset ∧ p.offset + L.size ≤ o.cells.length then
    match L.read ((o.cells.drop p.offset).take L.size) with
    | some t => .ok t
    | none => .panic
  else .panic

/-- A reference `&T` into a given object (ml-kem/src/util.rs:92, 108) -/
structure Ref {C T : Type} (L : Layout C T) where
  offset : Nat

/-- `&*p`. A reference has to be aligned, within the object and to a valid value from the start.
(ml-kem/src/util.rs:108) -/
def Object.borrow {C T : Type} {L : Layout C T} (o : Object C) (p : Ptr L) : Res (Ref L) := do
  let _ ← o.read p
  .ok ⟨p.offset⟩

/-- What a reference refers to while nobody writes to the object (ml-kem/src/util.rs:108) -/
def Object.deref {C T : Type} {L : Layout C T} (o : Object C) (r : Ref L) : Option T :=
  L.read ((o.cells.drop r.offset).take L.size)

/-- `slice::as_ptr` of an array that is stored at the given place (ml-kem/src/util.rs:59, 88, 106) -/
def Ref.asPtr {C T : Type} {L : Layout C T} {n : Nat} (r : Ref (L.array n)) : Ptr L := ⟨r.offset⟩

/-- A valid reference: aligned, within the object and to the value `t` (ml-kem/src/util.rs:92) -/
structure Stored {C T : Type} {L : Layout C T} (o : Object C) (r : Ref L) (t : T) : Prop where
  aligned : L.align ∣ o.base + r.offset
  bound : r.offset + L.size ≤ o.cells.length
  cells : (o.cells.drop r.offset).take L.size = L.write t

/-- `Drop`: the values of type `T` whose destructors run, in this order, when a value of type `α`
goes out of scope (ml-kem/src/util.rs:58, 87) -/
class Drops (α : Type) (T : outParam Type) where
  drops : α → List T

/-- Elements of an array are dropped in order. (ml-kem/src/util.rs:47) -/
instance {T : Type} {n : Nat} : Drops (Vector T n) T where
  drops v := v.toList

/-- The elements of an array of arrays (ml-kem/src/util.rs:47) -/
instance (priority := high) {T : Type} {m n : Nat} : Drops (Vector (Vector T m) n) T where
  drops v := v.toList.flatMap fun w => w.toList

/-- `core::mem::ManuallyDrop` (ml-kem/src/util.rs:58, 87) -/
structure ManuallyDrop (α : Type) where
  value : α

/-- Nothing is dropped. (ml-kem/src/util.rs:58, 87) -/
instance {α T : Type} [Drops α T] : Drops (ManuallyDrop α) T where
  drops _ := []

end Rust.Memory
