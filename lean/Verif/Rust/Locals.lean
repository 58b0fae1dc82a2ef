import Verif.Rust.Basic
/-!
Local variables and what is left of them. A call has a frame of variables. When it returns, the destructors of its
variables run, and what their memory holds then stays where it is. (Nothing overwrites it here; on a real stack later
calls may.) A value that is moved takes its memory along and leaves nothing behind, which is the best that a compiler
can do; a value of a `Copy` type that is passed on stays. Temporaries and registers are not represented.
-/
namespace Rust.Locals

/-- Values with a representation in memory, and what that memory holds after the value's destructor has run, with and
without the feature `zeroize` (as ml-kem/src/kem.rs:33-42) -/
class Stored (α : Type) where
  bits : α → List UInt8
  dropped : Bool → α → List UInt8

/-- A variable of a running call: its name, what its memory holds now, and after its destructor
(as ml-kem/src/pke.rs:42-50) -/
structure Slot where
  name : String
  bits : List UInt8
  dropped : List UInt8

/-- What a variable of a call that has returned has left (as ml-kem/src/pke.rs:42-50) -/
structure Rest where
  fn : String
  name : String
  bits : List UInt8
deriving DecidableEq

/-- The variables of the running call, latest first, and what earlier calls have left (as ml-kem/src/pke.rs:42-50) -/
structure Memory where
  frame : List Slot
  dead : List Rest

/-- Computations with local variables (as ml-kem/src/pke.rs:39-60) -/
def Run (α : Type) : Type := Memory → Res (α × Memory)

variable {α β : Type}

instance : Monad Run where
  pure a := fun m => .ok (a, m)
  bind p f := fun m => do
    let (a, m) ← p m
    f a m

/-- A computation whose variables are not followed (as ml-kem/src/pke.rs:74) -/
def lift (r : Res α) : Run α := fun m => do .ok (← r, m)

/-- `let name = v` (as ml-kem/src/pke.rs:42) -/
def var [Stored α] (zeroize : Bool) (name : String) (v : α) : Run α := fun m =>
  .ok (v, { m with frame := ⟨name, Stored.bits v, Stored.dropped zeroize v⟩ :: m.frame })

/-- Change the latest variable of that name. (as ml-kem/src/pke.rs:68) -/
def update (name : String) (f : Slot → Slot) : List Slot → List Slot
  | [] => []
  | s :: l => if s.name = name then f s :: l else s :: update name f l

/-- `name = v`, or a change in place that leaves `v` there (as ml-kem/src/pke.rs:68) -/
def assign [Stored α] (zeroize : Bool) (name : String) (v : α) : Run α := fun m =>
  .ok (v, { m with frame := update name (fun s => { s with bits := Stored.bits v, dropped := Stored.dropped zeroize v }) m.frame })

/-- `name.zeroize()`: zeros are written over the variable. (x-wing/src/lib.rs:96, 149) -/
def erase (name : String) : Run Unit := fun m =>
  .ok ((), { m with frame := update name (fun s =>
    { s with bits := List.replicate s.bits.length 0, dropped := List.replicate s.bits.length 0 }) m.frame })

/-- The value of the variable is moved away. (as ml-kem/src/pke.rs:57) -/
def moved (name : String) : Run Unit := fun m =>
  .ok ((), { m with frame := m.frame.eraseP fun s => s.name = name })

/-- A call of the function `fn` (as ml-kem/src/kem.rs:138) -/
def call (fn : String) (p : Run α) : Run α := fun m => do
  let (a, m') ← p { frame := [], dead := m.dead }
  .ok (a, { frame := m.frame, dead := m'.frame.map (fun s => ⟨fn, s.name, s.dropped⟩) ++ m'.dead })

end Rust.Locals
