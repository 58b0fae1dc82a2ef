import Verif.Rust.Memory
/-! Model of the `unsafe` blocks of /repo/ml-kem/src/util.rs:47-113 at the level of memory. The
element type `T`, its layout and the place where the array lies are arbitrary. A function that takes
the array by value also returns the values whose destructors it runs. -/
namespace MlKem.Mem
open Rust Rust.Memory

variable [Build] {C T : Type}

omit [Build] in
/-- ml-kem/src/util.rs:57-60 `Flatten::flatten`. `place` is where `whole` lies. -/
def flatten (L : Layout C T) {M N : Nat} (o : Object C) (place : Ref ((L.array M).array N))
    (self : Vector (Vector T M) N) : Res (Vector T (M * N) × List T) := do
  let whole : ManuallyDrop _ := ⟨self⟩
  let result ← o.read (place.asPtr.cast (L.array (M * N)))
  .ok (result, Drops.drops whole)

/-- ml-kem/src/util.rs:85-89 `Unflatten for Array<T, N>`. `Quot<N, M>` is `N / M`. -/
def unflatten (L : Layout C T) {N : Nat} (M : Nat) (o : Object C) (place : Ref (L.array N))
    (self : Vector T N) : Res (Vector (Vector T (N / M)) M × List T) := do
  let part_size := N / M
  let whole : ManuallyDrop _ := ⟨self⟩
  let result ← tabulate M fun i => do
    let k ← mulUsize i.val part_size
    let p ← o.add place.asPtr k
    o.read (p.cast (L.array (N / M)))
  .ok (result, Drops.drops whole)

/-- ml-kem/src/util.rs:104-112 `Unflatten for &'a Array<T, N>` -/
def unflattenRef (L : Layout C T) {N : Nat} (M : Nat) (o : Object C) (self : Ref (L.array N)) :
    Res (Vector (Ref (L.array (N / M))) M) := do
  let part_size := N / M
  let (result, _ptr) ← tabulateState M (fun _i (ptr : Ptr L) => do
    let part ← o.borrow (ptr.cast (L.array (N / M)))
    let ptr ← o.add ptr part_size
    .ok (part, ptr)) self.asPtr
  .ok result

end MlKem.Mem
