import Verif.Rust.Basic
/-! Model of /repo/ml-kem/src/util.rs -/
namespace MlKem
open Rust

/-- ml-kem/src/util.rs:13 `B32` -/
abbrev B32 := Bytes 32

/-- ml-kem/src/util.rs:20-32 `define_truncate!`: mask the high-order bits, then convert with an
unchecked unwrap. The conversion failing would be undefined behaviour; it is modelled as `panic`. -/
def truncate {α : Type} (β : Type) [MInt α] [MInt β] (self : α) : Res β :=
  let masked : α := Rust.and self (cast (Rust.max β))
  if MInt.toNat masked < 2 ^ MInt.bits β then .ok (MInt.ofNat (MInt.toNat masked)) else .panic

/-- ml-kem/src/util.rs:36 `define_truncate!(usize, u8)`; a `usize` is a `Nat` below
`2 ^ usizeBits`. -/
def truncateUsize (self : Nat) : Res UInt8 :=
  let masked := self &&& 255
  if masked < 256 then .ok (UInt8.ofNat masked) else .panic

/-- ml-kem/src/util.rs:47-61 `Flatten::flatten`: the memory of `[[T; M]; N]` read as `[T; M*N]`.
Simplification: the pointer cast is modelled by the array layout rule (element `t` of the flat
array is element `t % M` of part `t / M`). Model/UtilMem.lean models the pointers themselves; C87
proves that they give this. -/
def flatten {T : Type} {M N : Nat} (self : Vector (Vector T M) N) : Vector T (M * N) :=
  Vector.ofFn fun t =>
    have hM : 0 < M := Nat.pos_of_ne_zero fun h => by have := t.isLt; simp [h] at this
    have h1 : t.val / M < N := Nat.div_lt_of_lt_mul t.isLt
    have h2 : t.val % M < M := Nat.mod_lt _ hM
    (self[t.val / M])[t.val % M]

/-- ml-kem/src/util.rs:73-90 `Unflatten for Array<T, N>`: part `i` is read at offset
`i * part_size` (pointer offsets lie within the array, so they do not overflow). The trait bounds `Rem<M, Output = U0>` and `Quot<N, M> = P` are the hypothesis
`N = P * M`. -/
def unflatten {T : Type} {N P M : Nat} (hN : N = P * M) (self : Vector T N) :
    Vector (Vector T P) M :=
  let part_size := P
  Vector.ofFn fun i => Vector.ofFn fun j =>
    self[i.val * part_size + j.val]'(by
      have h1 : i.val * P + j.val < (i.val + 1) * P := by
        rw [Nat.add_mul]; omega
      have h2 : (i.val + 1) * P ≤ M * P := Nat.mul_le_mul_right P i.isLt
      rw [hN, Nat.mul_comm P M]; exact Nat.lt_of_lt_of_le h1 h2)

/-- ml-kem/src/util.rs:92-113 `Unflatten for &Array<T, N>`: the pointer is advanced by `part_size`
per part. The running pointer is modelled as an element offset; a read outside the array would be
undefined behaviour and is modelled as `panic`. -/
def unflattenRef {T : Type} {N P M : Nat} (_hN : N = P * M) (self : Vector T N) :
    Res (Vector (Vector T P) M) := do
  let part_size := P
  let (v, _ptr) ← tabulateState M (σ := Nat) (fun _i ptr => do
    let part ← tabulate P fun j => idx self (ptr + j.val)
    .ok (part, ptr + part_size)) 0
  .ok v

end MlKem
