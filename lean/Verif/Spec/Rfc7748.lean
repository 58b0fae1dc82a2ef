import Verif.Rust.Basic
import Mathlib.Data.ZMod.Basic
import Mathlib.Algebra.BigOperators.Group.Finset.Basic
/-! X25519, transcribed from RFC 7748 section 5. -/
namespace Rfc7748
open Rust
open scoped BigOperators

/-- The prime `2^255 - 19` -/
def p : Nat := 2 ^ 255 - 19

/-- Its field -/
abbrev Fp := ZMod p

/-- `decodeLittleEndian(b, 255)` -/
def decodeLittleEndian (b : Bytes 32) : Nat := ∑ i : Fin 32, b[i].toNat * 2 ^ (8 * i.val)

/-- `decodeUCoordinate(u, 255)`: the unused most significant bit is masked; reduction modulo `p` is implied. -/
def decodeUCoordinate (u : Bytes 32) : Fp := (decodeLittleEndian (u.set 31 (u[31] &&& 0x7f)) : Nat)

/-- `encodeUCoordinate(u, 255)` -/
def encodeUCoordinate (u : Fp) : Bytes 32 := Vector.ofFn fun i => UInt8.ofNat (u.val / 2 ^ (8 * i.val))

/-- `decodeScalar25519(k)` -/
def decodeScalar25519 (k : Bytes 32) : Nat :=
  let k := k.set 0 (k[0] &&& 248)
  let k := k.set 31 (k[31] &&& 127)
  let k := k.set 31 (k[31] ||| 64)
  decodeLittleEndian k

/-- The variables of the loop -/
structure Ladder where
  x_2 : Fp
  z_2 : Fp
  x_3 : Fp
  z_3 : Fp
  swap : Bool

/-- `cswap(swap, x, y)` -/
def cswap (swap : Bool) (x y : Fp) : Fp × Fp := if swap then (y, x) else (x, y)

/-- The body of the loop for bit `t` -/
def step (k : Nat) (x_1 : Fp) (s : Ladder) (t : Nat) : Ladder :=
  let k_t := k.testBit t
  let swap := s.swap ^^ k_t
  let (x_2, x_3) := cswap swap s.x_2 s.x_3
  let (z_2, z_3) := cswap swap s.z_2 s.z_3
  let swap := k_t
  let A := x_2 + z_2
  let AA := A ^ 2
  let B := x_2 - z_2
  let BB := B ^ 2
  let E := AA - BB
  let C := x_3 + z_3
  let D := x_3 - z_3
  let DA := D * A
  let CB := C * B
  { x_3 := (DA + CB) ^ 2
    z_3 := x_1 * (DA - CB) ^ 2
    x_2 := AA * BB
    z_2 := E * (AA + 121665 * E)
    swap }

/-- The loop, bits 254 to 0, and the final inversion -/
def ladder (k : Nat) (u : Fp) : Fp :=
  let s := (List.range 255).reverse.foldl (step k u) { x_2 := 1, z_2 := 0, x_3 := u, z_3 := 1, swap := false }
  let (x_2, _) := cswap s.swap s.x_2 s.x_3
  let (z_2, _) := cswap s.swap s.z_2 s.z_3
  x_2 * z_2 ^ (p - 2)

/-- The function `X25519(k, u)` -/
def X25519 (k u : Bytes 32) : Bytes 32 := encodeUCoordinate (ladder (decodeScalar25519 k) (decodeUCoordinate u))

end Rfc7748
