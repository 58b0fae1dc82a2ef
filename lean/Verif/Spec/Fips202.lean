import Verif.Rust.Extern
import Mathlib.Logic.Function.Iterate
/-! SHA-3 and SHAKE (FIPS 202), on natural numbers so that Lean's kernel evaluates them quickly. -/
namespace Fips202
open Rust

/-- A state of 25 lanes of 64 bits; lane `(x, y)` is entry `5y + x` (section 3.1.2) -/
def lane (A : List Nat) (x y : Nat) : Nat := A.getD (5 * (y % 5) + x % 5) 0

/-- The state with given lanes -/
def state (f : Nat → Nat → Nat) : List Nat := (List.range 25).map fun i => f (i % 5) (i / 5)

/-- The rotation of a lane by `n` bits towards higher bits -/
def rotl (n x : Nat) : Nat := (x <<< n ||| x >>> (64 - n)) % 2 ^ 64

/-- Algorithm 1: the parities of the columns, then the step -/
def columns (A : List Nat) : List Nat :=
  (List.range 5).map fun x => lane A x 0 ^^^ lane A x 1 ^^^ lane A x 2 ^^^ lane A x 3 ^^^ lane A x 4
def theta (A : List Nat) : List Nat :=
  let C := columns A
  let D := (List.range 5).map fun x => C.getD ((x + 4) % 5) 0 ^^^ rotl 1 (C.getD ((x + 1) % 5) 0)
  state fun x y => lane A x y ^^^ D.getD x 0

/-- Algorithm 2: lane `(x, y)` is rotated by `(t + 1)(t + 2)/2` where `t` is the step at which the walk
`(x, y) ↦ (y, 2x + 3y)` from `(1, 0)` is at `(x, y)`; Table 2 lists these numbers modulo 64 -/
def offsets : List Nat := [0, 1, 62, 28, 27, 36, 44, 6, 55, 20, 3, 10, 43, 25, 39, 41, 45, 15, 21, 8, 18, 2, 61, 56, 14]
def rho (A : List Nat) : List Nat := state fun x y => rotl (lane offsets x y) (lane A x y)

/-- Algorithm 3 -/
def pi (A : List Nat) : List Nat := state fun x y => lane A (x + 3 * y) x

/-- Algorithm 4 -/
def chi (A : List Nat) : List Nat :=
  state fun x y => lane A x y ^^^ ((2 ^ 64 - 1 - lane A (x + 1) y) &&& lane A (x + 2) y)

/-- Algorithm 5: a bit of the shift register with feedback, `t` modulo 255 -/
def step5 (R : Nat) : Nat := if R < 128 then 2 * R else (2 * R) ^^^ 0x171
def rc (t : Nat) : Nat := (step5^[t % 255] 1) % 2
/-- Algorithm 6: the round constants -/
def RC (i : Nat) : Nat := ((List.range 7).map fun j => rc (j + 7 * i) <<< (2 ^ j - 1)).sum
def iota (i : Nat) (A : List Nat) : List Nat := state fun x y => if x = 0 ∧ y = 0 then lane A x y ^^^ RC i else lane A x y

/-- Algorithm 7 with 24 rounds: KECCAK-f[1600] (section 3.4) -/
def keccakF (A : List Nat) : List Nat := (List.range 24).foldl (fun A i => iota i (chi (pi (rho (theta A))))) A

/-- Eight bytes as a lane, the first byte lowest (section B.1) -/
def toLanes : List UInt8 → List Nat
  | a :: b :: c :: d :: e :: f :: g :: h :: l =>
    (a.toNat + 2 ^ 8 * (b.toNat + 2 ^ 8 * (c.toNat + 2 ^ 8 * (d.toNat + 2 ^ 8 * (e.toNat + 2 ^ 8 * (f.toNat + 2 ^ 8 *
      (g.toNat + 2 ^ 8 * h.toNat))))))) :: toLanes l
  | _ => []

/-- `pad10*1` after the suffix bits: the message is followed by a byte with suffix and first 1, zeros, and a last 1 at
the end of the block (sections 5.1, 6, B.2) -/
def pad (r : Nat) (suffix : UInt8) (m : List UInt8) : List UInt8 :=
  let n := r - m.length % r
  m ++ if n = 1 then [suffix + 0x80] else [suffix] ++ List.replicate (n - 2) 0 ++ [0x80]

/-- Algorithm 8, steps 1 to 6: `n` blocks of `r` bytes are absorbed -/
def absorb (r : Nat) : Nat → List Nat → List UInt8 → List Nat
  | 0, A, _ => A
  | n + 1, A, m =>
    absorb r n (keccakF (state fun x y => lane A x y ^^^ lane (toLanes (m.take r) ++ List.replicate (25 - r / 8) 0) x y))
      (m.drop r)

/-- The state after absorbing a message -/
def sponge (r : Nat) (suffix : UInt8) (m : List UInt8) : List Nat :=
  absorb r (m.length / r + 1) (List.replicate 25 0) (pad r suffix m)

/-- Algorithm 8, steps 7 to 10: byte `i` of the output -/
def outByte (r : Nat) (A : List Nat) (i : Nat) : UInt8 :=
  UInt8.ofNat ((keccakF^[i / r] A).getD (i % r / 8) 0 >>> (8 * (i % r % 8)))

/-- Section 6: the hash functions, with rate `r = 200 - c/8` bytes and suffix bits `01` or `1111`, then the first 1 of
the padding -/
def sha3 : MlKem.Sha3 where
  sha3_256 m := Vector.ofFn fun i => outByte 136 (sponge 136 0x06 m) i.val
  sha3_512 m := Vector.ofFn fun i => outByte 72 (sponge 72 0x06 m) i.val
  shake128 m i := outByte 168 (sponge 168 0x1f m) i
  shake256 m i := outByte 136 (sponge 136 0x1f m) i

end Fips202
