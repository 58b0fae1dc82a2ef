import Verif.Model.Param
import Verif.Rust.Extern
/-! Model of /repo/ml-kem/src/crypto.rs -/
namespace MlKem
open Rust

/-- ml-kem/src/crypto.rs:13-17 `rand` -/
def rand (rng : Rng) (L : Nat) (s : rng.State) : Res (Bytes L × rng.State) :=
  rng.fill_bytes L s

/-- An incremental hasher: the state is the list of bytes absorbed so far; `update` appends.
(ml-kem/src/crypto.rs:20-23, 35-36, 47-50, 64-66, 75-77) -/
def hashUpdate (h : List UInt8) (x : List UInt8) : List UInt8 := h ++ x

/-- An XOF reader: the output stream and the read position. (ml-kem/src/crypto.rs:51, 67, 78) -/
structure XofReader where
  stream : Nat → UInt8
  pos : Nat

/-- `XofReader::read` into a buffer of `n` bytes (ml-kem/src/crypto.rs:54, 70) -/
def XofReader.read (n : Nat) (r : XofReader) : Bytes n × XofReader :=
  (Vector.ofFn fun i => r.stream (r.pos + i.val), { r with pos := r.pos + n })

variable (H : Sha3)

/-- ml-kem/src/crypto.rs:19-32 `G` -/
def G (inputs : List (List UInt8)) : B32 × B32 :=
  let h := inputs.foldl hashUpdate []
  let out := H.sha3_512 h
  let a : B32 := Vector.ofFn fun i => out[i.val]
  let b : B32 := Vector.ofFn fun i => out[32 + i.val]
  (a, b)

/-- ml-kem/src/crypto.rs:34-44 `H` -/
def Hash (x : List UInt8) : B32 :=
  H.sha3_256 (hashUpdate [] x)

/-- ml-kem/src/crypto.rs:46-56 `J` -/
def J (inputs : List (List UInt8)) : B32 :=
  let h := inputs.foldl hashUpdate []
  let r : XofReader := { stream := H.shake256 h, pos := 0 }
  (r.read 32).1

/-- ml-kem/src/crypto.rs:60-72 `PRF` -/
def PRF (Eta : CbdSize) (s : B32) (b : UInt8) : EncodedPolynomial Eta.SampleSize :=
  let h := hashUpdate (hashUpdate [] s.toList) [b]
  let r : XofReader := { stream := H.shake256 h, pos := 0 }
  (r.read (EncodedPolynomialSize Eta.SampleSize)).1

/-- ml-kem/src/crypto.rs:74-79 `XOF` -/
def XOF (rho : B32) (i j : UInt8) : XofReader :=
  let h := hashUpdate (hashUpdate [] rho.toList) [i, j]
  { stream := H.shake128 h, pos := 0 }

end MlKem
