import Verif.Rust.Basic
/-! External primitives, which are parameters of both the model and the specifications. -/
namespace MlKem
open Rust

/-- The hash primitives of the external `sha3` crate, as functions of the absorbed bytes. The
extendable-output functions give an infinite output stream. Parameters of the model.
(ml-kem/src/crypto.rs:5-8; x-wing/src/lib.rs:38-40) -/
structure Sha3 where
  sha3_256 : List UInt8 → Bytes 32
  sha3_512 : List UInt8 → Bytes 64
  shake128 : List UInt8 → Nat → UInt8
  shake256 : List UInt8 → Nat → UInt8

/-- A random number generator (`rand_core::CryptoRngCore`): `fill_bytes` on a buffer of `n` bytes
yields the bytes and the next state; it may panic. Parameter of the model.
(ml-kem/src/crypto.rs:4, 15; x-wing/src/lib.rs:35, 285) -/
structure Rng where
  State : Type
  fill_bytes : (n : Nat) → State → Res (Bytes n × State)

end MlKem
