import Verif.Model.Kem
/-! Model of /repo/x-wing/src/lib.rs -/
namespace XWing
open Rust MlKem

variable [Build]

/-- The external `x25519-dalek` crate: the function `x25519(k, u)` and
`PublicKey::from(&StaticSecret)` on byte strings. Parameters of the model.
(x-wing/src/lib.rs:41, 88-89, 143, 194-195) -/
structure X25519 where
  x25519 : Bytes 32 → Bytes 32 → Bytes 32
  publicKey : Bytes 32 → Bytes 32

/-- `X25519_BASEPOINT_BYTES` of x25519-dalek: the byte 9 followed by 31 zero bytes (x-wing/src/lib.rs:41, 88) -/
def X25519_BASEPOINT_BYTES : Bytes 32 := Vector.ofFn fun i => if i.val = 0 then 9 else 0

/-- x-wing/src/lib.rs:48 `X_WING_LABEL` = `\.//^\` -/
def X_WING_LABEL : Bytes 6 := #v[0x5c, 0x2e, 0x2f, 0x2f, 0x5e, 0x5c]

/-- x-wing/src/lib.rs:51 -/
def ENCAPSULATION_KEY_SIZE : Nat := 1216
/-- x-wing/src/lib.rs:53 -/
def DECAPSULATION_KEY_SIZE : Nat := 32
/-- x-wing/src/lib.rs:55 -/
def CIPHERTEXT_SIZE : Nat := 1120

/-- x-wing/src/lib.rs:58 -/
abbrev SharedSecret := Bytes 32

/-- x-wing/src/lib.rs:72-75 -/
structure EncapsulationKey where
  pk_m : MlKem.EncapsulationKey MlKem768Params
  pk_x : Bytes 32
deriving DecidableEq

/-- x-wing/src/lib.rs:133-135 -/
structure DecapsulationKey where
  sk : Bytes DECAPSULATION_KEY_SIZE
deriving DecidableEq

/-- x-wing/src/lib.rs:216-219 -/
structure Ciphertext where
  ct_m : Bytes 1088
  ct_x : Bytes 32
deriving DecidableEq

variable (H : Sha3) (X : X25519)

/-- x-wing/src/lib.rs:260-275 `combiner` -/
def combiner (ss_m : B32) (ss_x ct_x pk_x : Bytes 32) : SharedSecret :=
  let hasher : List UInt8 := []
  let hasher := hashUpdate hasher X_WING_LABEL.toList
  let hasher := hashUpdate hasher ss_m.toList
  let hasher := hashUpdate hasher ss_x.toList
  let hasher := hashUpdate hasher ct_x.toList
  let hasher := hashUpdate hasher pk_x.toList
  H.sha3_256 hasher

/-- x-wing/src/lib.rs:277-281 `read_from` -/
def read_from (N : Nat) (reader : XofReader) : Bytes N × XofReader :=
  reader.read N

/-- x-wing/src/lib.rs:283-287 `generate` -/
def generate (rng : Rng) (N : Nat) (s : rng.State) : Res (Bytes N × rng.State) :=
  rng.fill_bytes N s

namespace EncapsulationKey

/-- x-wing/src/lib.rs:80-101 `encapsulate`; the error type is `Infallible`. -/
def encapsulate (self : EncapsulationKey) (rng : Rng) (s : rng.State) :
    Res ((Ciphertext × SharedSecret) × rng.State) := do
  let ((ct_m, ss_m), s) ← self.pk_m.encapsulate H rng s
  let (ek_x, s) ← generate rng 32 s
  let ct_x := X.x25519 ek_x X25519_BASEPOINT_BYTES
  let ss_x := X.x25519 ek_x self.pk_x
  let ss := combiner H ss_m ss_x ct_x self.pk_x
  let ct : Ciphertext := { ct_m, ct_x }
  .ok ((ct, ss), s)

/-- x-wing/src/lib.rs:108-113 `as_bytes` -/
def as_bytes (self : EncapsulationKey) : Res (Bytes ENCAPSULATION_KEY_SIZE) := do
  let buffer : List UInt8 := List.replicate ENCAPSULATION_KEY_SIZE 0
  let buffer ← copyIntoRange buffer 0 1184 (← self.pk_m.as_bytes).toList
  let buffer ← copyIntoRange buffer 1184 1216 self.pk_x.toList
  arrayOfList _ buffer

/-- x-wing/src/lib.rs:117-126 `From<&[u8; 1216]>` -/
def from_bytes (value : Bytes ENCAPSULATION_KEY_SIZE) : Res EncapsulationKey := do
  let pk_m ← copyFromSlice (List.replicate 1184 0) (← sliceRange value.toList 0 1184)
  let pk_m : Bytes 1184 ← arrayOfList 1184 pk_m
  let pk_m ← MlKem.EncapsulationKey.from_bytes H (P := MlKem768Params) pk_m
  let pk_x ← copyFromSlice (List.replicate 32 0) (← sliceRange value.toList 1184 1216)
  let pk_x : Bytes 32 ← arrayOfList 32 pk_x
  .ok { pk_m, pk_x }

end EncapsulationKey

namespace DecapsulationKey

/-- x-wing/src/lib.rs:176-198 `expand_key`. A `StaticSecret` is its 32 bytes. -/
def expand_key (self : DecapsulationKey) :
    Res (MlKem.DecapsulationKey MlKem768Params × Bytes 32 ×
      MlKem.EncapsulationKey MlKem768Params × Bytes 32) := do
  let shaker := hashUpdate [] self.sk.toList
  let expanded : XofReader := { stream := H.shake128 shaker, pos := 0 }
  let (d, expanded) := read_from 32 expanded
  let (z, expanded) := read_from 32 expanded
  let (sk_m, pk_m) ← Kem.generate_deterministic H MlKem768Params d z
  let (sk_x, _expanded) := read_from 32 expanded
  let pk_x := X.publicKey sk_x
  .ok (sk_m, sk_x, pk_m, pk_x)

/-- x-wing/src/lib.rs:140-153 `decapsulate`; the error type is `Infallible`. -/
def decapsulate (self : DecapsulationKey) (ct : Ciphertext) : Res SharedSecret := do
  let (sk_m, sk_x, _pk_m, pk_x) ← self.expand_key H X
  let ss_m ← sk_m.decapsulate H ct.ct_m
  let ss_x := X.x25519 sk_x ct.ct_x
  let ss := combiner H ss_m ss_x ct.ct_x pk_x
  .ok ss

/-- x-wing/src/lib.rs:164-167 `DecapsulationKey::generate` -/
def generate (rng : Rng) (s : rng.State) : Res (DecapsulationKey × rng.State) := do
  let (sk, s) ← XWing.generate rng 32 s
  .ok ({ sk }, s)

/-- x-wing/src/lib.rs:171-174 `encapsulation_key` -/
def encapsulation_key (self : DecapsulationKey) : Res EncapsulationKey := do
  let (_sk_m, _sk_x, pk_m, pk_x) ← self.expand_key H X
  .ok { pk_m, pk_x }

/-- x-wing/src/lib.rs:202-204 `as_bytes` -/
def as_bytes (self : DecapsulationKey) : Bytes DECAPSULATION_KEY_SIZE := self.sk

/-- x-wing/src/lib.rs:207-211 `From<[u8; 32]>` -/
def from_bytes (sk : Bytes DECAPSULATION_KEY_SIZE) : DecapsulationKey := { sk }

/-- x-wing/src/lib.rs:131 `derive(Zeroize, ZeroizeOnDrop)`: memory contents after drop -/
def drop (self : DecapsulationKey) : DecapsulationKey := { sk := bytesZeroize self.sk }

end DecapsulationKey

namespace Ciphertext

/-- x-wing/src/lib.rs:225-230 `as_bytes` -/
def as_bytes (self : Ciphertext) : Res (Bytes CIPHERTEXT_SIZE) := do
  let buffer : List UInt8 := List.replicate CIPHERTEXT_SIZE 0
  let buffer ← copyIntoRange buffer 0 1088 self.ct_m.toList
  let buffer ← copyIntoRange buffer 1088 CIPHERTEXT_SIZE self.ct_x.toList
  arrayOfList _ buffer

/-- x-wing/src/lib.rs:234-244 `From<&[u8; 1120]>` -/
def from_bytes (value : Bytes CIPHERTEXT_SIZE) : Res Ciphertext := do
  let ct_m ← copyFromSlice (List.replicate 1088 0) (← sliceRange value.toList 0 1088)
  let ct_m : Bytes 1088 ← arrayOfList 1088 ct_m
  let ct_x ← copyFromSlice (List.replicate 32 0) (← sliceRange value.toList 1088 CIPHERTEXT_SIZE)
  let ct_x : Bytes 32 ← arrayOfList 32 ct_x
  .ok { ct_m, ct_x }

/-- x-wing/src/lib.rs:215 `derive(Zeroize, ZeroizeOnDrop)`: memory contents after drop -/
def drop (self : Ciphertext) : Ciphertext :=
  { ct_m := bytesZeroize self.ct_m, ct_x := bytesZeroize self.ct_x }

end Ciphertext

/-- x-wing/src/lib.rs:254-258 `generate_key_pair` -/
def generate_key_pair (rng : Rng) (s : rng.State) :
    Res ((DecapsulationKey × EncapsulationKey) × rng.State) := do
  let (sk, s) ← DecapsulationKey.generate rng s
  let pk ← sk.encapsulation_key H X
  .ok ((sk, pk), s)

end XWing
