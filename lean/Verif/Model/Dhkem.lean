import Verif.Model.Crypto
/-! Model of /repo/dhkem/src -/
namespace Dhkem
open Rust MlKem

/-- dhkem/src/lib.rs:57 `DhEncapsulator<X>(X)` -/
structure DhEncapsulator (X : Type) where
  val : X
deriving DecidableEq

/-- dhkem/src/lib.rs:60 `DhDecapsulator<X>(X)` -/
structure DhDecapsulator (X : Type) where
  val : X
deriving DecidableEq

namespace DhEncapsulator
variable {X : Type}
/-- dhkem/src/lib.rs:62-66 -/
def as_ref (self : DhEncapsulator X) : X := self.val
/-- dhkem/src/lib.rs:68-72 -/
def from_ (value : X) : DhEncapsulator X := ⟨value⟩
/-- dhkem/src/lib.rs:88-90 -/
def into_inner (self : DhEncapsulator X) : X := self.val
/-- dhkem/src/lib.rs:56 `derive(Ord)`: lexicographic over the single field -/
def cmp (cmpX : X → X → Ordering) (self other : DhEncapsulator X) : Ordering :=
  (cmpX self.val other.val).then .eq
/-- dhkem/src/lib.rs:56 `derive(Hash)`, as the bytes fed to the hasher -/
def hash (hashX : X → List UInt8) (self : DhEncapsulator X) : List UInt8 := hashX self.val
/-- dhkem/src/lib.rs:56 `derive(Default)` -/
def default (defX : X) : DhEncapsulator X := ⟨defX⟩
/-- dhkem/src/lib.rs:107-109 `to_encoded_point` -/
def to_encoded_point {E : Type} (enc : X → Bool → E) (self : DhEncapsulator X) (compress : Bool) : E :=
  enc self.val compress
/-- dhkem/src/lib.rs:113-117 -/
def zeroize (zeroizeX : X → X) (self : DhEncapsulator X) : DhEncapsulator X := ⟨zeroizeX self.val⟩
end DhEncapsulator

namespace DhDecapsulator
variable {X : Type}
/-- dhkem/src/lib.rs:74-78 -/
def as_ref (self : DhDecapsulator X) : X := self.val
/-- dhkem/src/lib.rs:80-84 -/
def from_ (value : X) : DhDecapsulator X := ⟨value⟩
/-- dhkem/src/lib.rs:95-97 -/
def into_inner (self : DhDecapsulator X) : X := self.val
/-- dhkem/src/lib.rs:59 `derive(Ord)` -/
def cmp (cmpX : X → X → Ordering) (self other : DhDecapsulator X) : Ordering :=
  (cmpX self.val other.val).then .eq
/-- dhkem/src/lib.rs:59 `derive(Hash)`, as the bytes fed to the hasher -/
def hash (hashX : X → List UInt8) (self : DhDecapsulator X) : List UInt8 := hashX self.val
/-- dhkem/src/lib.rs:59 `derive(Default)` -/
def default (defX : X) : DhDecapsulator X := ⟨defX⟩
/-- dhkem/src/lib.rs:120-124 -/
def zeroize (zeroizeX : X → X) (self : DhDecapsulator X) : DhDecapsulator X := ⟨zeroizeX self.val⟩
end DhDecapsulator

/-- What `EcdhKem<C>` uses of the external `elliptic-curve` crate and `X25519Kem` of `x25519-dalek`:
secret keys, public keys, shared secrets, sampling, public-key derivation, Diffie-Hellman.
Parameter of the model. (dhkem/src/ecdh_kem.rs:29-31, 44, 62-63; dhkem/src/x25519_kem.rs:20-22, 32, 47-48) -/
structure DhGroup where
  Secret : Type
  Public : Type
  Shared : Type
  /-- `EphemeralSecret::random` / `ReusableSecret::random_from_rng` -/
  random : (rng : Rng) → rng.State → Res (Secret × rng.State)
  /-- `PublicKey::from(&sk)` and `sk.public_key()` -/
  publicKey : Secret → Public
  /-- `sk.diffie_hellman(&pk)` -/
  diffieHellman : Secret → Public → Shared

variable (C : DhGroup)

namespace EcdhKem

/-- dhkem/src/ecdh_kem.rs:24-34 `encapsulate` -/
def encapsulate (self : DhEncapsulator C.Public) (rng : Rng) (s : rng.State) :
    Res ((C.Public × C.Shared) × rng.State) := do
  let (sk, s) ← C.random rng s
  let pk := C.publicKey sk
  let ss := C.diffieHellman sk self.val
  .ok ((pk, ss), s)

/-- dhkem/src/ecdh_kem.rs:43-47 `decapsulate` -/
def decapsulate (self : DhDecapsulator C.Secret) (encapsulated_key : C.Public) : Res C.Shared :=
  let ss := C.diffieHellman self.val encapsulated_key
  .ok ss

/-- dhkem/src/ecdh_kem.rs:59-66 `random_keypair` -/
def random_keypair (rng : Rng) (s : rng.State) :
    Res ((DhDecapsulator C.Secret × DhEncapsulator C.Public) × rng.State) := do
  let (sk, s) ← C.random rng s
  let pk := C.publicKey sk
  .ok ((⟨sk⟩, ⟨pk⟩), s)

end EcdhKem

namespace X25519Kem

/-- dhkem/src/x25519_kem.rs:15-25 `encapsulate` -/
def encapsulate (self : DhEncapsulator C.Public) (rng : Rng) (s : rng.State) :
    Res ((C.Public × C.Shared) × rng.State) := do
  let (sk, s) ← C.random rng s
  let pk := C.publicKey sk
  let ss := C.diffieHellman sk self.val
  .ok ((pk, ss), s)

/-- dhkem/src/x25519_kem.rs:31-35 `decapsulate` -/
def decapsulate (self : DhDecapsulator C.Secret) (encapsulated_key : C.Public) : Res C.Shared :=
  let ss := C.diffieHellman self.val encapsulated_key
  .ok ss

/-- dhkem/src/x25519_kem.rs:44-51 `random_keypair` -/
def random_keypair (rng : Rng) (s : rng.State) :
    Res ((DhDecapsulator C.Secret × DhEncapsulator C.Public) × rng.State) := do
  let (sk, s) ← C.random rng s
  let pk := C.publicKey sk
  .ok ((⟨sk⟩, ⟨pk⟩), s)

end X25519Kem
end Dhkem
