import Verif.Model.DhkemCurves
import Verif.Model.Features
import Verif.Rust.Locals
/-!
Model of the local variables of /repo/dhkem/src/ecdh_kem.rs and /repo/dhkem/src/x25519_kem.rs. These files have no block
under the feature `zeroize`: what is erased is what the destructors of the external crates erase. Inside those crates
nothing is followed. `erasing` is whether x25519-dalek is built with its own feature `zeroize`.
-/
open Rust Rust.Locals MlKem

namespace Dhkem

/-- x25519-dalek's `ReusableSecret`: a destructor that writes zeros under that crate's feature `zeroize` (external).
(dhkem/src/x25519_kem.rs:20, 47) -/
@[instance_reducible] def reusableSecret : Stored (Bytes 32) :=
  ⟨Vector.toList, fun erasing k => if erasing then List.replicate 32 0 else k.toList⟩

/-- elliptic-curve's `EphemeralSecret`: a destructor that writes zeros, under no feature (external). The number is taken
most significant byte first. (dhkem/src/ecdh_kem.rs:29, 62) -/
@[instance_reducible] def ephemeralSecret (c : Sec2.Named) : Stored (Scalar c) :=
  ⟨fun k => (Sec2.octets c.params.size k.val).toList, fun _ _ => List.replicate c.params.size 0⟩

/-- A public key of x25519-dalek: no destructor. (dhkem/src/x25519_kem.rs:21, 48) -/
@[instance_reducible] def montgomeryPoint : Stored (Bytes 32) := ⟨Vector.toList, fun _ => Vector.toList⟩

/-- dhkem/src/lib.rs:60: no destructor of its own, so that of the wrapped value runs. -/
@[instance_reducible] def DhDecapsulator.stored {X : Type} (S : Stored X) : Stored (DhDecapsulator X) :=
  ⟨fun k => S.bits k.val, fun erasing k => S.dropped erasing k.val⟩

namespace Locals
variable (C : DhGroup) (S : Stored C.Secret) (Q : Stored C.Public) (R : Stored C.Shared) (erasing : Bool)

/-- dhkem/src/x25519_kem.rs:15-25 `encapsulate`, and dhkem/src/ecdh_kem.rs:24-34. Public keys are `Copy`; shared secrets
are moved. -/
def encapsulate (self : DhEncapsulator C.Public) (rng : Rng) (s : rng.State) :
    Run ((C.Public × C.Shared) × rng.State) := call "encapsulate" do
  let (sk, s) ← lift (C.random rng s)
  let sk ← @var _ S erasing "sk" sk
  let pk ← @var _ Q erasing "pk" (C.publicKey sk)
  let ss ← @var _ R erasing "ss" (C.diffieHellman sk self.val)
  moved "ss"
  pure ((pk, ss), s)

/-- dhkem/src/x25519_kem.rs:31-35 `decapsulate`, and dhkem/src/ecdh_kem.rs:43-47 -/
def decapsulate (self : DhDecapsulator C.Secret) (encapsulated_key : C.Public) : Run C.Shared :=
  call "decapsulate" do
  let ss ← @var _ R erasing "ss" (C.diffieHellman self.val encapsulated_key)
  moved "ss"
  pure ss

/-- dhkem/src/x25519_kem.rs:44-51 `random_keypair`, and dhkem/src/ecdh_kem.rs:59-66 -/
def random_keypair (rng : Rng) (s : rng.State) :
    Run ((DhDecapsulator C.Secret × DhEncapsulator C.Public) × rng.State) := call "random_keypair" do
  let (sk, s) ← lift (C.random rng s)
  let sk ← @var _ S erasing "sk" sk
  let pk ← @var _ Q erasing "pk" (C.publicKey sk)
  moved "sk"
  pure ((⟨sk⟩, ⟨pk⟩), s)

end Locals
end Dhkem
