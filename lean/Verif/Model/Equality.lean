import Verif.Model.Compare
import Verif.Model.XWing
import Verif.Model.Dhkem
/-!
Model of `==` on X-Wing public keys and ciphertexts and on the wrappers of dhkem (`derive(PartialEq)`).
-/
open Rust MlKem

namespace XWing

/-- `PartialEq for x25519_dalek::PublicKey` (external crates; used at x-wing/src/lib.rs:71-75): x25519-dalek 2.0.1 derives it
from `MontgomeryPoint` of curve25519-dalek 4.1.2, where equality "is defined mod p": both strings are read as field elements,
without their highest bit. -/
def publicKeyEq (a b : Bytes 32) : Bool :=
  leValue a.toList % 2 ^ 255 % (2 ^ 255 - 19) == leValue b.toList % 2 ^ 255 % (2 ^ 255 - 19)

/-- x-wing/src/lib.rs:71-75, derived: field by field -/
def EncapsulationKey.eq (self other : EncapsulationKey) : Bool :=
  (Compare.encapsulationKey self.pk_m other.pk_m).1 && publicKeyEq self.pk_x other.pk_x

/-- x-wing/src/lib.rs:214-219, derived: field by field; byte arrays are compared byte by byte. -/
def Ciphertext.eq (self other : Ciphertext) : Bool := self.ct_m == other.ct_m && self.ct_x == other.ct_x

end XWing

namespace Dhkem

/-- dhkem/src/lib.rs:56-57, derived, from the wrapped type's -/
def DhEncapsulator.eq {X : Type} (eqX : X → X → Bool) (self other : DhEncapsulator X) : Bool := eqX self.val other.val

/-- dhkem/src/lib.rs:59-60, derived, from the wrapped type's -/
def DhDecapsulator.eq {X : Type} (eqX : X → X → Bool) (self other : DhDecapsulator X) : Bool := eqX self.val other.val

end Dhkem
