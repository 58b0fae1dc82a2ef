import Verif.Spec.Fips203
/-!
Explicit hash collisions. Collisions of a compressing function always exist; what a reduction must
give is a pair of concrete inputs, so these are predicates on the two inputs.
-/
namespace Fips203
open MlKem (Sha3)

variable (S : Sha3)

/-- Two different inputs with the same SHA3-256 value -/
def CollideH (x y : List UInt8) : Prop := x ≠ y ∧ H S x = H S y
/-- Two different inputs with the same first half of SHA3-512 -/
def CollideG (x y : List UInt8) : Prop := x ≠ y ∧ (G S x).1 = (G S y).1
/-- Two different inputs with the same 32-byte SHAKE256 output -/
def CollideJ (x y : List UInt8) : Prop := x ≠ y ∧ J S x = J S y
/-- An input whose first half of SHA3-512 is the 32-byte SHAKE256 output of another input -/
def CollideGJ (x y : List UInt8) : Prop := (G S x).1 = J S y

end Fips203
