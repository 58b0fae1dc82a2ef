import Verif.Model.Kem
/-!
Model of `==` on ML-KEM keys (`derive(PartialEq)`), with the number of elements that are compared. Derived code compares
field by field, core and hybrid-array (external) element by element, and all stop at the first difference. Arrays of bytes
are taken the same way; core hands them to `memcmp`.
-/
open Rust

namespace MlKem.Compare

/-- The result of a comparison and the number of elements compared
(what the derived `PartialEq` computes, ml-kem/src/kem.rs:23) -/
abbrev Cmp := Bool × Nat

/-- `a && b` (between the fields, ml-kem/src/kem.rs:23) -/
def both (a : Cmp) (b : Unit → Cmp) : Cmp := if a.1 then ((b ()).1, a.2 + (b ()).2) else a

/-- Arrays (of the same length) (the elements, ml-kem/src/algebra.rs:184-185) -/
def seq {α : Type} (eq : α → α → Cmp) : List α → List α → Cmp
  | a :: l, b :: l' => both (eq a b) fun _ => seq eq l l'
  | _, _ => (true, 0)

/-- A byte (of an array, ml-kem/src/kem.rs:30) -/
def byte (a b : UInt8) : Cmp := (a == b, 1)

/-- ml-kem/src/algebra.rs:17-18 -/
def fieldElement (a b : FieldElement) : Cmp := (a.val == b.val, 1)

/-- ml-kem/src/algebra.rs:184-185 -/
def nttPolynomial (a b : NttPolynomial) : Cmp := seq fieldElement a.coeffs.toList b.coeffs.toList

/-- ml-kem/src/algebra.rs:419-420 -/
def nttVector {K : Nat} (a b : NttVector K) : Cmp := seq nttPolynomial a.polys.toList b.polys.toList

/-- `B32` (ml-kem/src/kem.rs:30) -/
def b32 (a b : B32) : Cmp := seq byte a.toList b.toList

variable {P : ParameterSet}

/-- ml-kem/src/pke.rs:15-21 -/
def decryptionKey (a b : DecryptionKey P) : Cmp := nttVector a.s_hat b.s_hat

/-- ml-kem/src/pke.rs:93-100 -/
def encryptionKey (a b : EncryptionKey P) : Cmp := both (nttVector a.t_hat b.t_hat) fun _ => b32 a.rho b.rho

/-- ml-kem/src/kem.rs:147-154 -/
def encapsulationKey (a b : EncapsulationKey P) : Cmp := both (encryptionKey a.ek_pke b.ek_pke) fun _ => b32 a.h b.h

/-- ml-kem/src/kem.rs:23-31 -/
def decapsulationKey (a b : DecapsulationKey P) : Cmp :=
  both (decryptionKey a.dk_pke b.dk_pke) fun _ => both (encapsulationKey a.ek b.ek) fun _ => b32 a.z b.z

end MlKem.Compare
