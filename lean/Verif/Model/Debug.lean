import Verif.Model.Kem
import Verif.Rust.Fmt
/-!
Model of the `Debug` implementations of the ML-KEM keys. All are derived. How hybrid-array prints an `Array` (external) is
a parameter: as a list, or as a tuple struct of some name around the list.
-/
open Rust Rust.Fmt

namespace MlKem.Debug
variable (array : Option String)

/-- hybrid-array's `Array` (ml-kem/src/algebra.rs:185) -/
def arr {α : Type} {n : Nat} (item : α → Text) (v : Vector α n) : Text :=
  let l := list (v.toList.map item)
  match array with
  | none => l
  | some name => tuple name [l]

/-- `B32`: an array of bytes (ml-kem/src/kem.rs:30) -/
def bytes {n : Nat} (b : Bytes n) : Text := arr array (fun x : UInt8 => num x.toNat) b

/-- ml-kem/src/algebra.rs:17-18 -/
def fieldElement (x : FieldElement) : Text := tuple "FieldElement" [num x.val.toNat]

/-- ml-kem/src/algebra.rs:184-185 -/
def nttPolynomial (f : NttPolynomial) : Text := tuple "NttPolynomial" [arr array fieldElement f.coeffs]

/-- ml-kem/src/algebra.rs:419-420 -/
def nttVector {K : Nat} (v : NttVector K) : Text := tuple "NttVector" [arr array (nttPolynomial array) v.polys]

variable {P : ParameterSet}

/-- ml-kem/src/pke.rs:15-21 -/
def decryptionKey (dk : DecryptionKey P) : Text := struct "DecryptionKey" [("s_hat", nttVector array dk.s_hat)]

/-- ml-kem/src/pke.rs:93-100 -/
def encryptionKey (ek : EncryptionKey P) : Text :=
  struct "EncryptionKey" [("t_hat", nttVector array ek.t_hat), ("rho", bytes array ek.rho)]

/-- ml-kem/src/kem.rs:147-154 -/
def encapsulationKey (ek : EncapsulationKey P) : Text :=
  struct "EncapsulationKey" [("ek_pke", encryptionKey array ek.ek_pke), ("h", bytes array ek.h)]

/-- ml-kem/src/kem.rs:23-31 -/
def decapsulationKey (dk : DecapsulationKey P) : Text :=
  struct "DecapsulationKey" [("dk_pke", decryptionKey array dk.dk_pke), ("ek", encapsulationKey array dk.ek),
    ("z", bytes array dk.z)]

end MlKem.Debug
