import Verif.Model.Util
/-! Model of the size arithmetic of /repo/ml-kem/src/param.rs and of the parameter sets of lib.rs -/
namespace MlKem
open Rust

/-- ml-kem/src/param.rs:41 `EncodingUnit<D>` -/
def EncodingUnit (D : Nat) : Nat := (D * 8) / Nat.gcd D 8
/-- ml-kem/src/param.rs:55 `EncodedPolynomialSize = Prod<D, U32>` -/
abbrev EncodedPolynomialSize (D : Nat) : Nat := D * 32
/-- ml-kem/src/param.rs:56 `ValueStep` -/
def ValueStep (D : Nat) : Nat := EncodingUnit D / D
/-- ml-kem/src/param.rs:57 `ByteStep` -/
def ByteStep (D : Nat) : Nat := EncodingUnit D / 8
/-- ml-kem/src/param.rs:44 -/
abbrev EncodedPolynomial (D : Nat) := Bytes (EncodedPolynomialSize D)
/-- ml-kem/src/param.rs:83 `EncodedPolynomialVectorSize` -/
abbrev EncodedPolynomialVectorSize (D K : Nat) : Nat := EncodedPolynomialSize D * K
/-- ml-kem/src/param.rs:73 -/
abbrev EncodedPolynomialVector (D K : Nat) := Bytes (EncodedPolynomialVectorSize D K)

/-- ml-kem/src/param.rs:85-87 `VectorEncodingSize::flatten` -/
def VectorEncodingSize.flatten {D K : Nat} (polys : Vector (EncodedPolynomial D) K) :
    EncodedPolynomialVector D K :=
  MlKem.flatten polys

/-- ml-kem/src/param.rs:89-91 `VectorEncodingSize::unflatten` -/
def VectorEncodingSize.unflatten {D K : Nat} (vec : EncodedPolynomialVector D K) :
    Res (Vector (EncodedPolynomial D) K) :=
  MlKem.unflattenRef rfl vec

/-- The integers for which ml-kem/src/param.rs:134-144 implements `CbdSamplingSize`. -/
inductive CbdSize where
  | U2
  | U3
deriving DecidableEq, Repr

/-- The integer a `CbdSize` stands for. (ml-kem/src/lib.rs:158-159, 171-172, 184-185) -/
def CbdSize.toNat : CbdSize → Nat
  | .U2 => 2
  | .U3 => 3
/-- ml-kem/src/param.rs:135,141 `SampleSize` -/
def CbdSize.SampleSize : CbdSize → Nat
  | .U2 => 4
  | .U3 => 6
/-- ml-kem/src/param.rs:136,142 `OnesSize` -/
def CbdSize.OnesSize : CbdSize → Nat
  | .U2 => 16
  | .U3 => 64

/-- ml-kem/src/param.rs:148-165 `ParameterSet` -/
structure ParameterSet where
  K : Nat
  Eta1 : CbdSize
  Eta2 : CbdSize
  Du : Nat
  Dv : Nat
deriving DecidableEq, Repr

/-- ml-kem/src/lib.rs:156-162 -/
def MlKem512Params : ParameterSet := { K := 2, Eta1 := .U3, Eta2 := .U2, Du := 10, Dv := 4 }
/-- ml-kem/src/lib.rs:169-175 -/
def MlKem768Params : ParameterSet := { K := 3, Eta1 := .U2, Eta2 := .U2, Du := 10, Dv := 4 }
/-- ml-kem/src/lib.rs:182-188 -/
def MlKem1024Params : ParameterSet := { K := 4, Eta1 := .U2, Eta2 := .U2, Du := 11, Dv := 5 }

namespace ParameterSet
variable (P : ParameterSet)

/-- ml-kem/src/param.rs:167 -/
abbrev EncodedUSize : Nat := EncodedPolynomialVectorSize P.Du P.K
/-- ml-kem/src/param.rs:168 -/
abbrev EncodedVSize : Nat := EncodedPolynomialSize P.Dv
/-- ml-kem/src/param.rs:206 -/
abbrev NttVectorSize : Nat := EncodedPolynomialVectorSize 12 P.K
/-- ml-kem/src/param.rs:207 -/
abbrev EncryptionKeySize : Nat := P.NttVectorSize + 32
/-- ml-kem/src/param.rs:208 -/
abbrev CiphertextSize : Nat := P.EncodedUSize + P.EncodedVSize
/-- ml-kem/src/param.rs:272 -/
abbrev DecapsulationKeySize : Nat := ((P.NttVectorSize + P.EncryptionKeySize) + 32) + 32
/-- ml-kem/src/param.rs:257 -/
abbrev EncapsulationKeySize : Nat := P.EncryptionKeySize

/-- ml-kem/src/param.rs:190 -/
abbrev EncodedDecryptionKey := Bytes P.NttVectorSize
/-- ml-kem/src/param.rs:191 -/
abbrev EncodedEncryptionKey := Bytes P.EncryptionKeySize
/-- ml-kem/src/param.rs:192 -/
abbrev EncodedCiphertext := Bytes P.CiphertextSize
/-- ml-kem/src/param.rs:259 -/
abbrev EncodedDecapsulationKey := Bytes P.DecapsulationKeySize

variable {P}

/-- ml-kem/src/param.rs:218-220 -/
def concat_ct (u : Bytes P.EncodedUSize) (v : Bytes P.EncodedVSize) : P.EncodedCiphertext :=
  concat u v
/-- ml-kem/src/param.rs:222-224 -/
def split_ct (ct : P.EncodedCiphertext) : Bytes P.EncodedUSize × Bytes P.EncodedVSize :=
  splitRef ct
/-- ml-kem/src/param.rs:226-228 -/
def concat_ek (t_hat : Bytes P.NttVectorSize) (rho : B32) : P.EncodedEncryptionKey :=
  concat t_hat rho
/-- ml-kem/src/param.rs:230-232 -/
def split_ek (ek : P.EncodedEncryptionKey) : Bytes P.NttVectorSize × B32 :=
  splitRef ek
/-- ml-kem/src/param.rs:274-281 -/
def concat_dk (dk : P.EncodedDecryptionKey) (ek : P.EncodedEncryptionKey) (h z : B32) :
    P.EncodedDecapsulationKey :=
  concat (concat (concat dk ek) h) z
/-- ml-kem/src/param.rs:284-297 -/
def split_dk (enc : P.EncodedDecapsulationKey) :
    P.EncodedDecryptionKey × P.EncodedEncryptionKey × B32 × B32 :=
  let (enc, z) := splitRef enc
  let (enc, h) := splitRef enc
  let (dk_pke, ek_pke) := splitRef enc
  (dk_pke, ek_pke, h, z)

end ParameterSet
end MlKem
