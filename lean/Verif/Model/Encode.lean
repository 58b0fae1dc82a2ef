import Verif.Model.Algebra
/-! Model of /repo/ml-kem/src/encode.rs and /repo/ml-kem/src/compress.rs -/
namespace MlKem
open Rust

variable [Build]

/-- ml-kem/src/encode.rs:12 `DecodedValue` -/
abbrev DecodedValue := Vector FieldElement 256

/-- ml-kem/src/encode.rs:27-29: the loop packing a chunk of values into one `u128` -/
def packChunk (D : Nat) (v : List FieldElement) : Res U128 :=
  forEach v.zipIdx (0 : U128) fun x (vj, j) => do
    .ok (Rust.or x (← Rust.shl (cast vj.val : U128) (← mulUsize D j)))

/-- ml-kem/src/encode.rs:26-32: body of the loop over chunks; returns the new contents of `b` -/
def encodeChunk (D : Nat) (v : List FieldElement) (b : List UInt8) : Res (List UInt8) := do
  let byte_step := ByteStep D
  let x ← packChunk D v
  let xb := (U128.toLeBytes x).toList
  let src ← if byte_step ≤ xb.length then Res.ok (xb.take byte_step) else .panic
  copyFromSlice b src

/-- ml-kem/src/encode.rs:17-36 `byte_encode`. `for (v, b) in vc.zip(bc)` is the loop over the zipped
chunk lists; as `256 = val_step * n` and `32 * D = byte_step * n`, no chunk is left over (this is
checked by `arrayOfList`, proved never to fail). -/
def byte_encode (D : Nat) (vals : DecodedValue) : Res (EncodedPolynomial D) := do
  let val_step := ValueStep D
  let byte_step := ByteStep D
  let bytes : EncodedPolynomial D := Vector.replicate _ 0
  let vc := chunks val_step vals.toList
  let bc := chunks byte_step bytes.toList
  let out ← (vc.zip bc).mapM fun (v, b) => encodeChunk D v b
  arrayOfList _ out.flatten

/-- ml-kem/src/encode.rs:55-62: body of the loop over the values of one chunk -/
def unpackValue (D : Nat) (x : U128) (j : Nat) : Res FieldElement := do
  let mask ← Rust.sub (← Rust.shl (1 : UInt16) D) 1
  let val ← truncate UInt16 (← Rust.shr x (← mulUsize D j))
  let val := Rust.and val mask
  if D = 12 then
    .ok ⟨← Rust.rem val FieldElement.Q⟩
  else
    .ok ⟨val⟩

/-- ml-kem/src/encode.rs:51-62: body of the loop over chunks; returns the new contents of `v` -/
def decodeChunk (D : Nat) (v : List FieldElement) (b : List UInt8) : Res (List FieldElement) := do
  let byte_step := ByteStep D
  -- `xb[..byte_step].copy_from_slice(b)` on a zeroed `[u8; 16]`
  let head ← if byte_step ≤ 16 then copyFromSlice (List.replicate byte_step 0) b else .panic
  let xb : Bytes 16 ← arrayOfList 16 (head ++ List.replicate (16 - byte_step) 0)
  let x := U128.fromLeBytes xb
  v.zipIdx.mapM fun (_, j) => unpackValue D x j

/-- ml-kem/src/encode.rs:41-66 `byte_decode` -/
def byte_decode (D : Nat) (bytes : EncodedPolynomial D) : Res DecodedValue := do
  let val_step := ValueStep D
  let byte_step := ByteStep D
  let vals : DecodedValue := Vector.replicate _ ⟨0⟩
  let vc := chunks val_step vals.toList
  let bc := chunks byte_step bytes.toList
  let out ← (vc.zip bc).mapM fun (v, b) => decodeChunk D v b
  arrayOfList _ out.flatten

/-- ml-kem/src/algebra.rs:154 `PolynomialVector` -/
structure PolynomialVector (K : Nat) where
  polys : Vector Polynomial K
deriving DecidableEq

/-- ml-kem/src/algebra.rs:420 `NttVector` -/
structure NttVector (K : Nat) where
  polys : Vector NttPolynomial K
deriving DecidableEq

/-- ml-kem/src/encode.rs:77-79 -/
def Polynomial.encode (D : Nat) (self : Polynomial) : Res (EncodedPolynomial D) :=
  byte_encode D self.coeffs
/-- ml-kem/src/encode.rs:81-83 -/
def Polynomial.decode (D : Nat) (enc : EncodedPolynomial D) : Res Polynomial := do
  .ok ⟨← byte_decode D enc⟩
/-- ml-kem/src/encode.rs:112-114 -/
def NttPolynomial.encode (D : Nat) (self : NttPolynomial) : Res (EncodedPolynomial D) :=
  byte_encode D self.coeffs
/-- ml-kem/src/encode.rs:116-118 -/
def NttPolynomial.decode (D : Nat) (enc : EncodedPolynomial D) : Res NttPolynomial := do
  .ok ⟨← byte_decode D enc⟩
/-- ml-kem/src/encode.rs:93-96 -/
def PolynomialVector.encode (D : Nat) {K : Nat} (self : PolynomialVector K) :
    Res (EncodedPolynomialVector D K) := do
  let polys ← mapVec (Polynomial.encode D) self.polys
  .ok (VectorEncodingSize.flatten polys)
/-- ml-kem/src/encode.rs:98-106 -/
def PolynomialVector.decode (D : Nat) {K : Nat} (enc : EncodedPolynomialVector D K) :
    Res (PolynomialVector K) := do
  let unfold_ ← VectorEncodingSize.unflatten enc
  .ok ⟨← mapVec (Polynomial.decode D) unfold_⟩
/-- ml-kem/src/encode.rs:128-131 -/
def NttVector.encode (D : Nat) {K : Nat} (self : NttVector K) :
    Res (EncodedPolynomialVector D K) := do
  let polys ← mapVec (NttPolynomial.encode D) self.polys
  .ok (VectorEncodingSize.flatten polys)
/-- ml-kem/src/encode.rs:133-141 -/
def NttVector.decode (D : Nat) {K : Nat} (enc : EncodedPolynomialVector D K) :
    Res (NttVector K) := do
  let unfold_ ← VectorEncodingSize.unflatten enc
  .ok ⟨← mapVec (NttPolynomial.decode D) unfold_⟩

/-! ### compress.rs -/

/-- ml-kem/src/compress.rs:17 `POW2_HALF` (compile-time constant; `T::USIZE - 1` requires `1 ≤ D`) -/
def POW2_HALF (D : Nat) : UInt32 := UInt32.ofNat (1 <<< (D - 1))
/-- ml-kem/src/compress.rs:18 `MASK` (compile-time constant; requires `D < 16`) -/
def MASK (D : Nat) : UInt16 := UInt16.ofNat ((1 <<< D) - 1)
/-- ml-kem/src/compress.rs:19 `DIV_SHIFT` -/
def DIV_SHIFT : Nat := 34
/-- ml-kem/src/compress.rs:21 `DIV_MUL` -/
def DIV_MUL : UInt64 := UInt64.ofNat ((1 <<< DIV_SHIFT) / 3329)
/-- ml-kem/src/compress.rs:38 `Q_HALF` -/
def Q_HALF : UInt64 := UInt64.ofNat ((3329 + 1) >>> 1)

/-- ml-kem/src/compress.rs:37-43 -/
def FieldElement.compress (D : Nat) (self : FieldElement) : Res FieldElement := do
  let x : UInt64 := cast self.val
  let y ← truncate UInt32
    (← Rust.shr (← Rust.mul (← Rust.add (← Rust.shl x D) Q_HALF) DIV_MUL) DIV_SHIFT)
  .ok ⟨Rust.and (← truncate UInt16 y) (MASK D)⟩

/-- ml-kem/src/compress.rs:46-51 -/
def FieldElement.decompress (D : Nat) (self : FieldElement) : Res FieldElement := do
  let x : UInt32 := cast self.val
  let y ← Rust.shr (← Rust.add (← Rust.mul x FieldElement.Q32) (POW2_HALF D)) D
  .ok ⟨← truncate UInt16 y⟩

/-- ml-kem/src/compress.rs:54-60 -/
def Polynomial.compress (D : Nat) (self : Polynomial) : Res Polynomial := do
  .ok ⟨← mapVec (FieldElement.compress D) self.coeffs⟩
/-- ml-kem/src/compress.rs:62-68 -/
def Polynomial.decompress (D : Nat) (self : Polynomial) : Res Polynomial := do
  .ok ⟨← mapVec (FieldElement.decompress D) self.coeffs⟩
/-- ml-kem/src/compress.rs:72-78 -/
def PolynomialVector.compress (D : Nat) {K : Nat} (self : PolynomialVector K) :
    Res (PolynomialVector K) := do
  .ok ⟨← mapVec (Polynomial.compress D) self.polys⟩
/-- ml-kem/src/compress.rs:80-86 -/
def PolynomialVector.decompress (D : Nat) {K : Nat} (self : PolynomialVector K) :
    Res (PolynomialVector K) := do
  .ok ⟨← mapVec (Polynomial.decompress D) self.polys⟩

end MlKem
