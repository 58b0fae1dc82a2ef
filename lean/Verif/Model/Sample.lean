import Verif.Model.Encode
/-! Model of /repo/ml-kem/src/algebra.rs, part 2 (sampling, vectors, matrices) and of the CBD tables of
/repo/ml-kem/src/param.rs -/
namespace MlKem
open Rust

variable [Build]

/-- `usize::count_ones` (ml-kem/src/param.rs:122-123) -/
def countOnes (x : Nat) : Nat := ((List.range 64).filter fun i => x.testBit i).length

/-- ml-kem/src/param.rs:110-132 `ones_array::<B, N, U>`. Compile-time constant, arithmetic on `Nat`
(`x_ones + Q - y_ones` is at most 64 + 3329). -/
def ones_array (B N : Nat) : Vector FieldElement N :=
  let max := 1 <<< B
  (range 0 max).foldl (fun out x =>
    (range 0 max).foldl (fun out y =>
      let x_ones := countOnes x
      let y_ones := countOnes y
      let i := x + (y <<< B)
      out.setIfInBounds i ⟨UInt16.ofNat ((x_ones + 3329 - y_ones) % 3329)⟩) out)
    (Vector.replicate N ⟨0⟩)

/-- ml-kem/src/param.rs:137,143 `ONES` -/
def CbdSize.ONES : (Eta : CbdSize) → Vector FieldElement Eta.OnesSize
  | .U2 => ones_array 2 16
  | .U3 => ones_array 3 64

/-- ml-kem/src/algebra.rs:143-149 `Polynomial::sample_cbd` -/
def Polynomial.sample_cbd (Eta : CbdSize) (B : EncodedPolynomial Eta.SampleSize) :
    Res Polynomial := do
  let vals ← Polynomial.decode Eta.SampleSize B
  .ok ⟨← mapVec (fun val => idx Eta.ONES val.val.toNat) vals.coeffs⟩

/-- ml-kem/src/algebra.rs:159-167 `PolynomialVector + PolynomialVector` -/
def PolynomialVector.add {K : Nat} (self rhs : PolynomialVector K) : Res (PolynomialVector K) := do
  .ok ⟨← zipVec Polynomial.add self.polys rhs.polys⟩

/-- ml-kem/src/algebra.rs:171-180 `PolynomialVector::sample_cbd` -/
def PolynomialVector.sample_cbd (H : Sha3) (K : Nat) (Eta : CbdSize) (sigma : B32) (start_n : UInt8) :
    Res (PolynomialVector K) := do
  .ok ⟨← tabulate K fun i => do
    let N ← Rust.add start_n (← truncateUsize i.val)
    let prf_output := PRF H Eta sigma N
    Polynomial.sample_cbd Eta prf_output⟩

/-- ml-kem/src/algebra.rs:211-216 `FieldElementReader` -/
structure FieldElementReader where
  xof : XofReader
  data : Bytes 96
  start : Nat
  next : Option UInt16

/-- ml-kem/src/algebra.rs:219-231 `FieldElementReader::new` -/
def FieldElementReader.new (xof : XofReader) : FieldElementReader :=
  let (data, xof) := xof.read 96
  { xof, data, start := 0, next := none }

/-- ml-kem/src/algebra.rs:239-262: the `loop`. The slice `&self.data[self.start..end]` followed by
`b[0]`, `b[1]`, `b[2]` is three checked reads. -/
def FieldElementReader.nextLoop (self : FieldElementReader) :
    Res (FieldElement × FieldElementReader) := do
  let self :=
    if self.start == 96 then
      let (data, xof) := self.xof.read 96
      { self with data, xof, start := 0 }
    else self
  let stop ← addUsize self.start 3
  let b0 ← idx self.data self.start
  let b1 ← idx self.data (self.start + 1)
  let b2 ← idx self.data (self.start + 2)
  let self := { self with start := stop }
  let d1 ← Rust.add (cast b0 : UInt16) (← Rust.shl (Rust.and (cast b1 : UInt16) 0xf) 8)
  let d2 ← Rust.add (← Rust.shr (cast b1 : UInt16) 4) (← Rust.shl (cast b2 : UInt16) 4)
  if Rust.lt d1 FieldElement.Q then
    let self := if Rust.lt d2 FieldElement.Q then { self with next := some d2 } else self
    .ok (⟨d1⟩, self)
  else if Rust.lt d2 FieldElement.Q then
    .ok (⟨d2⟩, self)
  else
    nextLoop self
partial_fixpoint

/-- ml-kem/src/algebra.rs:233-263 `FieldElementReader::next` -/
def FieldElementReader.getNext (self : FieldElementReader) :
    Res (FieldElement × FieldElementReader) :=
  match self.next with
  | some val => .ok (⟨val⟩, { self with next := none })
  | none => self.nextLoop

/-- ml-kem/src/algebra.rs:268-271 `NttPolynomial::sample_uniform` -/
def NttPolynomial.sample_uniform (B : XofReader) : Res NttPolynomial := do
  let reader := FieldElementReader.new B
  let (v, _) ← tabulateState 256 (fun _ r => FieldElementReader.getNext r) reader
  .ok ⟨v⟩

/-- ml-kem/src/algebra.rs:423-429 `NttVector::sample_uniform` -/
def NttVector.sample_uniform (H : Sha3) (K : Nat) (rho : B32) (i : Nat) (transpose : Bool) :
    Res (NttVector K) := do
  .ok ⟨← tabulate K fun j => do
    let (i, j) := if transpose then (j.val, i) else (i, j.val)
    let xof := XOF H rho (← truncateUsize j) (← truncateUsize i)
    NttPolynomial.sample_uniform xof⟩

namespace NttVector
variable {K : Nat}

/-- ml-kem/src/algebra.rs:447-455 `Add` -/
def add (self rhs : NttVector K) : Res (NttVector K) := do
  .ok ⟨← zipVec NttPolynomial.add self.polys rhs.polys⟩

/-- ml-kem/src/algebra.rs:461-467 `Mul` (inner product). The lazy iterator chain multiplies and
accumulates one pair at a time. -/
def mul (self rhs : NttVector K) : Res NttPolynomial :=
  forEach (self.polys.toList.zip rhs.polys.toList) NttPolynomial.default fun acc (x, y) => do
    acc.add (← x.mul y)

/-- ml-kem/src/algebra.rs:477-479 -/
def ntt_inverse (self : NttVector K) : Res (PolynomialVector K) := do
  .ok ⟨← mapVec NttPolynomial.ntt_inverse self.polys⟩

end NttVector

/-- ml-kem/src/algebra.rs:471-473 -/
def PolynomialVector.ntt {K : Nat} (self : PolynomialVector K) : Res (NttVector K) := do
  .ok ⟨← mapVec Polynomial.ntt self.polys⟩

/-- ml-kem/src/algebra.rs:485 `NttMatrix` -/
structure NttMatrix (K : Nat) where
  rows : Vector (NttVector K) K
deriving DecidableEq

namespace NttMatrix
variable {K : Nat}

/-- ml-kem/src/algebra.rs:490-492 `&NttMatrix * &NttVector` -/
def mulVec (self : NttMatrix K) (rhs : NttVector K) : Res (NttVector K) := do
  .ok ⟨← mapVec (fun x => NttVector.mul x rhs) self.rows⟩

/-- ml-kem/src/algebra.rs:496-500 `NttMatrix::sample_uniform` -/
def sample_uniform (H : Sha3) (K : Nat) (rho : B32) (transpose : Bool) : Res (NttMatrix K) := do
  .ok ⟨← tabulate K fun i => NttVector.sample_uniform H K rho i.val transpose⟩

/-- ml-kem/src/algebra.rs:502-506 `transpose` -/
def transpose (self : NttMatrix K) : NttMatrix K :=
  ⟨Vector.ofFn fun i => ⟨Vector.ofFn fun j => self.rows[j].polys[i]⟩⟩

end NttMatrix
end MlKem
