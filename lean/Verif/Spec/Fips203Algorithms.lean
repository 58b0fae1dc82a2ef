import Verif.Spec.Fips203
/-!
The algorithms of FIPS 203, line by line. Spec/Fips203.lean says what they compute; here is how the standard writes
them: loops, counters and assignments. Nothing here mentions the model of the code, and of Spec/Fips203.lean only
the constants and formulas are used which the standard gives as formulas (`BitRev7`, `Compress`, `Decompress`, the
hash functions, the parameter sets). Arrays are lists; `A[i]!` reads and `A.set i x` is the assignment `A[i] ← x`.
Lines of the standard are quoted where they look different here.
-/
namespace Fips203.Alg
open MlKem (Sha3)
open Finset (range)

/-- q -/
abbrev q : Nat := 3329

/-! ### Conversion and compression (4.2.1) -/

/-- Algorithm 3 `BitsToBytes(b)`, with `ℓ = |b|/8` -/
def BitsToBytes (b : List Nat) : List UInt8 := Id.run do
  let ℓ := b.length / 8
  let mut B : List UInt8 := List.replicate ℓ 0
  for i in [0:8 * ℓ] do
    B := B.set (i / 8) (B[i / 8]! + UInt8.ofNat (b[i]! * 2 ^ (i % 8)))
  return B

/-- Algorithm 4 `BytesToBits(B)` -/
def BytesToBits (B : List UInt8) : List Nat := Id.run do
  let mut C := B
  let mut b := List.replicate (8 * B.length) 0
  for i in [0:B.length] do
    for j in [0:8] do
      b := b.set (8 * i + j) (C[i]! % 2).toNat
      C := C.set i (C[i]! / 2)
  return b

/-- Algorithm 5 `ByteEncode_d(F)` -/
def ByteEncode (d : Nat) (F : List Nat) : List UInt8 := Id.run do
  let mut b := List.replicate (256 * d) 0
  for i in [0:256] do
    let mut a := F[i]!
    for j in [0:d] do
      b := b.set (i * d + j) (a % 2)
      a := (a - b[i * d + j]!) / 2
  return BitsToBytes b

/-- Algorithm 6 `ByteDecode_d(B)`; `m = 2^d` if `d < 12` and `m = q` if `d = 12` -/
def ByteDecode (d : Nat) (B : List UInt8) : List Nat := Id.run do
  let m := if d < 12 then 2 ^ d else q
  let b := BytesToBits B
  let mut F := List.replicate 256 0
  for i in [0:256] do
    F := F.set i ((∑ j ∈ range d, b[i * d + j]! * 2 ^ j) % m)
  return F

/-! ### Sampling (4.2.2) -/

/-- The state of the extendable-output function: what it absorbed, and how many bytes were squeezed (4.1) -/
structure Ctx where
  absorbed : List UInt8
  squeezed : Nat

/-- `XOF.Init()` -/
def Ctx.init : Ctx := ⟨[], 0⟩
/-- `XOF.Absorb(ctx, B)` -/
def Ctx.absorb (ctx : Ctx) (B : List UInt8) : Ctx := ⟨ctx.absorbed ++ B, 0⟩
/-- `XOF.Squeeze(ctx, ℓ)`: the next `ℓ` bytes of SHAKE128 -/
def Ctx.squeeze (S : Sha3) (ctx : Ctx) (ℓ : Nat) : Ctx × List UInt8 :=
  (⟨ctx.absorbed, ctx.squeezed + ℓ⟩, (List.range ℓ).map fun i => S.shake128 ctx.absorbed (ctx.squeezed + i))

open Classical in
/-- `while cond do body`: the state when the condition fails for the first time; `none` if it never does -/
noncomputable def whileDo {σ : Type} (cond : σ → Bool) (body : σ → σ) (s : σ) : Option σ :=
  if h : ∃ n, cond (body^[n] s) = false then some (body^[Nat.find h] s) else none

/-- Algorithm 7 `SampleNTT(B)`, lines 5 to 17: the body of the loop -/
def sampleBody (S : Sha3) (st : Ctx × List Zq × Nat) : Ctx × List Zq × Nat := Id.run do
  let mut (ctx, a, j) := st
  let (ctx', C) := ctx.squeeze S 3
  ctx := ctx'
  let d1 := C[0]!.toNat + 256 * (C[1]!.toNat % 16)
  let d2 := C[1]!.toNat / 16 + 16 * C[2]!.toNat
  if d1 < q then
    a := a.set j (d1 : Zq)
    j := j + 1
  if d2 < q ∧ j < 256 then
    a := a.set j (d2 : Zq)
    j := j + 1
  return (ctx, a, j)

/-- Algorithm 7 `SampleNTT(B)`; `none` if the loop never ends -/
noncomputable def SampleNTT (S : Sha3) (B : List UInt8) : Option (List Zq) := do
  let ctx := Ctx.init
  let ctx := ctx.absorb B
  let j := 0
  let (_, a, _) ← whileDo (fun (_, _, j) => j < 256) (sampleBody S) (ctx, List.replicate 256 0, j)
  return a

/-- Algorithm 8 `SamplePolyCBD_η(B)` -/
def SamplePolyCBD (eta : Nat) (B : List UInt8) : List Zq := Id.run do
  let b := BytesToBits B
  let mut f : List Zq := List.replicate 256 0
  for i in [0:256] do
    let x := ∑ j ∈ range eta, b[2 * i * eta + j]!
    let y := ∑ j ∈ range eta, b[2 * i * eta + eta + j]!
    f := f.set i ((x : Zq) - (y : Zq))
  return f

/-! ### The number-theoretic transform (4.3); ζ = 17 -/

/-- Algorithm 9 `NTT(f)`; `for (start ← 0; start < 256; start ← start + 2·len)` runs `128/len` times -/
def NTT (f : List Zq) : List Zq := Id.run do
  let mut f := f
  let mut i := 1
  for len in [128, 64, 32, 16, 8, 4, 2] do
    for start in List.range' 0 (128 / len) (2 * len) do
      let zeta : Zq := 17 ^ BitRev7 i
      i := i + 1
      for j in List.range' start len do
        let t := zeta * f[j + len]!
        f := f.set (j + len) (f[j]! - t)
        f := f.set j (f[j]! + t)
  return f

/-- Algorithm 10 `NTT⁻¹(f)` -/
def NTTinv (f : List Zq) : List Zq := Id.run do
  let mut f := f
  let mut i := 127
  for len in [2, 4, 8, 16, 32, 64, 128] do
    for start in List.range' 0 (128 / len) (2 * len) do
      let zeta : Zq := 17 ^ BitRev7 i
      i := i - 1
      for j in List.range' start len do
        let t := f[j]!
        f := f.set j (t + f[j + len]!)
        f := f.set (j + len) (zeta * (f[j + len]! - t))
  f := f.map fun x => x * 3303
  return f

/-- Algorithm 12 `BaseCaseMultiply(a0, a1, b0, b1, γ)` -/
def BaseCaseMultiply (a0 a1 b0 b1 gamma : Zq) : Zq × Zq :=
  let c0 := a0 * b0 + a1 * b1 * gamma
  let c1 := a0 * b1 + a1 * b0
  (c0, c1)

/-- Algorithm 11 `MultiplyNTTs(f, g)` -/
def MultiplyNTTs (f g : List Zq) : List Zq := Id.run do
  let mut h : List Zq := List.replicate 256 0
  for i in [0:128] do
    let (c0, c1) := BaseCaseMultiply f[2 * i]! f[2 * i + 1]! g[2 * i]! g[2 * i + 1]! (17 ^ (2 * BitRev7 i + 1))
    h := h.set (2 * i) c0
    h := h.set (2 * i + 1) c1
  return h

/-! ### Vectors and matrices (2.4.6 to 2.4.8) -/

/-- The sum of two elements of `R_q` or of `T_q` -/
def add (f g : List Zq) : List Zq := List.zipWith (· + ·) f g
/-- The difference -/
def sub (f g : List Zq) : List Zq := List.zipWith (· - ·) f g

/-- `ûᵀ ∘ v̂ = Σ_j û[j] × v̂[j]` (2.14) -/
def dot (k : Nat) (u v : List (List Zq)) : List Zq := Id.run do
  let mut w : List Zq := List.replicate 256 0
  for j in [0:k] do
    w := add w (MultiplyNTTs u[j]! v[j]!)
  return w

/-- `Â ∘ û`, whose entry `i` is `Σ_j Â[i, j] × û[j]` (2.12) -/
def mulVec (k : Nat) (A : List (List (List Zq))) (u : List (List Zq)) : List (List Zq) :=
  (List.range k).map fun i => dot k A[i]! u

/-- `Âᵀ` (2.13 is `mulVec` of it) -/
def transpose (k : Nat) (A : List (List (List Zq))) : List (List (List Zq)) :=
  (List.range k).map fun i => (List.range k).map fun j => (A[j]!)[i]!

/-- Entry by entry, the sum of two vectors -/
def addVec (u v : List (List Zq)) : List (List Zq) := List.zipWith add u v

/-- The encodings of the entries of a vector, one after the other (2.4.8) -/
def ByteEncodeVec (d : Nat) (v : List (List Nat)) : List UInt8 := (v.map (ByteEncode d)).flatten

/-- The entries of a vector of length `k` from their encodings, `32·d` bytes each (2.4.8) -/
def ByteDecodeVec (d k : Nat) (B : List UInt8) : List (List Nat) :=
  (List.range k).map fun i => ByteDecode d ((B.drop (32 * d * i)).take (32 * d))

/-- Integers modulo q as integers in `[0, q)` -/
def toInts (f : List Zq) : List Nat := f.map ZMod.val
/-- and integers as integers modulo q -/
def ofInts (f : List Nat) : List Zq := f.map fun x : Nat => (x : Zq)

/-! ### K-PKE (5) -/

variable (S : Sha3) (p : Params)

/-- Algorithm 13, lines 3 to 7, and Algorithm 14, lines 4 to 8: the matrix `Â` -/
noncomputable def matrix (rho : List UInt8) : Option (List (List (List Zq))) := do
  let mut A : List (List (List Zq)) := List.replicate p.k (List.replicate p.k [])
  for i in List.range p.k do
    for j in List.range p.k do
      A := A.set i (A[i]!.set j (← SampleNTT S (rho ++ [UInt8.ofNat j, UInt8.ofNat i])))
  return A

/-- Algorithm 13 `K-PKE.KeyGen(d)` -/
noncomputable def KPKE_KeyGen (d : List UInt8) : Option (List UInt8 × List UInt8) := do
  let (rho, sigma) := G S (d ++ [UInt8.ofNat p.k])
  let mut N := 0
  let A ← matrix S p rho
  let mut s : List (List Zq) := List.replicate p.k []
  for i in List.range p.k do
    s := s.set i (SamplePolyCBD p.eta1 (PRF S p.eta1 sigma N))
    N := N + 1
  let mut e : List (List Zq) := List.replicate p.k []
  for i in List.range p.k do
    e := e.set i (SamplePolyCBD p.eta1 (PRF S p.eta1 sigma N))
    N := N + 1
  let s' := s.map NTT
  let e' := e.map NTT
  let t' := addVec (mulVec p.k A s') e'
  let ek := ByteEncodeVec 12 (t'.map toInts) ++ rho
  let dk := ByteEncodeVec 12 (s'.map toInts)
  return (ek, dk)

/-- Algorithm 14 `K-PKE.Encrypt(ek, m, r)` -/
noncomputable def KPKE_Encrypt (ek m r : List UInt8) : Option (List UInt8) := do
  let mut N := 0
  let t' := (ByteDecodeVec 12 p.k (ek.take (384 * p.k))).map ofInts
  let rho := (ek.drop (384 * p.k)).take 32
  let A ← matrix S p rho
  let mut y : List (List Zq) := List.replicate p.k []
  for i in List.range p.k do
    y := y.set i (SamplePolyCBD p.eta1 (PRF S p.eta1 r N))
    N := N + 1
  let mut e1 : List (List Zq) := List.replicate p.k []
  for i in List.range p.k do
    e1 := e1.set i (SamplePolyCBD p.eta2 (PRF S p.eta2 r N))
    N := N + 1
  let e2 := SamplePolyCBD p.eta2 (PRF S p.eta2 r N)
  let y' := y.map NTT
  let u := addVec ((mulVec p.k (transpose p.k A) y').map NTTinv) e1
  let mu := (ByteDecode 1 m).map (Decompress 1)
  let v := add (add (NTTinv (dot p.k t' y')) e2) mu
  let c1 := ByteEncodeVec p.du (u.map fun f => f.map (Compress p.du))
  let c2 := ByteEncode p.dv (v.map (Compress p.dv))
  return c1 ++ c2

/-- Algorithm 15 `K-PKE.Decrypt(dk, c)` -/
def KPKE_Decrypt (dk c : List UInt8) : List UInt8 :=
  let c1 := c.take (32 * p.du * p.k)
  let c2 := (c.drop (32 * p.du * p.k)).take (32 * p.dv)
  let u := (ByteDecodeVec p.du p.k c1).map fun f => f.map (Decompress p.du)
  let v := (ByteDecode p.dv c2).map (Decompress p.dv)
  let s' := (ByteDecodeVec 12 p.k dk).map ofInts
  let w := sub v (NTTinv (dot p.k s' (u.map NTT)))
  ByteEncode 1 (w.map (Compress 1))

/-! ### ML-KEM (6) -/

/-- Algorithm 16 `ML-KEM.KeyGen_internal(d, z)` -/
noncomputable def KeyGen_internal (d z : List UInt8) : Option (List UInt8 × List UInt8) := do
  let (ek_PKE, dk_PKE) ← KPKE_KeyGen S p d
  let ek := ek_PKE
  let dk := dk_PKE ++ ek ++ H S ek ++ z
  return (ek, dk)

/-- Algorithm 17 `ML-KEM.Encaps_internal(ek, m)` -/
noncomputable def Encaps_internal (ek m : List UInt8) : Option (List UInt8 × List UInt8) := do
  let (K, r) := G S (m ++ H S ek)
  let c ← KPKE_Encrypt S p ek m r
  return (K, c)

/-- Algorithm 18 `ML-KEM.Decaps_internal(dk, c)` -/
noncomputable def Decaps_internal (dk c : List UInt8) : Option (List UInt8) := do
  let dk_PKE := dk.take (384 * p.k)
  let ek_PKE := (dk.drop (384 * p.k)).take (768 * p.k + 32 - 384 * p.k)
  let h := (dk.drop (768 * p.k + 32)).take 32
  let z := (dk.drop (768 * p.k + 64)).take 32
  let m' := KPKE_Decrypt p dk_PKE c
  let (K', r') := G S (m' ++ h)
  let K_bar := J S (z ++ c)
  let c' ← KPKE_Encrypt S p ek_PKE m' r'
  let mut K := K'
  if c ≠ c' then
    K := K_bar
  return K

end Fips203.Alg
