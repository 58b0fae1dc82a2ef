import Verif.Rust.Extern
import Mathlib.Data.ZMod.Basic
import Mathlib.Data.Nat.Nth
import Mathlib.Algebra.Order.Round
import Mathlib.Algebra.BigOperators.Fin
import Mathlib.Data.Rat.Floor
/-!
FIPS 203 (ML-KEM) as mathematics. Nothing here mentions the model of the code. Byte strings are
`List UInt8`; coefficients are elements of `ZMod 3329`. The hash functions are a parameter.
-/
namespace Fips203
open MlKem (Sha3)
open Finset (range)

/-- The field of integers modulo q = 3329 -/
abbrev Zq := ZMod 3329

/-- An element of `R_q` (coefficients of 1, X, ..., X^255), or of `T_q` (256 NTT-domain values) -/
abbrev Poly := Fin 256 → Zq

/-! ### Bits and bytes (FIPS 203 section 4.2.1) -/

/-- Bit `t` of a byte string, least significant bit of each byte first (`BytesToBits`) -/
def bit (B : List UInt8) (t : Nat) : Bool := (B.getD (t / 8) 0).toNat.testBit (t % 8)

/-- The number whose bits are `b 0, …, b (n-1)`, least significant first -/
def ofBits (n : Nat) (b : Nat → Bool) : Nat := ∑ j ∈ range n, (b j).toNat * 2 ^ j

/-- Algorithm 5 `ByteEncode_d`: bit `t` of the result is bit `t % d` of `F[t / d]` -/
def ByteEncode (d : Nat) (F : Fin 256 → Nat) : List UInt8 :=
  List.ofFn (n := 32 * d) fun k =>
    UInt8.ofNat (ofBits 8 fun s => (F (Fin.ofNat 256 ((8 * k.val + s) / d))).testBit ((8 * k.val + s) % d))

/-- Algorithm 6 `ByteDecode_d`: `F[i]` has bits `i*d, …, i*d+d-1`, modulo `m` -/
def ByteDecode (d : Nat) (B : List UInt8) : Fin 256 → Nat := fun i =>
  ofBits d (fun j => bit B (i.val * d + j)) % (if d = 12 then 3329 else 2 ^ d)

/-- `Compress_d(x) = ⌈(2^d/q)·x⌋ mod 2^d` (4.7); `round` rounds ties up -/
def Compress (d : Nat) (x : Zq) : Nat := (round ((2 ^ d : ℚ) / 3329 * x.val) % 2 ^ d).toNat

/-- `Decompress_d(y) = ⌈(q/2^d)·y⌋` (4.8) -/
def Decompress (d : Nat) (y : Nat) : Zq := ((round ((3329 : ℚ) / 2 ^ d * y) : ℤ) : Zq)

/-! ### Number-theoretic transform (section 4.3) -/

/-- `BitRev_7`: the integer with the seven bits of `r` in reverse order -/
def BitRev7 (r : Nat) : Nat := ofBits 7 fun i => r.testBit (6 - i)

/-- `ζ^(2·BitRev_7(i)+1)` with `ζ = 17` -/
def gamma (i : Nat) : Zq := 17 ^ (2 * BitRev7 i + 1)

/-- The NTT (4.12): component `i` is `f mod (X² - γ_i)`, that is
`f̂[2i] = Σ_j f[2j] γ_i^j` and `f̂[2i+1] = Σ_j f[2j+1] γ_i^j`. -/
def NTT (f : Poly) : Poly := fun n =>
  ∑ j : Fin 128, f ⟨2 * j.val + n.val % 2, by omega⟩ * gamma (n.val / 2) ^ j.val

/-- The inverse of the NTT (`NTT` is a bijection, see `Verif.Props.Ntt`) -/
noncomputable def NTTinv : Poly → Poly := Function.invFun NTT

/-- Algorithms 11 and 12 `MultiplyNTTs`: component-wise product modulo `X² - γ_i` -/
def MultiplyNTTs (f g : Poly) : Poly := fun n =>
  let i := n.val / 2
  let f0 := f ⟨2 * i, by omega⟩
  let f1 := f ⟨2 * i + 1, by omega⟩
  let g0 := g ⟨2 * i, by omega⟩
  let g1 := g ⟨2 * i + 1, by omega⟩
  if n.val % 2 = 0 then f0 * g0 + f1 * g1 * gamma i else f0 * g1 + f1 * g0

/-- The product of `R_q = Z_q[X]/(X^256+1)`: coefficient `k` collects `f_i g_j` with `i+j = k`
and, with sign `-1`, those with `i+j = k+256`. -/
def ringMul (f g : Poly) : Poly := fun k =>
  ∑ i : Fin 256, ∑ j : Fin 256,
    if i.val + j.val = k.val then f i * g j
    else if i.val + j.val = k.val + 256 then - (f i * g j) else 0

/-! ### Sampling (section 4.2.2) -/

/-- The `n`-th 12-bit candidate of a byte stream: two per three bytes (Algorithm 7, lines 6-7) -/
def candidate (s : Nat → UInt8) (n : Nat) : Nat :=
  let b0 := (s (3 * (n / 2))).toNat
  let b1 := (s (3 * (n / 2) + 1)).toNat
  let b2 := (s (3 * (n / 2) + 2)).toNat
  if n % 2 = 0 then b0 + 256 * (b1 % 16) else b1 / 16 + 16 * b2

/-- The stream holds at least 256 candidates below q -/
def Accepts (s : Nat → UInt8) : Prop := ∃ N, 256 ≤ Nat.count (fun n => candidate s n < 3329) N

/-- Algorithm 7 `SampleNTT`: the first 256 candidates below q, in order -/
noncomputable def SampleNTT (s : Nat → UInt8) : Poly := fun i =>
  (candidate s (Nat.nth (fun n => candidate s n < 3329) i.val) : Zq)

/-- Algorithm 8 `SamplePolyCBD_η` -/
def SamplePolyCBD (eta : Nat) (B : List UInt8) : Poly := fun i =>
  (∑ j ∈ range eta, ((bit B (2 * i.val * eta + j)).toNat : Zq))
    - ∑ j ∈ range eta, ((bit B (2 * i.val * eta + eta + j)).toNat : Zq)

/-! ### Hash functions (section 4.1) -/
section
variable (S : Sha3)

/-- The first `n` bytes of a stream -/
def prefixBytes (n : Nat) (s : Nat → UInt8) : List UInt8 := List.ofFn (n := n) fun i => s i.val

/-- (4.3) `PRF_η(s, b) = SHAKE256(s ‖ b, 8·64·η)` -/
def PRF (eta : Nat) (s : List UInt8) (b : Nat) : List UInt8 :=
  prefixBytes (64 * eta) (S.shake256 (s ++ [UInt8.ofNat b]))
/-- (4.4) `H(s) = SHA3-256(s)` -/
def H (s : List UInt8) : List UInt8 := (S.sha3_256 s).toList
/-- (4.4) `J(s) = SHAKE256(s, 8·32)` -/
def J (s : List UInt8) : List UInt8 := prefixBytes 32 (S.shake256 s)
/-- (4.5) `G(c) = SHA3-512(c)` split into two 32-byte halves -/
def G (c : List UInt8) : List UInt8 × List UInt8 :=
  ((S.sha3_512 c).toList.take 32, (S.sha3_512 c).toList.drop 32)

/-! ### K-PKE (section 5) -/

/-- Parameters (section 8, table 2) -/
structure Params where
  k : Nat
  eta1 : Nat
  eta2 : Nat
  du : Nat
  dv : Nat
deriving DecidableEq, Repr

/-- FIPS 203 table 2 -/
def ML_KEM_512 : Params := { k := 2, eta1 := 3, eta2 := 2, du := 10, dv := 4 }
/-- FIPS 203 table 2 -/
def ML_KEM_768 : Params := { k := 3, eta1 := 2, eta2 := 2, du := 10, dv := 4 }
/-- FIPS 203 table 2 -/
def ML_KEM_1024 : Params := { k := 4, eta1 := 2, eta2 := 2, du := 11, dv := 5 }

/-- `‖`-concatenation of the encodings of a vector of coefficient arrays -/
def encodeVec (d : Nat) {k : Nat} (F : Fin k → Fin 256 → Nat) : List UInt8 :=
  (List.ofFn fun i => ByteEncode d (F i)).flatten

/-- The `i`-th block of `32·d` bytes -/
def block (d : Nat) (B : List UInt8) (i : Nat) : List UInt8 := (B.drop (32 * d * i)).take (32 * d)

/-- The representative in `[0, q)` of every coefficient -/
def rep (f : Poly) : Fin 256 → Nat := fun i => (f i).val

/-- Coefficients given by natural numbers -/
def ofNats (F : Fin 256 → Nat) : Poly := fun i => (F i : Zq)

/-- The stream that entry `(i, j)` of the matrix is sampled from: `XOF(ρ ‖ j ‖ i)` -/
def streamA (rho : List UInt8) (i j : Nat) : Nat → UInt8 :=
  S.shake128 (rho ++ [UInt8.ofNat j, UInt8.ofNat i])

/-- `Â[i, j] = SampleNTT(ρ ‖ j ‖ i)` -/
noncomputable def matA (rho : List UInt8) (i j : Nat) : Poly := SampleNTT (streamA S rho i j)

/-- All `k²` streams for `ρ` hold 256 candidates below q. Algorithm 7 returns a value only then. -/
def SeedOk (k : Nat) (rho : List UInt8) : Prop :=
  ∀ i j, i < k → j < k → Accepts (streamA S rho i j)

variable (p : Params)

/-- The seeds `(ρ, σ) = G(d ‖ k)` -/
def seeds (d : List UInt8) : List UInt8 × List UInt8 := G S (d ++ [UInt8.ofNat p.k])

/-- Algorithm 13 `K-PKE.KeyGen(d)`, returning `(ek, dk)` -/
noncomputable def KPKE_KeyGen (d : List UInt8) : List UInt8 × List UInt8 :=
  let rho := (seeds S p d).1
  let sigma := (seeds S p d).2
  let s : Fin p.k → Poly := fun i => SamplePolyCBD p.eta1 (PRF S p.eta1 sigma i.val)
  let e : Fin p.k → Poly := fun i => SamplePolyCBD p.eta1 (PRF S p.eta1 sigma (p.k + i.val))
  let t : Fin p.k → Poly := fun i =>
    (∑ j : Fin p.k, MultiplyNTTs (matA S rho i.val j.val) (NTT (s j))) + NTT (e i)
  (encodeVec 12 (fun i => rep (t i)) ++ rho, encodeVec 12 (fun i => rep (NTT (s i))))

/-- Algorithm 14 `K-PKE.Encrypt(ek, m, r)` -/
noncomputable def KPKE_Encrypt (ek m r : List UInt8) : List UInt8 :=
  let t : Fin p.k → Poly := fun i => ofNats (ByteDecode 12 (block 12 ek i.val))
  let rho := (ek.drop (384 * p.k)).take 32
  let y : Fin p.k → Poly := fun i => SamplePolyCBD p.eta1 (PRF S p.eta1 r i.val)
  let e1 : Fin p.k → Poly := fun i => SamplePolyCBD p.eta2 (PRF S p.eta2 r (p.k + i.val))
  let e2 : Poly := SamplePolyCBD p.eta2 (PRF S p.eta2 r (2 * p.k))
  let u : Fin p.k → Poly := fun i =>
    NTTinv (∑ j : Fin p.k, MultiplyNTTs (matA S rho j.val i.val) (NTT (y j))) + e1 i
  let mu : Poly := fun i => Decompress 1 (ByteDecode 1 m i)
  let v : Poly := NTTinv (∑ i : Fin p.k, MultiplyNTTs (t i) (NTT (y i))) + e2 + mu
  encodeVec p.du (fun i => fun n => Compress p.du (u i n)) ++
    ByteEncode p.dv (fun n => Compress p.dv (v n))

/-- Algorithm 15 `K-PKE.Decrypt(dk, c)` -/
noncomputable def KPKE_Decrypt (dk c : List UInt8) : List UInt8 :=
  let u : Fin p.k → Poly := fun i n => Decompress p.du (ByteDecode p.du (block p.du c i.val) n)
  let v : Poly := fun n => Decompress p.dv (ByteDecode p.dv (c.drop (32 * p.du * p.k)) n)
  let s : Fin p.k → Poly := fun i => ofNats (ByteDecode 12 (block 12 dk i.val))
  let w : Poly := v - NTTinv (∑ i : Fin p.k, MultiplyNTTs (s i) (NTT (u i)))
  ByteEncode 1 (fun n => Compress 1 (w n))

/-! ### ML-KEM (section 6) -/

/-- Algorithm 16 `ML-KEM.KeyGen_internal(d, z)`, returning `(ek, dk)` -/
noncomputable def KeyGen_internal (d z : List UInt8) : List UInt8 × List UInt8 :=
  let ek := (KPKE_KeyGen S p d).1
  let dk_pke := (KPKE_KeyGen S p d).2
  (ek, dk_pke ++ ek ++ H S ek ++ z)

/-- Algorithm 17 `ML-KEM.Encaps_internal(ek, m)`, returning `(K, c)` -/
noncomputable def Encaps_internal (ek m : List UInt8) : List UInt8 × List UInt8 :=
  let Kr := G S (m ++ H S ek)
  (Kr.1, KPKE_Encrypt S p ek m Kr.2)

/-- Algorithm 18 `ML-KEM.Decaps_internal(dk, c)` -/
noncomputable def Decaps_internal (dk c : List UInt8) : List UInt8 :=
  let dk_pke := dk.take (384 * p.k)
  let ek := (dk.drop (384 * p.k)).take (384 * p.k + 32)
  let h := (dk.drop (768 * p.k + 32)).take 32
  let z := (dk.drop (768 * p.k + 64)).take 32
  let m' := KPKE_Decrypt p dk_pke c
  let Kr := G S (m' ++ h)
  let Kbar := J S (z ++ c)
  let c' := KPKE_Encrypt S p ek m' Kr.2
  if c = c' then Kr.1 else Kbar

end
end Fips203
