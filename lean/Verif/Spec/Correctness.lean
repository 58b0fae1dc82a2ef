import Verif.Spec.Mlwe
import Verif.Spec.Noise
/-!
When decryption can go wrong: the part of the noise that does not depend on the message, and the distinguishers for `G`
and `PRF` that test whether it is large. Nothing here mentions the model of the code.
-/
namespace Fips203
open MlKem (Sha3)
open Rust (Bytes)

variable (S : Sha3) (p : Params)

/-- `eᵀy + e₂ - sᵀ(e₁ + c_u)`, the decryption noise without the rounding error of `v`, where `s` and `e` come from the
strings `F` and `y`, `e₁` and `e₂` from the strings `F'`, at the nonces that FIPS 203 uses -/
noncomputable def innerNoise (rho : Bytes 32) (F F' : UInt8 → Bytes 192) : Poly :=
  (∑ i : Fin p.k, ringMul (SamplePolyCBD p.eta1 (F (.ofNat (p.k + i.val))).toList)
      (SamplePolyCBD p.eta1 (F' (.ofNat i.val)).toList))
    + SamplePolyCBD p.eta2 (F' (.ofNat (2 * p.k))).toList
    - ∑ i : Fin p.k, ringMul (SamplePolyCBD p.eta1 (F (.ofNat i.val)).toList)
        (SamplePolyCBD p.eta2 (F' (.ofNat (p.k + i.val))).toList
          + lossOf p.du (lweU S p rho (fun i => F' (.ofNat i.val)) (fun i => F' (.ofNat (p.k + i.val))) i))

/-- A coefficient is so large that together with the rounding error of `v` it may exceed 831. (This can be computed, by
whoever knows the strings.) -/
def Loud (rho : Bytes 32) (F F' : UInt8 → Bytes 192) : Prop :=
  ∃ n, 832 - round ((3329 : ℚ) / 2 ^ (p.dv + 1)) ≤ |(innerNoise S p rho F F' n).valMinAbs|

variable {N : Nat}

/-- Given `(ρ, σ)`: generate a key and encrypt with it. SHAKE128 on 34-byte strings is a random table. -/
def loudSeeds : Bytes 32 × Bytes 32 → (Bytes 34 → Bytes (3 * N)) × Bytes 32 → Prop
  | (rho, sigma), (T, r) => Loud (withXof S T) p rho (prfTable S sigma) (prfTable S r)

/-- Given the values of `PRF`, used for a key -/
def loudKeyNoise : (UInt8 → Bytes 192) → (Bytes 34 → Bytes (3 * N)) × Bytes 32 × Bytes 32 → Prop
  | F, (T, rho, r) => Loud (withXof S T) p rho F (prfTable S r)

/-- Given the values of `PRF`, used for a ciphertext -/
def loudCipherNoise : (UInt8 → Bytes 192) → (Bytes 34 → Bytes (3 * N)) × Bytes 32 × (UInt8 → Bytes 192) → Prop
  | F', (T, rho, F) => Loud (withXof S T) p rho F F'

/-- The sum of the advantages of the three distinguishers, for tables with 840 bytes for each string -/
noncomputable def correctnessAssumptions : ℝ :=
  advantage (loudSeeds (N := 280) S p) (seedPair S p) id + advantage (loudKeyNoise (N := 280) S p) (prfTable S) id
    + advantage (loudCipherNoise (N := 280) S p) (prfTable S) id

/-- With all noise uniform, decryption goes wrong with a probability of at most `2^-failureBits`. -/
def failureBits (p : Params) : Nat := if p.k = 2 then 120 else if p.k = 3 then 152 else 163

end Fips203
