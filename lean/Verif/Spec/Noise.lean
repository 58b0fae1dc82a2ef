import Verif.Spec.Fips203
import Mathlib.Data.ZMod.ValMinAbs
/-!
The decryption noise of an honestly generated ciphertext, as mathematics over `R_q`. For the key
generated from seed `d` and the encryption of `m` with randomness `r` it is
`eᵀy + e₂ + c_v - sᵀ(e₁ + c_u)`, where `c_u`, `c_v` are the compression errors of the ciphertext.
-/
namespace Fips203
open MlKem (Sha3)

variable (S : Sha3) (p : Params)

/-- The secret vector `s` of key generation (Algorithm 13, line 9) -/
noncomputable def secretS (d : List UInt8) (i : Fin p.k) : Poly :=
  SamplePolyCBD p.eta1 (PRF S p.eta1 (seeds S p d).2 i.val)
/-- The error vector `e` of key generation (Algorithm 13, line 13) -/
noncomputable def errorE (d : List UInt8) (i : Fin p.k) : Poly :=
  SamplePolyCBD p.eta1 (PRF S p.eta1 (seeds S p d).2 (p.k + i.val))
/-- The vector `t = As + e` of the public key, in the NTT domain (Algorithm 13, line 18) -/
noncomputable def publicT (d : List UInt8) (i : Fin p.k) : Poly :=
  (∑ j : Fin p.k, MultiplyNTTs (matA S (seeds S p d).1 i.val j.val) (NTT (secretS S p d j)))
    + NTT (errorE S p d i)
/-- The vector `y` of encryption (Algorithm 14, line 10) -/
noncomputable def ephemeralY (r : List UInt8) (i : Fin p.k) : Poly :=
  SamplePolyCBD p.eta1 (PRF S p.eta1 r i.val)
/-- The vector `e₁` of encryption (Algorithm 14, line 14) -/
noncomputable def errorE1 (r : List UInt8) (i : Fin p.k) : Poly :=
  SamplePolyCBD p.eta2 (PRF S p.eta2 r (p.k + i.val))
/-- The polynomial `e₂` of encryption (Algorithm 14, line 17) -/
noncomputable def errorE2 (r : List UInt8) : Poly :=
  SamplePolyCBD p.eta2 (PRF S p.eta2 r (2 * p.k))
/-- The vector `u = Aᵀy + e₁` of encryption (Algorithm 14, line 19) -/
noncomputable def cipherU (d r : List UInt8) (i : Fin p.k) : Poly :=
  NTTinv (∑ j : Fin p.k, MultiplyNTTs (matA S (seeds S p d).1 j.val i.val) (NTT (ephemeralY S p r j)))
    + errorE1 S p r i
/-- The message polynomial `μ` (Algorithm 14, line 20) -/
noncomputable def messageMu (m : List UInt8) : Poly := fun n => Decompress 1 (ByteDecode 1 m n)
/-- The polynomial `v = tᵀy + e₂ + μ` of encryption (Algorithm 14, line 21) -/
noncomputable def cipherV (d m r : List UInt8) : Poly :=
  NTTinv (∑ i : Fin p.k, MultiplyNTTs (publicT S p d i) (NTT (ephemeralY S p r i)))
    + errorE2 S p r + messageMu m
/-- What compression to `w` bits changes: `Decompress_w(Compress_w(f)) - f` -/
noncomputable def lossOf (w : Nat) (f : Poly) : Poly := fun n => Decompress w (Compress w (f n)) - f n

/-- The decryption noise `eᵀy + e₂ + c_v - sᵀ(e₁ + c_u)`; products are those of `R_q`. -/
noncomputable def noise (d m r : List UInt8) : Poly :=
  (∑ i : Fin p.k, ringMul (errorE S p d i) (ephemeralY S p r i)) + errorE2 S p r
    + lossOf p.dv (cipherV S p d m r)
    - ∑ i : Fin p.k, ringMul (secretS S p d i) (errorE1 S p r i + lossOf p.du (cipherU S p d r i))

/-- The noise is small enough for bit `b` to be recovered: as a centred integer it lies in
`[-832, 832 - b]`. (`q` is odd, so the window for a one is one shorter.) -/
def InWindow (b : Bool) (x : Zq) : Prop := -832 ≤ x.valMinAbs ∧ x.valMinAbs ≤ 832 - b.toNat

/-- Every coefficient of the noise is in its window. -/
def NoiseOk (d m r : List UInt8) : Prop :=
  ∀ n : Fin 256, InWindow (bit m n.val) (noise S p d m r n)

/-! ### A sufficient condition on the key alone -/

/-- `Σ_n |f_n|`, coefficients taken as centred integers -/
def norm1 (f : Poly) : ℤ := ∑ n : Fin 256, |(f n).valMinAbs|

/-- A bound on every coefficient of the noise that depends on the key only -/
noncomputable def noiseBound (d : List UInt8) : ℤ :=
  (∑ i : Fin p.k, norm1 (errorE S p d i) * p.eta1) + p.eta2 + round ((3329 : ℚ) / 2 ^ (p.dv + 1))
    + ∑ i : Fin p.k, norm1 (secretS S p d i) * (p.eta2 + round ((3329 : ℚ) / 2 ^ (p.du + 1)))

end Fips203
