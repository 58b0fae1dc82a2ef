import Verif.Spec.Cca
/-!
The assumptions that the secrecy of K-PKE rests on: that `G` expands a seed to pseudorandom bytes, that `PRF` is
pseudorandom, and that module learning with errors is hard. Each is a game between a distinguisher and two ways
to produce its input. Nothing here mentions the model of the code.
-/
namespace Fips203
open MlKem (Sha3)
open Rust (Bytes)

/-- How well `D`, which also uses uniform coins, tells `real w` from `ideal w'`, for uniform `w` and `w'` -/
noncomputable def advantage {X Ω W W' : Type} (D : X → Ω → Prop) (real : W → X) (ideal : W' → X) : ℝ :=
  |prob (fun ((w, coins) : W × Ω) => D (real w) coins) - prob (fun ((w, coins) : W' × Ω) => D (ideal w) coins)|

variable (S : Sha3) (p : Params)

/-- The seeds `ρ` and `σ` that key generation derives from `d` -/
def seedPair (d : Bytes 32) : Bytes 32 × Bytes 32 := (bytes 32 (seeds S p d.toList).1, bytes 32 (seeds S p d.toList).2)

/-- All values of `PRF` for one seed: 192 bytes, the longest output that is used, for each nonce -/
def prfTable (s : Bytes 32) (b : UInt8) : Bytes 192 := Vector.ofFn fun i => S.shake256 (s.toList ++ [b]) i.val

/-- The first component of a learning-with-errors sample for the matrix expanded from `ρ`: `A ∘ s + e`, in the NTT
domain. The coefficients of `s` and `e` come from the strings `xs` and `xe` by `SamplePolyCBD`. -/
noncomputable def lweKey (rho : Bytes 32) (xs xe : Fin p.k → Bytes 192) (i : Fin p.k) : Poly :=
  (∑ j : Fin p.k, MultiplyNTTs (matA S rho.toList i.val j.val) (NTT (SamplePolyCBD p.eta1 (xs j).toList)))
    + NTT (SamplePolyCBD p.eta1 (xe i).toList)

/-- `Aᵀ ∘ y + e₁` -/
noncomputable def lweU (rho : Bytes 32) (xy xe : Fin p.k → Bytes 192) (i : Fin p.k) : Poly :=
  NTTinv (∑ j : Fin p.k, MultiplyNTTs (matA S rho.toList j.val i.val) (NTT (SamplePolyCBD p.eta1 (xy j).toList)))
    + SamplePolyCBD p.eta2 (xe i).toList

/-- `tᵀ ∘ y + e₂` -/
noncomputable def lweV (t : Fin p.k → Poly) (xy : Fin p.k → Bytes 192) (x2 : Bytes 192) : Poly :=
  NTTinv (∑ i : Fin p.k, MultiplyNTTs (t i) (NTT (SamplePolyCBD p.eta1 (xy i).toList)))
    + SamplePolyCBD p.eta2 x2.toList

/-- Module learning with errors: `(ρ, A s + e)` -/
noncomputable def lwe1 : Bytes 32 × (Fin p.k → Bytes 192) × (Fin p.k → Bytes 192) → Bytes 32 × (Fin p.k → Poly)
  | (rho, xs, xe) => (rho, lweKey S p rho xs xe)

/-- Module learning with errors with one more row `t`: `(ρ, t, Aᵀ y + e₁, tᵀ y + e₂)` -/
noncomputable def lwe2 : Bytes 32 × (Fin p.k → Poly) × (Fin p.k → Bytes 192) × (Fin p.k → Bytes 192) × Bytes 192 →
    Bytes 32 × (Fin p.k → Poly) × (Fin p.k → Poly) × Poly
  | (rho, t, xy, xe, x2) => (rho, t, lweU S p rho xy xe, lweV p t xy x2)

/-- The encoded public key for `ρ` and `t` -/
def packKey (e : Nat) (rho : Bytes 32) (t : Fin p.k → Poly) : Bytes e :=
  bytes e (encodeVec 12 (fun i => rep (t i)) ++ rho.toList)

/-- The polynomial of a message -/
def messagePoly (m : Bytes 32) : Poly := fun i => Decompress 1 (ByteDecode 1 m.toList i)

/-- The encoded ciphertext for `u` and `v` -/
def packCipher (n : Nat) (u : Fin p.k → Poly) (v : Poly) : Bytes n :=
  bytes n (encodeVec p.du (fun i => fun l => Compress p.du (u i l)) ++ ByteEncode p.dv (fun l => Compress p.dv (v l)))

/-! An attack on K-PKE, `B`, takes a public key, a ciphertext and coins, and lists guesses for the plaintext. It is
turned into a distinguisher for each of the assumptions. -/

variable {n e : Nat} {Ω : Type} (B : Bytes e → Bytes n → Ω → List (Bytes 32))

/-- Given `(ρ, σ)` -/
def onSeeds : Bytes 32 × Bytes 32 → Bytes 32 × Bytes 32 × Ω → Prop
  | (rho, sigma), (m, r, coins) =>
    let ek : Bytes e := packKey p e rho (lweKey S p rho (fun i => prfTable S sigma (UInt8.ofNat i.val))
      fun i => prfTable S sigma (UInt8.ofNat (p.k + i.val)))
    m ∈ B ek (encrypt S p n ek.toList m r) coins

/-- Given the values of `PRF`, used for a key -/
def onKeyNoise : (UInt8 → Bytes 192) → Bytes 32 × Bytes 32 × Bytes 32 × Ω → Prop
  | F, (rho, m, r, coins) =>
    let ek : Bytes e := packKey p e rho (lweKey S p rho (fun i => F (UInt8.ofNat i.val))
      fun i => F (UInt8.ofNat (p.k + i.val)))
    m ∈ B ek (encrypt S p n ek.toList m r) coins

/-- Given `(ρ, t)` -/
def onKey : Bytes 32 × (Fin p.k → Poly) → Bytes 32 × Bytes 32 × Ω → Prop
  | (rho, t), (m, r, coins) =>
    let ek : Bytes e := packKey p e rho t
    m ∈ B ek (encrypt S p n ek.toList m r) coins

/-- Given the values of `PRF`, used for a ciphertext -/
def onCipherNoise : (UInt8 → Bytes 192) → Bytes 32 × (Fin p.k → Poly) × Bytes 32 × Ω → Prop
  | F, (rho, t, m, coins) =>
    m ∈ B (packKey p e rho t) (packCipher p n
      (lweU S p rho (fun i => F (UInt8.ofNat i.val)) fun i => F (UInt8.ofNat (p.k + i.val)))
      (lweV p t (fun i => F (UInt8.ofNat i.val)) (F (UInt8.ofNat (2 * p.k))) + messagePoly m)) coins

/-- Given `(ρ, t, u, v)` -/
def onCipher : Bytes 32 × (Fin p.k → Poly) × (Fin p.k → Poly) × Poly → Bytes 32 × Ω → Prop
  | (rho, t, u, v), (m, coins) => m ∈ B (packKey p e rho t) (packCipher p n u (v + messagePoly m)) coins

/-- The sum of the advantages of the five distinguishers -/
noncomputable def assumptions : ℝ :=
  advantage (onSeeds S p B) (seedPair S p) id + advantage (onKeyNoise S p B) (prfTable S) id
    + advantage (onKey S p B) (lwe1 S p) id + advantage (onCipherNoise S p B) (prfTable S) id
    + advantage (onCipher p B) (lwe2 S p) id

end Fips203
