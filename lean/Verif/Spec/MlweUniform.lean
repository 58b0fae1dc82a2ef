import Verif.Spec.Mlwe
/-!
Module learning with errors over `Z_q[X]/(X^256 + 1)` with uniform matrices, and how an attack on K-PKE, in which the
matrix is expanded from a seed, is turned into a distinguisher for it, when SHAKE128 on the strings `ρ ‖ j ‖ i` is
a random table. Nothing here mentions the model of the code.
-/
namespace Fips203
open MlKem (Sha3)
open Rust (Bytes)

/-- The candidates below q are replaced, in order, by given coefficients, until these run out. -/
def replaceKept : List Nat → List Zq → List Nat
  | c :: cs, a :: as => if c < 3329 then a.val :: replaceKept cs as else c :: replaceKept cs (a :: as)
  | cs, _ => cs

/-- Three bytes for every two 12-bit numbers, so that `candidate` reads the numbers -/
def packCandidates : List Nat → List UInt8
  | a :: b :: l => .ofNat (a % 256) :: .ofNat (a / 256 + 16 * (b % 16)) :: .ofNat (b / 16) :: packCandidates l
  | _ => []

/-- A byte string from which `SampleNTT` reads the polynomial `f`. Everything that does not matter for this is left
as it is in `s`. -/
def plant {N : Nat} (s : Bytes (3 * N)) (f : Poly) : Bytes (3 * N) :=
  bytes (3 * N) (packCandidates
    (replaceKept ((List.range (2 * N)).map (candidate fun i => s.toList.getD i 0)) (List.ofFn f)))

/-- A table of SHAKE128 for which the matrix expanded from `ρ` is `A` -/
def plantTable {N k : Nat} (T : Bytes 34 → Bytes (3 * N)) (rho : Bytes 32) (A : Fin k → Fin k → Poly) (x : Bytes 34) :
    Bytes (3 * N) :=
  if h : bytes 32 x.toList = rho ∧ x[32].toNat < k ∧ x[33].toNat < k then
    plant (T x) (A ⟨x[33].toNat, h.2.2⟩ ⟨x[32].toNat, h.2.1⟩)
  else T x

/-- Module learning with errors: `r` equations in `c` unknowns, `(M, M s + e)`. The coefficients of `s` and `e` come
from the strings `xs` and `xe` by `SamplePolyCBD`, with the parameters `η` and `η'`. -/
noncomputable def mlwe (r c eta eta' : Nat) : (Fin r → Fin c → Poly) × (Fin c → Bytes 192) × (Fin r → Bytes 192) →
    (Fin r → Fin c → Poly) × (Fin r → Poly)
  | (M, xs, xe) =>
    (M, fun i => (∑ j, ringMul (M i j) (SamplePolyCBD eta (xs j).toList)) + SamplePolyCBD eta' (xe i).toList)

variable (S : Sha3) (p : Params) {N n e : Nat} {Ω : Type}
  (B : (Bytes 34 → Bytes (3 * N)) → Bytes e → Bytes n → Ω → List (Bytes 32))

/-! An attack `B` on K-PKE can now use the table of SHAKE128. -/

/-- Given `(ρ, σ)` -/
def onSeedsT : Bytes 32 × Bytes 32 → (Bytes 34 → Bytes (3 * N)) × Bytes 32 × Bytes 32 × Ω → Prop
  | x, (T, coins) => onSeeds (withXof S T) p (B T) x coins

/-- Given the values of `PRF`, used for a key -/
def onKeyNoiseT : (UInt8 → Bytes 192) → (Bytes 34 → Bytes (3 * N)) × Bytes 32 × Bytes 32 × Bytes 32 × Ω → Prop
  | F, (T, coins) => onKeyNoise (withXof S T) p (B T) F coins

/-- Given the values of `PRF`, used for a ciphertext -/
def onCipherNoiseT : (UInt8 → Bytes 192) → (Bytes 34 → Bytes (3 * N)) × Bytes 32 × (Fin p.k → Poly) × Bytes 32 × Ω → Prop
  | F, (T, coins) => onCipherNoise (withXof S T) p (B T) F coins

/-- Given `k` equations `(M, b)` in `k` unknowns: the public key is `b`, for the matrix `M`. -/
def onKeyM : (Fin p.k → Fin p.k → Poly) × (Fin p.k → Poly) →
    (Bytes 34 → Bytes (3 * N)) × Bytes 32 × Bytes 32 × Bytes 32 × Ω → Prop
  | (M, b), (T, rho, coins) =>
    let T' := plantTable T rho fun i j => NTT (M i j)
    onKey (withXof S T') p (B T') (rho, fun i => NTT (b i)) coins

/-- Given `k + 1` equations `(M, b)` in `k` unknowns: the first `k` rows of `M` are the columns of the matrix and the last
row is the public key; `b` is the ciphertext before the message is added. -/
def onCipherM : (Fin (p.k + 1) → Fin p.k → Poly) × (Fin (p.k + 1) → Poly) →
    (Bytes 34 → Bytes (3 * N)) × Bytes 32 × Bytes 32 × Ω → Prop
  | (M, b), (T, rho, coins) =>
    let T' := plantTable T rho fun j i => NTT (M i.castSucc j)
    onCipher p (B T') (rho, fun j => NTT (M (Fin.last _) j), fun i => b i.castSucc, b (Fin.last _)) coins

end Fips203
