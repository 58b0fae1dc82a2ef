import Verif.Spec.MlweUniform
/-!
Deciding instead of guessing: the distinguishers for the assumptions on K-PKE that a distinguisher for its
ciphertexts is turned into. Nothing here mentions the model of the code.
-/
namespace Fips203
open MlKem (Sha3)
open Rust (Bytes)

/-- All byte strings of length `n` -/
def allStrings : Nat → List (List UInt8)
  | 0 => [[]]
  | n + 1 => (allStrings n).flatMap fun l => (List.range 256).map fun b => UInt8.ofNat b :: l

section
variable {n e : Nat} {Ω : Type}

open Classical in
/-- A distinguisher `D` as an attack on K-PKE: it lists all messages or none, so that it always or never lists the
message that was encrypted. -/
noncomputable def decider (D : Bytes e → Bytes n → Ω → Prop) (ek : Bytes e) (c : Bytes n) (coins : Ω) :
    List (Bytes 32) :=
  if D ek c coins then (allStrings 32).map (bytes 32) else []

/-- What an attacker guesses when its questions are answered from random tables, without the secret key -/
noncomputable def simulateGuess (S : Sha3) (p : Params) (A : Bytes e → Bytes n → Bytes 32 → Attacker n)
    (ek : Bytes e) (c : Bytes n) : SimulatorCoins n → Bool
  | (J, K, t, G) => (A ek c K).output (simulateG S p ek.toList t G) J (simulateD c t)

end

section
variable (S : Sha3) (p : Params) {N n e : Nat} {Ω : Type}
  (B : (Bytes 34 → Bytes (3 * N)) → Bytes e → Bytes n → Ω → List (Bytes 32))

/-- The advantages of the three distinguishers that concern the public key: against `G` as a generator, against `PRF`,
and against module learning with errors with uniform matrices -/
noncomputable def keyAssumptionsM : ℝ :=
  advantage (onSeedsT S p B) (seedPair S p) id + advantage (onKeyNoiseT S p B) (prfTable S) id
    + advantage (onKeyM S p B) (mlwe p.k p.k p.eta1 p.eta1) id

/-- The advantages of all five distinguishers, also the two that concern the ciphertext -/
noncomputable def assumptionsM : ℝ :=
  keyAssumptionsM S p B + advantage (onCipherNoiseT S p B) (prfTable S) id
    + advantage (onCipherM p B) (mlwe (p.k + 1) p.k p.eta1 p.eta2) id

end

section
variable (S : Sha3) (p : Params) {N n e : Nat} {Ω : Type}
  (A : Ω → (Bytes 34 → Bytes (3 * N)) → Bytes e → Bytes n → Bytes 32 → Attacker n)

/-- The randomised attacker `A`, which can read the table of SHAKE128, as an attack that lists the strings that it asks
`G` for in the simulation -/
noncomputable def collectT (T : Bytes 34 → Bytes (3 * N)) (ek : Bytes e) (c : Bytes n) :
    Ω × SimulatorCoins n → List (Bytes 32)
  | (o, coins) => simulate (withXof S T) p (A o T) ek c coins

/-- The same attacker as a distinguisher of public keys and ciphertexts: it accepts if the attacker guesses `true`
in the simulation. -/
def acceptT (T : Bytes 34 → Bytes (3 * N)) (ek : Bytes e) (c : Bytes n) : Ω × SimulatorCoins n → Prop
  | (o, coins) => simulateGuess (withXof S T) p (A o T) ek c coins = true

/-- The same as a distinguisher of public keys only: the ciphertext it is run on is made from uniform polynomials. -/
def acceptUniformT (T : Bytes 34 → Bytes (3 * N)) (ek : Bytes e) (_ : Bytes n) :
    ((Fin p.k → Poly) × Poly) × Ω × SimulatorCoins n → Prop
  | ((u, v), o, coins) => acceptT S p A T ek (packCipher p n u v) (o, coins)

/-- The advantages of the thirteen distinguishers built from `A` -/
noncomputable def challengeAssumptions : ℝ :=
  assumptionsM S p (collectT S p A) + assumptionsM S p (fun T => decider (acceptT S p A T))
    + keyAssumptionsM S p (fun T => decider (acceptUniformT S p A T))

end

end Fips203
