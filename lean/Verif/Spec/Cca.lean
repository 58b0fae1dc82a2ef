import Verif.Spec.Layout
import Verif.Spec.Random
/-!
Adaptive chosen-ciphertext attacks on ML-KEM, with `G` on 64-byte strings and `J` drawn at random, and the
attack on K-PKE that an attack on ML-KEM is turned into. Nothing here mentions the model of the code.
-/
namespace Fips203
open MlKem (Sha3)
open Rust (Bytes)

/-- The first `n` bytes of a list -/
def bytes (n : Nat) (l : List UInt8) : Bytes n := Vector.ofFn fun i => l.getD i.val 0

/-- `S`, with `G` replaced on 64-byte strings `m ‖ h` by a table, and `J` replaced on strings `z ‖ c` with an
`n`-byte ciphertext `c` by a table. All other hash computations are those of `S`. -/
def withOracles (S : Sha3) {n : Nat} (G : Bytes 32 → Bytes 32 → Bytes 32 × Bytes 32)
    (J : Bytes 32 → Bytes n → Bytes 32) : Sha3 :=
  { S with
    sha3_512 := fun l =>
      if l.length = 64 then (G (bytes 32 l) (bytes 32 (l.drop 32))).1 ++ (G (bytes 32 l) (bytes 32 (l.drop 32))).2
      else S.sha3_512 l
    shake256 := fun l i =>
      if h : l.length = 32 + n ∧ i < 32 then (J (bytes 32 l) (bytes n (l.drop 32)))[i] else S.shake256 l i }

/-- An attacker, as a strategy: it stops with a guess, or asks for `G(m ‖ h)`, for `J(z ‖ c)` or for the
decapsulation of a ciphertext, and continues depending on the answer. (Decapsulation of the challenge, or a
decapsulation that returns no key, is answered by `none`.) A randomised attacker is an average of these. -/
inductive Attacker (n : Nat)
  | guess (b : Bool)
  | hashG (m h : Bytes 32) (next : Bytes 32 × Bytes 32 → Attacker n)
  | hashJ (z : Bytes 32) (c : Bytes n) (next : Bytes 32 → Attacker n)
  | decaps (c : Bytes n) (next : Option (Bytes 32) → Attacker n)

namespace Attacker
variable {n : Nat}

/-- It asks at most `q` questions, whatever the answers. -/
def AtMost : Nat → Attacker n → Prop
  | _, guess _ => True
  | q, hashG _ _ next => ∃ q', q = q' + 1 ∧ ∀ a, AtMost q' (next a)
  | q, hashJ _ _ next => ∃ q', q = q' + 1 ∧ ∀ a, AtMost q' (next a)
  | q, decaps _ next => ∃ q', q = q' + 1 ∧ ∀ a, AtMost q' (next a)

variable (G : Bytes 32 → Bytes 32 → Bytes 32 × Bytes 32) (J : Bytes 32 → Bytes n → Bytes 32)
  (D : Bytes n → Option (Bytes 32))

/-- Its guess, when `G`, `J` and decapsulation answer like this -/
def output : Attacker n → Bool
  | guess b => b
  | hashG m h next => output (next (G m h))
  | hashJ z c next => output (next (J z c))
  | decaps c next => output (next (D c))

/-- The first halves of the strings it asks `G` for -/
def hashed : Attacker n → List (Bytes 32)
  | guess _ => []
  | hashG m h next => m :: hashed (next (G m h))
  | hashJ z c next => hashed (next (J z c))
  | decaps c next => hashed (next (D c))

end Attacker

/-- Encryption with K-PKE -/
noncomputable def encrypt (S : Sha3) (p : Params) (n : Nat) (ek : List UInt8) (m r : Bytes 32) : Bytes n :=
  bytes n (KPKE_Encrypt S p ek m.toList r.toList)

open Classical in
/-- `G` as the simulator answers it: the shared key is a table `t` of the ciphertext. -/
noncomputable def simulateG (S : Sha3) (p : Params) {n : Nat} (ek : List UInt8) (t : Bytes n → Bytes 32)
    (G : Bytes 32 → Bytes 32 → Bytes 32 × Bytes 32) (m h : Bytes 32) : Bytes 32 × Bytes 32 :=
  if h.toList = H S ek then (t (encrypt S p n ek m (G m h).2), (G m h).2) else G m h

open Classical in
/-- Decapsulation as the simulator answers it, without the secret key -/
noncomputable def simulateD {n : Nat} (c0 : Bytes n) (t : Bytes n → Bytes 32) (c : Bytes n) : Option (Bytes 32) :=
  if c = c0 then none else some (t c)

/-- What the simulator chooses at random: tables for `J`, for the shared keys of ciphertexts and for `G`, and the
key it shows the attacker -/
abbrev SimulatorCoins (n : Nat) : Type :=
  (Bytes 32 → Bytes n → Bytes 32) × Bytes 32 × (Bytes n → Bytes 32) × (Bytes 32 → Bytes 32 → Bytes 32 × Bytes 32)

/-- The attack on K-PKE: given a public key and a ciphertext `c`, run the attacker on `c` and a random key,
answering its questions from random tables, and collect what it asks `G` for. The result is a list of guesses for
the plaintext. -/
noncomputable def simulate (S : Sha3) (p : Params) {n e : Nat} (A : Bytes e → Bytes n → Bytes 32 → Attacker n)
    (ek : Bytes e) (c : Bytes n) : SimulatorCoins n → List (Bytes 32)
  | (J, K, t, G) => (A ek c K).hashed (simulateG S p ek.toList t G) J (simulateD c t)

/-- Encrypting `m` with the randomness `r` under the key generated from `d`, and decrypting, does not give `m`. -/
def Incorrect (S : Sha3) (p : Params) (d m r : Bytes 32) : Prop :=
  KPKE_Decrypt p (KPKE_KeyGen S p d.toList).2 (KPKE_Encrypt S p (KPKE_KeyGen S p d.toList).1 m.toList r.toList)
    ≠ m.toList

end Fips203
