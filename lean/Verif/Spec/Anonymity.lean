import Verif.Spec.Pseudorandom
/-!
Attacks on ML-KEM with two keys, one of which a ciphertext was made for. Nothing here mentions the model of the code.
-/
namespace Fips203
open MlKem (Sha3)
open Rust (Bytes)

/-- An attacker that can ask for decapsulations with two keys, named `false` and `true` -/
inductive Attacker2 (n : Nat)
  | guess (b : Bool)
  | hashG (m h : Bytes 32) (next : Bytes 32 × Bytes 32 → Attacker2 n)
  | hashJ (z : Bytes 32) (c : Bytes n) (next : Bytes 32 → Attacker2 n)
  | decaps (i : Bool) (c : Bytes n) (next : Option (Bytes 32) → Attacker2 n)

namespace Attacker2
variable {n : Nat}

/-- It asks at most `q` questions, whatever the answers. -/
def AtMost : Nat → Attacker2 n → Prop
  | _, guess _ => True
  | q, hashG _ _ next => ∃ q', q = q' + 1 ∧ ∀ a, AtMost q' (next a)
  | q, hashJ _ _ next => ∃ q', q = q' + 1 ∧ ∀ a, AtMost q' (next a)
  | q, decaps _ _ next => ∃ q', q = q' + 1 ∧ ∀ a, AtMost q' (next a)

/-- Its guess, when `G`, `J` and decapsulation answer like this -/
def output (G : Bytes 32 → Bytes 32 → Bytes 32 × Bytes 32) (J : Bytes 32 → Bytes n → Bytes 32)
    (D : Bool → Bytes n → Option (Bytes 32)) : Attacker2 n → Bool
  | guess b => b
  | hashG m h next => output G J D (next (G m h))
  | hashJ z c next => output G J D (next (J z c))
  | decaps i c next => output G J D (next (D i c))

open Classical in
/-- As an attacker on the key `b`, by somebody who generated the other key from `d` and `z`: questions for decapsulations
with the other key are answered by decapsulating, with one question for `G` and one for `J`. The challenge is `c0`. -/
noncomputable def withKey (S : Sha3) (p : Params) (b : Bool) (d z : Bytes 32) (c0 : Bytes n) : Attacker2 n → Attacker n
  | guess g => .guess g
  | hashG m h next => .hashG m h fun a => withKey S p b d z c0 (next a)
  | hashJ z' c next => .hashJ z' c fun a => withKey S p b d z c0 (next a)
  | decaps i c next =>
    if i = b then .decaps c fun a => withKey S p b d z c0 (next a)
    else if c = c0 then withKey S p b d z c0 (next none)
    else
      let keys := KPKE_KeyGen S p d.toList
      let m := bytes 32 (KPKE_Decrypt p keys.2 c.toList)
      .hashG m (bytes 32 (H S keys.1)) fun (K, r) =>
        .hashJ z c fun K' =>
          withKey S p b d z c0 (next (some (if encrypt S p n keys.1 m r = c then K else K')))

end Attacker2

/-- The attacker with two keys as one on the key `b`, which also uses coins for the other key -/
noncomputable def against (S : Sha3) (p : Params) {N e n : Nat} {Ω : Type}
    (A : Ω → (Bytes 34 → Bytes (3 * N)) → (Bool → Bytes e) → Bytes n → Bytes 32 → Attacker2 n) (b : Bool) :
    Ω × Bytes 32 × Bytes 32 → (Bytes 34 → Bytes (3 * N)) → Bytes e → Bytes n → Bytes 32 → Attacker n
  | (o, d, z), T, ek, c, K =>
    (A o T (fun i => if i = b then ek else bytes e (KPKE_KeyGen (withXof S T) p d.toList).1) c K).withKey
      (withXof S T) p b d z c

end Fips203
