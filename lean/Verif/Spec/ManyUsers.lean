import Verif.Spec.Anonymity
/-!
Attacks on many ML-KEM keys at once, with many challenges, and how such an attack is turned into attacks on one key with
one challenge. Nothing here mentions the model of the code.
-/
namespace Fips203
open MlKem (Sha3)
open Rust (Bytes)

/-- An attacker that can ask for decapsulations with many keys, named by `ι` -/
inductive AttackerN (ι : Type) (n : Nat)
  | guess (b : Bool)
  | hashG (m h : Bytes 32) (next : Bytes 32 × Bytes 32 → AttackerN ι n)
  | hashJ (z : Bytes 32) (c : Bytes n) (next : Bytes 32 → AttackerN ι n)
  | decaps (i : ι) (c : Bytes n) (next : Option (Bytes 32) → AttackerN ι n)

namespace AttackerN
variable {ι : Type} {n : Nat}

/-- It asks at most `q` questions, whatever the answers. -/
def AtMost : Nat → AttackerN ι n → Prop
  | _, guess _ => True
  | q, hashG _ _ next => ∃ q', q = q' + 1 ∧ ∀ a, AtMost q' (next a)
  | q, hashJ _ _ next => ∃ q', q = q' + 1 ∧ ∀ a, AtMost q' (next a)
  | q, decaps _ _ next => ∃ q', q = q' + 1 ∧ ∀ a, AtMost q' (next a)

/-- Its guess, when `G`, `J` and decapsulation answer like this -/
def output (G : Bytes 32 → Bytes 32 → Bytes 32 × Bytes 32) (J : Bytes 32 → Bytes n → Bytes 32)
    (D : ι → Bytes n → Option (Bytes 32)) : AttackerN ι n → Bool
  | guess b => b
  | hashG m h next => output G J D (next (G m h))
  | hashJ z c next => output G J D (next (J z c))
  | decaps i c next => output G J D (next (D i c))

open Classical in
/-- As an attacker on the key `b`, by somebody who generated the other keys from `d` and `z`: questions for decapsulations
with the other keys are answered by decapsulating, with one question for `G` and one for `J`. Questions that concern a
challenge, `R`, are answered with `none`. -/
noncomputable def withKeys (S : Sha3) (p : Params) (b : ι) (d z : ι → Bytes 32) (R : ι → Bytes n → Prop) :
    AttackerN ι n → Attacker n
  | guess g => .guess g
  | hashG m h next => .hashG m h fun a => withKeys S p b d z R (next a)
  | hashJ z' c next => .hashJ z' c fun a => withKeys S p b d z R (next a)
  | decaps i c next =>
    if R i c then withKeys S p b d z R (next none)
    else if i = b then .decaps c fun a => withKeys S p b d z R (next a)
    else
      let keys := KPKE_KeyGen S p (d i).toList
      let m := bytes 32 (KPKE_Decrypt p keys.2 c.toList)
      .hashG m (bytes 32 (H S keys.1)) fun (K, r) =>
        .hashJ (z i) c fun K' =>
          withKeys S p b d z R (next (some (if encrypt S p n keys.1 m r = c then K else K')))

end AttackerN

section
variable {u t e n : Nat}

/-- Ask `G` for the challenges on a list, encapsulating `m j` for the key `ek (w j)`, and go on with the ciphertexts and
shared keys. -/
noncomputable def encapsAll (S : Sha3) (p : Params) (ek : Fin u → Bytes e) (w : Fin t → Fin u) (m : Fin t → Bytes 32)
    (next : (Fin t → Bytes n × Bytes 32) → Attacker n) : List (Fin t) → (Fin t → Bytes n × Bytes 32) → Attacker n
  | [], ch => next ch
  | j :: l, ch => .hashG (m j) (bytes 32 (H S (ek (w j)).toList)) fun (K, r) =>
      encapsAll S p ek w m next l (Function.update ch j (encrypt S p n (ek (w j)).toList (m j) r, K))

/-- What an attacker that has turned all but one of many challenges into its own chooses at random: the coins of the
attack on many keys, two seeds for every key, the messages to encapsulate, polynomials to make ciphertexts from and shared
keys -/
abbrev HybridCoins (p : Params) (u t : Nat) (Ω : Type) : Type :=
  Ω × (Fin u → Bytes 32) × (Fin u → Bytes 32) × (Fin t → Bytes 32) × (Fin t → (Fin p.k → Poly) × Poly) × (Fin t → Bytes 32)

/-- The attacker on many keys as one on the key of the challenge `r`. The challenges before `r` are replaced by random
strings; those after `r` are made by encapsulation. Decapsulation of the challenge `j` with the key `i` is refused if
`R i j`. -/
noncomputable def hybrid (S : Sha3) (p : Params) {N : Nat} {Ω : Type}
    (A : Ω → (Bytes 34 → Bytes (3 * N)) → (Fin u → Bytes e) → (Fin t → Bytes n) → (Fin t → Bytes 32) → AttackerN (Fin u) n)
    (R : Fin u → Fin t → Prop) (w : Fin t → Fin u) (r : Fin t) :
    HybridCoins p u t Ω → (Bytes 34 → Bytes (3 * N)) → Bytes e → Bytes n → Bytes 32 → Attacker n
  | (o, d, z, m, C, Ks), T, ek, c, K =>
    let eks := fun i => if i = w r then ek else bytes e (KPKE_KeyGen (withXof S T) p (d i).toList).1
    encapsAll (withXof S T) p eks w m
      (fun ch => (A o T eks (fun j => (ch j).1) (fun j => (ch j).2)).withKeys (withXof S T) p (w r) d z
        fun i c' => ∃ j, R i j ∧ c' = (ch j).1)
      ((List.finRange t).filter fun j => r < j)
      fun j => if j = r then (c, K) else (packCipher p n (C j).1 (C j).2, Ks j)

end

end Fips203
