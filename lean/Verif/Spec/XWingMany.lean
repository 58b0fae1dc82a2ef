import Verif.Spec.XWingDh
import Verif.Spec.Random
/-!
Attacks on many X-Wing keys at once, with many challenges, and how such an attack is turned into attacks on one key with
one challenge. Nothing here mentions the model of the code.
-/
namespace XWingSpec
open MlKem (Sha3)
open Rust (Bytes)
open Fips203

/-- An attacker that can ask for decapsulations with many keys, named by `ι` -/
inductive AttackerN (ι : Type)
  | guess (b : Bool)
  | hashG (m h : Bytes 32) (next : Bytes 32 × Bytes 32 → AttackerN ι)
  | hashJ (z : Bytes 32) (c : Bytes 1088) (next : Bytes 32 → AttackerN ι)
  | decaps (i : ι) (c : Bytes 1120) (next : Option (Bytes 32) → AttackerN ι)

namespace AttackerN
variable {ι : Type}

/-- It asks at most `q` questions, whatever the answers. -/
def AtMost : Nat → AttackerN ι → Prop
  | _, guess _ => True
  | q, hashG _ _ next => ∃ q', q = q' + 1 ∧ ∀ a, AtMost q' (next a)
  | q, hashJ _ _ next => ∃ q', q = q' + 1 ∧ ∀ a, AtMost q' (next a)
  | q, decaps _ _ next => ∃ q', q = q' + 1 ∧ ∀ a, AtMost q' (next a)

/-- Its guess, when `G`, `J` and decapsulation answer like this -/
def output (G : Bytes 32 → Bytes 32 → Bytes 32 × Bytes 32) (J : Bytes 32 → Bytes 1088 → Bytes 32)
    (D : ι → Bytes 1120 → Option (Bytes 32)) : AttackerN ι → Bool
  | guess b => b
  | hashG m h next => output G J D (next (G m h))
  | hashJ z c next => output G J D (next (J z c))
  | decaps i c next => output G J D (next (D i c))

open Classical in
/-- As an attacker on the key `b`, by somebody who generated the other keys from `sk`: questions for decapsulations with
the other keys are answered by decapsulating, with one question for `G` and one for `J`. Questions that concern a
challenge, `R`, are answered with `none`. -/
noncomputable def withKeys (S : Sha3) (x25519 : Bytes 32 → Bytes 32 → Bytes 32) (publicKey : Bytes 32 → Bytes 32) (b : ι)
    (sk : ι → Bytes 32) (R : ι → Bytes 1120 → Prop) : AttackerN ι → Attacker
  | guess g => .guess g
  | hashG m h next => .hashG m h fun a => withKeys S x25519 publicKey b sk R (next a)
  | hashJ z' c next => .hashJ z' c fun a => withKeys S x25519 publicKey b sk R (next a)
  | decaps i c next =>
    if R i c then withKeys S x25519 publicKey b sk R (next none)
    else if i = b then .decaps c fun a => withKeys S x25519 publicKey b sk R (next a)
    else
      let (d, z, x) := expanded S (sk i)
      let keys := KPKE_KeyGen S ML_KEM_768 d.toList
      let m := bytes 32 (KPKE_Decrypt ML_KEM_768 keys.2 (partM c).toList)
      .hashG m (bytes 32 (H S keys.1)) fun (K, r) =>
        .hashJ z (partM c) fun K' =>
          withKeys S x25519 publicKey b sk R (next (some (keyed S
            (if encrypt S ML_KEM_768 1088 keys.1 m r = partM c then K else K') (x25519 x (partX c), partX c, publicKey x))))

end AttackerN

section
variable {u t : Nat} (S : Sha3) (x25519 : Bytes 32 → Bytes 32 → Bytes 32) (publicKey : Bytes 32 → Bytes 32)

/-- The public key of a secret key -/
noncomputable def publicOf (sk : Bytes 32) : Bytes 1216 :=
  joinKey (bytes 1184 (KPKE_KeyGen S ML_KEM_768 (expanded S sk).1.toList).1) (publicKey (expanded S sk).2.2)

/-- `pk_M` of a public key -/
def keyM (pk : Bytes 1216) : Bytes 1184 := bytes 1184 pk.toList
/-- `pk_X` of a public key -/
def keyX (pk : Bytes 1216) : Bytes 32 := bytes 32 (pk.toList.drop 1184)

/-- Ask `G` for the challenges on a list, encapsulating for the key `ek (w j)` with the randomness `m j` and `e j`, and go
on with the ciphertexts and shared secrets. -/
noncomputable def encapsAll (ek : Fin u → Bytes 1216) (w : Fin t → Fin u) (m e : Fin t → Bytes 32)
    (next : (Fin t → Bytes 1120 × Bytes 32) → Attacker) : List (Fin t) → (Fin t → Bytes 1120 × Bytes 32) → Attacker
  | [], ch => next ch
  | j :: l, ch => .hashG (m j) (bytes 32 (H S (keyM (ek (w j))).toList)) fun (K, r) =>
      encapsAll ek w m e next l (Function.update ch j
        (join (encrypt S ML_KEM_768 1088 (keyM (ek (w j))).toList (m j) r) (x25519 (e j) basePoint),
          keyed S K (x25519 (e j) (keyX (ek (w j))), x25519 (e j) basePoint, keyX (ek (w j)))))

/-- What an attacker that has turned all but one of many challenges into its own chooses at random: the coins of the
attack on many keys, the users' secret keys, the randomness of the encapsulations, and secrets to show -/
abbrev HybridCoins (u t : Nat) (Ω : Type) : Type :=
  Ω × (Fin u → Bytes 32) × (Fin t → Bytes 32) × (Fin t → Bytes 32) × (Fin t → Bytes 32)

/-- The attacker on many keys as one on the key of the challenge `r`. The other challenges are made by encapsulation. The
shared secrets of the challenges before `r` are replaced by random strings. Decapsulation of a challenge is refused for the
user that it was made for. -/
noncomputable def hybrid {L : Nat} {Ω : Type}
    (A : Ω → (Bytes 34 → Bytes L) → (Fin u → Bytes 1216) → (Fin t → Bytes 1120) → (Fin t → Bytes 32) → AttackerN (Fin u))
    (w : Fin t → Fin u) (r : Fin t) :
    HybridCoins u t Ω → (Bytes 34 → Bytes L) → Bytes 1216 → Bytes 1120 → Bytes 32 → Attacker
  | (o, sk, m, e, Ks), T, ek, c, ss =>
    let eks := fun i => if i = w r then ek else publicOf (withXof S T) publicKey (sk i)
    encapsAll (withXof S T) x25519 eks w m e
      (fun ch => (A o T eks (fun j => (ch j).1) (fun j => if j < r then Ks j else (ch j).2)).withKeys (withXof S T) x25519
        publicKey (w r) sk fun i c' => ∃ j, w j = i ∧ c' = (ch j).1)
      ((List.finRange t).filter fun j => j ≠ r)
      fun _ => (c, ss)

end

end XWingSpec
