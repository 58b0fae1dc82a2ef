import Verif.Spec.XWingMany
/-!
Attacks on many X-Wing keys at once by an attacker that knows all secrets of all ML-KEM halves, with the combiner drawn at
random, and how such an attack is turned into attacks on one key with one challenge. Nothing here mentions the model of the
code.
-/
namespace XWingSpec
open MlKem (Sha3)
open Rust (Bytes)
open Fips203

/-- An attacker with questions for the combiner that can ask for decapsulations with many keys, named by `ι` -/
inductive InsiderN (ι : Type)
  | guess (b : Bool)
  | hashG (m h : Bytes 32) (next : Bytes 32 × Bytes 32 → InsiderN ι)
  | hashJ (z : Bytes 32) (c : Bytes 1088) (next : Bytes 32 → InsiderN ι)
  | combine (K : Bytes 32) (t : Exchange) (next : Bytes 32 → InsiderN ι)
  | decaps (i : ι) (c : Bytes 1120) (next : Option (Bytes 32) → InsiderN ι)

namespace InsiderN
variable {ι : Type}

/-- It asks at most `q` questions, whatever the answers. -/
def AtMost : Nat → InsiderN ι → Prop
  | _, guess _ => True
  | q, hashG _ _ next => ∃ q', q = q' + 1 ∧ ∀ a, AtMost q' (next a)
  | q, hashJ _ _ next => ∃ q', q = q' + 1 ∧ ∀ a, AtMost q' (next a)
  | q, combine _ _ next => ∃ q', q = q' + 1 ∧ ∀ a, AtMost q' (next a)
  | q, decaps _ _ next => ∃ q', q = q' + 1 ∧ ∀ a, AtMost q' (next a)

/-- Its guess, when `G`, `J`, the combiner and decapsulation answer like this -/
def output (G : Bytes 32 → Bytes 32 → Bytes 32 × Bytes 32) (J : Bytes 32 → Bytes 1088 → Bytes 32)
    (F : Bytes 32 → Exchange → Bytes 32) (D : ι → Bytes 1120 → Option (Bytes 32)) : InsiderN ι → Bool
  | guess b => b
  | hashG m h next => output G J F D (next (G m h))
  | hashJ z c next => output G J F D (next (J z c))
  | combine K t next => output G J F D (next (F K t))
  | decaps i c next => output G J F D (next (D i c))

open Classical in
/-- As an attacker on the key `b`, by somebody who generated the other keys from `sk`: questions for decapsulations with
the other keys are answered by decapsulating, with one question each for `G`, `J` and the combiner. Questions that concern
a challenge, `R`, are answered with `none`. -/
noncomputable def withKeys (S : Sha3) (x25519 : Bytes 32 → Bytes 32 → Bytes 32) (publicKey : Bytes 32 → Bytes 32) (b : ι)
    (sk : ι → Bytes 32) (R : ι → Bytes 1120 → Prop) : InsiderN ι → Insider
  | guess g => .guess g
  | hashG m h next => .hashG m h fun a => withKeys S x25519 publicKey b sk R (next a)
  | hashJ z' c next => .hashJ z' c fun a => withKeys S x25519 publicKey b sk R (next a)
  | combine K t next => .combine K t fun a => withKeys S x25519 publicKey b sk R (next a)
  | decaps i c next =>
    if R i c then withKeys S x25519 publicKey b sk R (next none)
    else if i = b then .decaps c fun a => withKeys S x25519 publicKey b sk R (next a)
    else
      let (d, z, x) := expanded S (sk i)
      let keys := KPKE_KeyGen S ML_KEM_768 d.toList
      let m := bytes 32 (KPKE_Decrypt ML_KEM_768 keys.2 (partM c).toList)
      .hashG m (bytes 32 (H S keys.1)) fun (K, r) =>
        .hashJ z (partM c) fun K' =>
          .combine (if encrypt S ML_KEM_768 1088 keys.1 m r = partM c then K else K') (x25519 x (partX c), partX c, publicKey x)
            fun ss => withKeys S x25519 publicKey b sk R (next (some ss))

end InsiderN

section
variable {u t : Nat} (S : Sha3) (x25519 : Bytes 32 → Bytes 32 → Bytes 32) (publicKey : Bytes 32 → Bytes 32)

/-- Ask `G` and the combiner for the challenges on a list, encapsulating for the key `ek (w j)` with the randomness `m j`
and `e j`, and go on with the ciphertexts and shared secrets. -/
noncomputable def encapsAllI (ek : Fin u → Bytes 1216) (w : Fin t → Fin u) (m e : Fin t → Bytes 32)
    (next : (Fin t → Bytes 1120 × Bytes 32) → Insider) : List (Fin t) → (Fin t → Bytes 1120 × Bytes 32) → Insider
  | [], ch => next ch
  | j :: l, ch => .hashG (m j) (bytes 32 (H S (keyM (ek (w j))).toList)) fun (K, r) =>
      .combine K (x25519 (e j) (keyX (ek (w j))), x25519 (e j) basePoint, keyX (ek (w j))) fun ss =>
        encapsAllI ek w m e next l (Function.update ch j
          (join (encrypt S ML_KEM_768 1088 (keyM (ek (w j))).toList (m j) r) (x25519 (e j) basePoint), ss))

open Classical in
/-- The attacker on many keys as one on the key of the challenge `r`, given the secrets of the other keys and challenges,
and secrets to show. The other challenges are made by encapsulation. The shared secrets of the challenges before `r` are
replaced. Decapsulation of a challenge is refused for the user that it was made for. (Nothing is done if another user's key
does not exist.) -/
noncomputable def hybridI
    (A : (Fin u → Bytes 32) → (Fin u → Bytes 32) → (Fin t → Bytes 32) → (Fin u → Bytes 1216) → (Fin t → Bytes 1120) →
      (Fin t → Bytes 32) → InsiderN (Fin u)) (w : Fin t → Fin u) (r : Fin t) :
    (Fin u → Bytes 32) × (Fin t → Bytes 32) × (Fin t → Bytes 32) × (Fin t → Bytes 32) →
      Bytes 32 → Bytes 32 → Bytes 32 → Bytes 1216 → Bytes 1120 → Bytes 32 → Insider
  | (sk, m, e, Ks), d, z, m0, ek, c, ss =>
    let ds := fun i => if i = w r then d else (expanded S (sk i)).1
    let zs := fun i => if i = w r then z else (expanded S (sk i)).2.1
    let eks := fun i => if i = w r then ek else publicOf S publicKey (sk i)
    let ms := fun j => if j = r then m0 else m j
    if ∀ i, i ≠ w r → SeedOk S 3 (seeds S ML_KEM_768 (expanded S (sk i)).1.toList).1 then
      encapsAllI S x25519 eks w m e
        (fun ch => (A ds zs ms eks (fun j => (ch j).1) (fun j => if j < r then Ks j else (ch j).2)).withKeys S x25519
          publicKey (w r) sk fun i c' => ∃ j, w j = i ∧ c' = (ch j).1)
        ((List.finRange t).filter fun j => j ≠ r)
        fun _ => (c, ss)
    else .guess false

end

end XWingSpec
