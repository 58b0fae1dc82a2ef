import Verif.Spec.XWing
import Verif.Spec.Cca
/-!
Adaptive chosen-ciphertext attacks on X-Wing, and the attack on ML-KEM-768 that an attack on X-Wing is turned into.
Nothing here mentions the model of the code.
-/
namespace XWingSpec
open MlKem (Sha3 Rng)
open Rust (Bytes)
open Fips203 (bytes)

/-- A generator that yields the given 32-byte blocks -/
def blocks : Rng where
  State := List (Bytes 32)
  fill_bytes n s :=
    match s with
    | b :: s => if h : 32 = n then .ok (h ▸ b, s) else .panic
    | [] => .panic

/-- An attacker, as a strategy: it stops with a guess, or asks for ML-KEM's `G(m ‖ h)` or `J(z ‖ c)` or for the
X-Wing decapsulation of a ciphertext, and continues depending on the answer. (Decapsulation of the challenge, or a
decapsulation that returns no secret, is answered by `none`.) -/
inductive Attacker
  | guess (b : Bool)
  | hashG (m h : Bytes 32) (next : Bytes 32 × Bytes 32 → Attacker)
  | hashJ (z : Bytes 32) (c : Bytes 1088) (next : Bytes 32 → Attacker)
  | decaps (c : Bytes 1120) (next : Option (Bytes 32) → Attacker)

namespace Attacker

/-- It asks at most `q` questions, whatever the answers. -/
def AtMost : Nat → Attacker → Prop
  | _, guess _ => True
  | q, hashG _ _ next => ∃ q', q = q' + 1 ∧ ∀ a, AtMost q' (next a)
  | q, hashJ _ _ next => ∃ q', q = q' + 1 ∧ ∀ a, AtMost q' (next a)
  | q, decaps _ next => ∃ q', q = q' + 1 ∧ ∀ a, AtMost q' (next a)

/-- Its guess, when `G`, `J` and decapsulation answer like this -/
def output (G : Bytes 32 → Bytes 32 → Bytes 32 × Bytes 32) (J : Bytes 32 → Bytes 1088 → Bytes 32)
    (D : Bytes 1120 → Option (Bytes 32)) : Attacker → Bool
  | guess b => b
  | hashG m h next => output G J D (next (G m h))
  | hashJ z c next => output G J D (next (J z c))
  | decaps c next => output G J D (next (D c))

end Attacker

/-- `ct_M ‖ ct_X` -/
def join (cM : Bytes 1088) (cX : Bytes 32) : Bytes 1120 := bytes 1120 (cM.toList ++ cX.toList)
/-- `ct_M` of a ciphertext -/
def partM (c : Bytes 1120) : Bytes 1088 := bytes 1088 c.toList
/-- `ct_X` of a ciphertext -/
def partX (c : Bytes 1120) : Bytes 32 := bytes 32 (c.toList.drop 1088)
/-- `pk_M ‖ pk_X` -/
def joinKey (pkM : Bytes 1184) (pkX : Bytes 32) : Bytes 1216 := bytes 1216 (pkM.toList ++ pkX.toList)

/-- `ss_X`, `ct_X`, `pk_X` -/
abbrev Exchange : Type := Bytes 32 × Bytes 32 × Bytes 32

/-- The combiner as a function keyed by `ss_M` -/
def keyed (S : Sha3) (K : Bytes 32) : Exchange → Bytes 32
  | (ssX, ctX, pkX) => Combiner S K.toList ssX.toList ctX.toList pkX.toList

/-- The seeds of ML-KEM and the X25519 secret, expanded from a secret key -/
def expanded (S : Sha3) (sk : Bytes 32) : Bytes 32 × Bytes 32 × Bytes 32 :=
  (seedD S sk.toList, seedZ S sk.toList, secretX S sk.toList)

section
variable (S : Sha3) (x25519 : Bytes 32 → Bytes 32 → Bytes 32) (publicKey : Bytes 32 → Bytes 32)

open Classical in
/-- Run an attacker on X-Wing with decapsulations for ML-KEM only. Given are the X25519 secret `x`, the challenge
`c`, and `F` in place of the combiner keyed by the challenge's `ss_M`. -/
noncomputable def answer (x : Bytes 32) (c : Bytes 1120) (F : Exchange → Bytes 32) : Attacker → Fips203.Attacker 1088
  | .guess b => .guess b
  | .hashG m h next => .hashG m h fun a => answer x c F (next a)
  | .hashJ z c' next => .hashJ z c' fun a => answer x c F (next a)
  | .decaps c' next =>
    if c' = c then answer x c F (next none)
    else if partM c' = partM c then answer x c F (next (some (F (x25519 x (partX c'), partX c', publicKey x))))
    else .decaps (partM c') fun a =>
      answer x c F (next (a.map fun K => keyed S K (x25519 x (partX c'), partX c', publicKey x)))

/-- The attack on ML-KEM-768: complete the key and the ciphertext by an X25519 key with secret `x` and an exchange with
the ephemeral secret `e`. The X-Wing attacker is shown `key ss`, where `ss` is the combined secret; `F K` is used in
place of the combiner keyed by the challenge's `ss_M = K`. -/
noncomputable def toKem (F : Bytes 32 → Exchange → Bytes 32) (A : Bytes 1216 → Bytes 1120 → Bytes 32 → Attacker)
    (key : Bytes 32 → Bytes 32) (x e : Bytes 32) (ek : Bytes 1184) (c : Bytes 1088) (K : Bytes 32) :
    Fips203.Attacker 1088 :=
  answer S x25519 publicKey x (join c (x25519 e basePoint)) (F K)
    (A (joinKey ek (publicKey x)) (join c (x25519 e basePoint))
      (key (F K (x25519 e (publicKey x), x25519 e basePoint, publicKey x))))

end

end XWingSpec
