import Verif.Spec.XWingMany
import Verif.Spec.Told
/-!
Attacks on X-Wing with two keys by an attacker that is told what the challenge decapsulates to with each of them, and the
attack on ML-KEM-768 that such an attack is turned into. Nothing here mentions the model of the code.
-/
namespace XWingSpec
open MlKem (Sha3)
open Rust (Bytes)
open Fips203

section
variable (S : Sha3) (x25519 : Bytes 32 → Bytes 32 → Bytes 32) (publicKey : Bytes 32 → Bytes 32)

open Classical in
/-- Run an attacker on two X-Wing keys with decapsulations for two ML-KEM keys only. Given are the X25519 secrets `x`, the
challenge `c`, and what its ML-KEM part decapsulates to with each of the ML-KEM keys. -/
noncomputable def answerTold (x : Bool → Bytes 32) (c : Bytes 1120) (K : Bool → Bytes 32) : AttackerN Bool → Attacker2 1088
  | .guess b => .guess b
  | .hashG m h next => .hashG m h fun a => answerTold x c K (next a)
  | .hashJ z c' next => .hashJ z c' fun a => answerTold x c K (next a)
  | .decaps i c' next =>
    if c' = c then answerTold x c K (next none)
    else if partM c' = partM c then
      answerTold x c K (next (some (keyed S (K i) (x25519 (x i) (partX c'), partX c', publicKey (x i)))))
    else .decaps i (partM c') fun a =>
      answerTold x c K (next (a.map fun K' => keyed S K' (x25519 (x i) (partX c'), partX c', publicKey (x i))))

/-- The attack on two ML-KEM-768 keys: complete them by X25519 keys with the secrets `x`, and the ciphertext by an
ephemeral key with the secret `e`. -/
noncomputable def toldKem (A : (Bool → Bytes 1216) → Bytes 1120 → (Bool → Bytes 32) → AttackerN Bool) (x : Bool → Bytes 32)
    (e : Bytes 32) (ek : Bool → Bytes 1184) (c : Bytes 1088) (K : Bool → Bytes 32) : Attacker2 1088 :=
  answerTold S x25519 publicKey x (join c (x25519 e basePoint)) K
    (A (fun i => joinKey (ek i) (publicKey (x i))) (join c (x25519 e basePoint))
      (fun i => keyed S (K i) (x25519 (x i) (x25519 e basePoint), x25519 e basePoint, publicKey (x i))))

/-- The same, with the X25519 secrets among the coins -/
noncomputable def toldAttack {Ω : Type} {L : Nat}
    (A : Ω → (Bytes 34 → Bytes L) → (Bool → Bytes 1216) → Bytes 1120 → (Bool → Bytes 32) → AttackerN Bool) :
    Ω × (Bool → Bytes 32) × Bytes 32 → (Bytes 34 → Bytes L) → (Bool → Bytes 1184) → Bytes 1088 → (Bool → Bytes 32) → Attacker2 1088
  | (o, x, e), T => toldKem (withXof S T) x25519 publicKey (A o T) x e

end

end XWingSpec
