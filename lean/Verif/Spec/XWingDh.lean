import Verif.Spec.XWingCca
import Verif.Spec.Mlwe
/-!
Chosen-ciphertext attacks on X-Wing by an attacker that knows all secrets of the ML-KEM half, with the combiner drawn
at random, and the attack on X25519 that such an attack is turned into. Nothing here mentions the model of the code.
-/
namespace XWingSpec
open MlKem (Sha3)
open Rust (Bytes)
open Fips203

/-- `S`, with SHA3-256 replaced by a table on the combiner's inputs: the label followed by four 32-byte strings -/
def withCombiner (S : Sha3) (F : Bytes 32 → Exchange → Bytes 32) : Sha3 :=
  { S with
    sha3_256 := fun l =>
      if l.length = 134 ∧ l.take 6 = [0x5c, 0x2e, 0x2f, 0x2f, 0x5e, 0x5c] then
        F (bytes 32 (l.drop 6)) (bytes 32 (l.drop 38), bytes 32 (l.drop 70), bytes 32 (l.drop 102))
      else S.sha3_256 l }

/-- An attacker, as a strategy: it stops with a guess, or asks for ML-KEM's `G(m ‖ h)` or `J(z ‖ c)`, for the
combiner's hash of `K`, `ss_X`, `ct_X` and `pk_X`, or for the X-Wing decapsulation of a ciphertext, and continues
depending on the answer. -/
inductive Insider
  | guess (b : Bool)
  | hashG (m h : Bytes 32) (next : Bytes 32 × Bytes 32 → Insider)
  | hashJ (z : Bytes 32) (c : Bytes 1088) (next : Bytes 32 → Insider)
  | combine (K : Bytes 32) (t : Exchange) (next : Bytes 32 → Insider)
  | decaps (c : Bytes 1120) (next : Option (Bytes 32) → Insider)

namespace Insider

/-- It asks at most `q` questions, whatever the answers. -/
def AtMost : Nat → Insider → Prop
  | _, guess _ => True
  | q, hashG _ _ next => ∃ q', q = q' + 1 ∧ ∀ a, AtMost q' (next a)
  | q, hashJ _ _ next => ∃ q', q = q' + 1 ∧ ∀ a, AtMost q' (next a)
  | q, combine _ _ next => ∃ q', q = q' + 1 ∧ ∀ a, AtMost q' (next a)
  | q, decaps _ next => ∃ q', q = q' + 1 ∧ ∀ a, AtMost q' (next a)

/-- Its guess, when `G`, `J`, the combiner and decapsulation answer like this -/
def output (G : Bytes 32 → Bytes 32 → Bytes 32 × Bytes 32) (J : Bytes 32 → Bytes 1088 → Bytes 32)
    (F : Bytes 32 → Exchange → Bytes 32) (D : Bytes 1120 → Option (Bytes 32)) : Insider → Bool
  | guess b => b
  | hashG m h next => output G J F D (next (G m h))
  | hashJ z c next => output G J F D (next (J z c))
  | combine K t next => output G J F D (next (F K t))
  | decaps c next => output G J F D (next (D c))

end Insider

/-! ### The strong Diffie-Hellman problem for X25519 -/

/-- A procedure for the Diffie-Hellman problem: it stops with an answer, or asks whether `Z` is the Diffie-Hellman value
of the first public key and `Y`. -/
inductive DhSolver
  | answer (Z : Bytes 32)
  | ask (Y Z : Bytes 32) (next : Bool → DhSolver)

namespace DhSolver

/-- Its answer, when questions are answered by `O` -/
def run (O : Bytes 32 → Bytes 32 → Bool) : DhSolver → Bytes 32
  | answer Z => Z
  | ask Y Z next => run O (next (O Y Z))

/-- It asks at most `q` questions, whatever the answers. -/
def AtMost : Nat → DhSolver → Prop
  | _, answer _ => True
  | q, ask _ _ next => ∃ q', q = q' + 1 ∧ ∀ a, AtMost q' (next a)

end DhSolver

/-- How often a procedure, given the public keys of random secrets `x` and `e`, and coins, answers with their
Diffie-Hellman value. Its questions are about the first key. -/
noncomputable def dhSuccess {Ω : Type} (x25519 : Bytes 32 → Bytes 32 → Bytes 32)
    (B : Bytes 32 → Bytes 32 → Ω → DhSolver) : ℝ :=
  prob (fun ((x, e, coins) : Bytes 32 × Bytes 32 × Ω) =>
    (B (x25519 x basePoint) (x25519 e basePoint) coins).run (fun Y Z => decide (x25519 x Y = Z))
      = x25519 x (x25519 e basePoint))

/-! ### The attack on X25519 made from an attack on X-Wing -/

section
variable (S : Sha3) (G : Bytes 32 → Bytes 32 → Bytes 32 × Bytes 32) (J : Bytes 32 → Bytes 1088 → Bytes 32)

/-- `H(ek)` of the ML-KEM-768 key generated from `d` -/
noncomputable def hashKey (d : Bytes 32) : Bytes 32 := bytes 32 (H S (KPKE_KeyGen S ML_KEM_768 d.toList).1)

/-- The ML-KEM-768 ciphertext for the message `m` -/
noncomputable def kemCipher (d m : Bytes 32) : Bytes 1088 :=
  encrypt S ML_KEM_768 1088 (KPKE_KeyGen S ML_KEM_768 d.toList).1 m (G m (hashKey S d)).2

/-- ML-KEM-768 decapsulation with the key generated from `d` and `z` -/
noncomputable def kemDecaps (d z : Bytes 32) (c : Bytes 1088) : Bytes 32 :=
  let m := bytes 32 (KPKE_Decrypt ML_KEM_768 (KPKE_KeyGen S ML_KEM_768 d.toList).2 c.toList)
  open Classical in if kemCipher S G d m = c then (G m (hashKey S d)).1 else J z c

/-- Run an attacker on X-Wing without the X25519 secret. Given are the X25519 public key `pk`, the challenge `c` with
X25519 part `ct`, and ML-KEM decapsulation. Shared secrets are a table `U` of `ss_M` and `ct_X`; the combiner answers
from `U` on a Diffie-Hellman value, and from a table `T` otherwise. Stop at the Diffie-Hellman value for `ct`. -/
noncomputable def solve (pk ct : Bytes 32) (c : Bytes 1120) (dec : Bytes 1088 → Bytes 32)
    (T : Bytes 32 → Exchange → Bytes 32) (U : Bytes 32 → Bytes 32 → Bytes 32) : Insider → DhSolver
  | .guess _ => .answer (Vector.replicate 32 0)
  | .hashG m h next => solve pk ct c dec T U (next (G m h))
  | .hashJ z c' next => solve pk ct c dec T U (next (J z c'))
  | .combine K (ss, y, p) next =>
    if p = pk then
      .ask y ss fun yes =>
        if yes then if y = ct then .answer ss else solve pk ct c dec T U (next (U K y))
        else solve pk ct c dec T U (next (T K (ss, y, p)))
    else solve pk ct c dec T U (next (T K (ss, y, p)))
  | .decaps c' next =>
    if c' = c then solve pk ct c dec T U (next none)
    else solve pk ct c dec T U (next (some (U (dec (partM c')) (partX c'))))

end

/-- What the attack on X25519 chooses at random: ML-KEM's seeds and message, tables for `G` and `J`, the secret it
shows the attacker, and the tables for the combiner -/
abbrev SolverCoins : Type :=
  Bytes 32 × Bytes 32 × Bytes 32 × (Bytes 32 → Bytes 32 → Bytes 32 × Bytes 32) × (Bytes 32 → Bytes 1088 → Bytes 32)
    × Bytes 32 × (Bytes 32 → Exchange → Bytes 32) × (Bytes 32 → Bytes 32 → Bytes 32)

/-- The attack on X25519: complete `pk` and `ct` by an ML-KEM key and ciphertext, show the X-Wing attacker a random
secret, and run it. -/
noncomputable def toDh (S : Sha3)
    (A : Bytes 32 → Bytes 32 → Bytes 32 → Bytes 1216 → Bytes 1120 → Bytes 32 → Insider) (pk ct : Bytes 32) :
    SolverCoins → DhSolver
  | (d, z, m, G, J, ss, T, U) =>
    let c := join (kemCipher S G d m) ct
    solve G J pk ct c (kemDecaps S G J d z) T U
      (A d z m (joinKey (bytes 1184 (KPKE_KeyGen S ML_KEM_768 d.toList).1) pk) c ss)

end XWingSpec
