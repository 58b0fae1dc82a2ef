import Verif.Spec.Cca
import Verif.Spec.Rfc9180
import Verif.Spec.Random
/-!
Chosen-ciphertext attacks on the Diffie-Hellman-based KEM of RFC 9180, with `ExtractAndExpand` drawn at random, and the
attack on the Diffie-Hellman problem that such an attack is turned into. Nothing here mentions the model of the code.
-/
namespace Rfc9180
open Rust (Bytes)
open Fips203 (bytes prob)

/-- Diffie-Hellman on encoded public keys of `n` bytes, with values of `r` bytes -/
structure Exchange (n r : Nat) where
  Sk : Type
  pk : Sk → Bytes n
  dh : Sk → Bytes n → Bytes r

/-- The group's Diffie-Hellman function, as a function of the encoded key. What it does with strings that encode no key
does not matter. -/
def Dh.exchange (G : Dh) (n r : Nat) : Exchange n r where
  Sk := G.Sk
  pk k := bytes n (G.SerializePublicKey (G.pk k))
  dh k b := bytes r (((G.DeserializePublicKey b.toList).bind (G.DH k)).getD [])

/-- An attacker, as a strategy: it stops with a guess, or asks for `ExtractAndExpand` of a Diffie-Hellman value and the
context `enc ‖ pkR`, or for the decapsulation of `enc`, and continues depending on the answer. Secrets have `N` bytes. -/
inductive DhAttacker (n r N : Nat)
  | guess (b : Bool)
  | extract (dh : Bytes r) (enc pkR : Bytes n) (next : Bytes N → DhAttacker n r N)
  | decap (enc : Bytes n) (next : Option (Bytes N) → DhAttacker n r N)

namespace DhAttacker
variable {n r N : Nat}

/-- It asks at most `q` questions, whatever the answers. -/
def AtMost : Nat → DhAttacker n r N → Prop
  | _, guess _ => True
  | q, extract _ _ _ next => ∃ q', q = q' + 1 ∧ ∀ a, AtMost q' (next a)
  | q, decap _ next => ∃ q', q = q' + 1 ∧ ∀ a, AtMost q' (next a)

/-- Its guess, when `ExtractAndExpand` and decapsulation answer like this -/
def output (F : Bytes r → Bytes n → Bytes n → Bytes N) (D : Bytes n → Option (Bytes N)) : DhAttacker n r N → Bool
  | guess b => b
  | extract dh enc pkR next => output F D (next (F dh enc pkR))
  | decap enc next => output F D (next (D enc))

end DhAttacker

/-- A procedure for the Diffie-Hellman problem: it stops with an answer, or asks whether `Z` is the Diffie-Hellman value
of the first public key and `Y`. -/
inductive DhSolver (n r : Nat)
  | answer (Z : Bytes r)
  | ask (Y : Bytes n) (Z : Bytes r) (next : Bool → DhSolver n r)

namespace DhSolver
variable {n r : Nat}

/-- Its answer, when questions are answered by `O` -/
def run (O : Bytes n → Bytes r → Bool) : DhSolver n r → Bytes r
  | answer Z => Z
  | ask Y Z next => run O (next (O Y Z))

/-- It asks at most `q` questions, whatever the answers, and only about keys in `accept`. -/
def AtMost (accept : Bytes n → Bool) : Nat → DhSolver n r → Prop
  | _, answer _ => True
  | q, ask Y _ next => accept Y = true ∧ ∃ q', q = q' + 1 ∧ ∀ a, AtMost accept q' (next a)

end DhSolver

/-- How often a procedure, given the public keys of random secrets `x` and `e`, and coins, answers with their
Diffie-Hellman value. Its questions are about the first key. -/
noncomputable def dhSuccess {n r : Nat} {Ω : Type} (E : Exchange n r) (B : Bytes n → Bytes n → Ω → DhSolver n r) : ℝ :=
  prob (fun ((x, e, coins) : E.Sk × E.Sk × Ω) =>
    (B (E.pk x) (E.pk e) coins).run (fun Y Z => decide (E.dh x Y = Z)) = E.dh x (E.pk e))

section
variable {n r N : Nat}

/-- Run an attacker on the KEM without the recipient's secret. Given are the recipient's public key and the challenge
`ct`. Shared secrets are a table `U` of `enc`; the extraction answers from `U` on a Diffie-Hellman value of the
recipient's key, and from a table `T` otherwise. Stop at the Diffie-Hellman value for `ct`. -/
def solve (accept : Bytes n → Bool) (pk ct : Bytes n) (T : Bytes r → Bytes n → Bytes n → Bytes N)
    (U : Bytes n → Bytes N) : DhAttacker n r N → DhSolver n r
  | .guess _ => .answer (Vector.replicate r 0)
  | .extract dh enc pkR next =>
    if pkR = pk ∧ accept enc then
      .ask enc dh fun yes =>
        if yes then if enc = ct then .answer dh else solve accept pk ct T U (next (U enc))
        else solve accept pk ct T U (next (T dh enc pkR))
    else solve accept pk ct T U (next (T dh enc pkR))
  | .decap enc next =>
    if enc = ct then solve accept pk ct T U (next none)
    else if accept enc then solve accept pk ct T U (next (some (U enc)))
    else solve accept pk ct T U (next none)

/-- The attack on the Diffie-Hellman problem: show the attacker a random secret, and run it. -/
def toDh (accept : Bytes n → Bool) (A : Bytes n → Bytes n → Bytes N → DhAttacker n r N) (pk ct : Bytes n) :
    Bytes N × (Bytes r → Bytes n → Bytes n → Bytes N) × (Bytes n → Bytes N) → DhSolver n r
  | (ss, T, U) => solve accept pk ct T U (A pk ct ss)

end

end Rfc9180
