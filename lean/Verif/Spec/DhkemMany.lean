import Verif.Spec.DhkemCca
/-!
Chosen-ciphertext attacks on many recipients' Diffie-Hellman-based KEMs at once, and how they are turned into attacks on
one Diffie-Hellman problem. Nothing here mentions the model of the code.
-/
namespace Rfc9180
open Rust (Bytes)

/-- An attacker on the users `ι`: it stops with a guess, or asks for `ExtractAndExpand` of a Diffie-Hellman value and the
context `enc ‖ pkR`, or for the decapsulation of `enc` by a user, and continues depending on the answer. -/
inductive DhAttackerN (ι : Type) (n r N : Nat)
  | guess (b : Bool)
  | extract (dh : Bytes r) (enc pkR : Bytes n) (next : Bytes N → DhAttackerN ι n r N)
  | decap (i : ι) (enc : Bytes n) (next : Option (Bytes N) → DhAttackerN ι n r N)

namespace DhAttackerN
variable {ι : Type} {n r N : Nat}

/-- It asks at most `q` questions, whatever the answers. -/
def AtMost : Nat → DhAttackerN ι n r N → Prop
  | _, guess _ => True
  | q, extract _ _ _ next => ∃ q', q = q' + 1 ∧ ∀ a, AtMost q' (next a)
  | q, decap _ _ next => ∃ q', q = q' + 1 ∧ ∀ a, AtMost q' (next a)

/-- Its guess, when `ExtractAndExpand` and decapsulation answer like this -/
def output (F : Bytes r → Bytes n → Bytes n → Bytes N) (D : ι → Bytes n → Option (Bytes N)) : DhAttackerN ι n r N → Bool
  | guess b => b
  | extract dh enc pkR next => output F D (next (F dh enc pkR))
  | decap i enc next => output F D (next (D i enc))

end DhAttackerN

/-- Users refuse to decapsulate their own challenges only. -/
def ownOnly {u t : Nat} (w : Fin t → Fin u) (i : Fin u) (j : Fin t) : Bool := decide (w j = i)

section
variable {n r N u t : Nat} (E : Exchange n r) (accept : Bytes n → Bool) (R : Fin u → Fin t → Bool) (w : Fin t → Fin u)

/-- Play the users other than `w k`, with their secrets `x`, against an attacker on all of them. The user `w k` is left
to answer for themselves. The user `i` refuses the challenges `j` with `R i j`. -/
def playUsers (k : Fin t) (pk : Fin u → Bytes n) (ct : Fin t → Bytes n) (x : Fin u → E.Sk) :
    DhAttackerN (Fin u) n r N → DhAttacker n r N
  | .guess b => .guess b
  | .extract dh enc pkR next => .extract dh enc pkR fun a => playUsers k pk ct x (next a)
  | .decap i enc next =>
    if ∃ j, R i j ∧ enc = ct j then playUsers k pk ct x (next none)
    else if i = w k then .decap enc fun a => playUsers k pk ct x (next a)
    else if accept enc then .extract (E.dh (x i) enc) enc (pk i) fun a => playUsers k pk ct x (next (some a))
    else playUsers k pk ct x (next none)

/-- Play the senders of the challenges in a list, with their secrets `e`; the shared secrets of the others are `K`. -/
def playSenders (pk : Fin u → Bytes n) (ct : Fin t → Bytes n) (e : Fin t → E.Sk) :
    List (Fin t) → (Fin t → Bytes N) → ((Fin t → Bytes N) → DhAttacker n r N) → DhAttacker n r N
  | [], K, f => f K
  | j :: l, K, f => .extract (E.dh (e j) (pk (w j))) (ct j) (pk (w j)) fun a =>
      playSenders pk ct e l (Function.update K j a) f

/-- From an attacker on all challenges, an attacker on the challenge `k`: it plays all other users, shows random secrets `K`
for the challenges before `k`, and the right ones for those after `k`. -/
def oneOf (A : (Fin u → Bytes n) → (Fin t → Bytes n) → (Fin t → Bytes N) → DhAttackerN (Fin u) n r N) (k : Fin t) :
    (Fin u → E.Sk) × (Fin t → E.Sk) × (Fin t → Bytes N) → Bytes n → Bytes n → Bytes N → DhAttacker n r N
  | (x, e, K), pk, ct, ss =>
    let pks := Function.update (fun i => E.pk (x i)) (w k) pk
    let cts := Function.update (fun j => E.pk (e j)) k ct
    playSenders E w pks cts e ((List.finRange t).filter (k < ·)) (Function.update K k ss) fun K =>
      playUsers E accept R w k pks cts x (A pks cts K)

/-- The attack on the Diffie-Hellman problem that it gives -/
def toDhOf (A : (Fin u → Bytes n) → (Fin t → Bytes n) → (Fin t → Bytes N) → DhAttackerN (Fin u) n r N) (k : Fin t)
    (pk ct : Bytes n) :
    ((Fin u → E.Sk) × (Fin t → E.Sk) × (Fin t → Bytes N)) ×
      Bytes N × (Bytes r → Bytes n → Bytes n → Bytes N) × (Bytes n → Bytes N) → DhSolver n r
  | (o, coins) => toDh accept (oneOf E accept R w A k o) pk ct coins

end
end Rfc9180
