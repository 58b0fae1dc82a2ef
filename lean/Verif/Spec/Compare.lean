/-!
Learning a secret from comparisons. `α` is what can be compared with the secret and `β` what is to be learnt.
-/
namespace Compare

/-- A procedure that has values compared with a secret and is told, each time, the result and a number; what it asks next
may depend on what it was told. -/
inductive Procedure (α β : Type) where
  | done (b : β)
  | ask (a : α) (next : Bool × Nat → Procedure α β)

/-- What it finds, and how many comparisons it takes, if `reply` is what it is told -/
def Procedure.run {α β : Type} (reply : α → Bool × Nat) : Procedure α β → β × Nat
  | done b => (b, 0)
  | ask a next => (((next (reply a)).run reply).1, ((next (reply a)).run reply).2 + 1)

/-- The number of elements that two sequences have in common at the start -/
def commonPrefix : List Nat → List Nat → Nat
  | a :: l, b :: l' => if a = b then commonPrefix l l' + 1 else 0
  | _, _ => 0

end Compare
