import Verif.Rust.Leak
/-!
Who watches a computation. An observer is a map from events to observations; an event mapped to `none` is not
noticed at all.
-/
namespace Rust.Leak

/-- What an observer has seen when the computation ends -/
def seen {O α : Type} (v : Event → Option O) (x : Leak α) : List O := x.trace.filterMap v

/-- The observer cannot tell which way the conditional subtraction of `small_reduce` went. -/
def HidesReduce {O : Type} (v : Event → Option O) : Prop := ∀ b b', v (.reduce b) = v (.reduce b')

/-- The observer cannot tell which entry of an `n`-entry table is read. -/
def HidesTable {O : Type} (v : Event → Option O) (n : Nat) : Prop :=
  ∀ i j, i < n → j < n → v (.table n i) = v (.table n j)

/-- The observer cannot tell the operand of a division by a constant. -/
def HidesDividend {O : Type} (v : Event → Option O) : Prop := ∀ a a' b, v (.divide a b) = v (.divide a' b)

/-- Sees everything but the direction of the conditional subtraction and the position in the tables -/
def program : Event → Option Event
  | .reduce _ => none
  | .table n _ => some (.table n 0)
  | e => some e

/-- Sees what `program` sees and, for a table placed `offset` bytes after a cache-line boundary, the 64-byte line
of each access to it -/
def cacheLine (offset : Nat) : Event → Option Event
  | .reduce _ => none
  | .table n i => some (.table n ((offset + 2 * i) / 64))
  | e => some e

/-- Sees which way each conditional subtraction of `small_reduce` goes, and nothing else -/
def directions : Event → Option Bool
  | .reduce b => some b
  | _ => none

/-- Sees the subscripts at which tables are read, and nothing else -/
def subscripts : Event → Option Nat
  | .table _ i => some i
  | _ => none

/-- Sees the 64-byte lines of the accesses to tables, placed `offset` bytes after a cache-line boundary, and nothing else -/
def lines (offset : Nat) : Event → Option Nat
  | .table _ i => some ((offset + 2 * i) / 64)
  | _ => none

end Rust.Leak
