import Verif.Rust.Basic
/-!
`{:?}` and `{:#?}` of Rust's core library (external): what `derive(Debug)`, numbers, arrays and slices print. Other flags
(`{:x?}`, widths) are not represented. Text is a list of characters.
-/
namespace Rust.Fmt

/-- What is printed, depending on whether the alternate form `{:#?}` is asked for and on the number of levels it is
indented by (core's `PadAdapter` puts four blanks per level at the start of a line)
(as derived at ml-kem/src/kem.rs:23; ml-kem/src/algebra.rs:17, 184) -/
abbrev Text := Bool → Nat → List Char

/-- The start of a line (as derived at ml-kem/src/kem.rs:23; ml-kem/src/algebra.rs:17, 184) -/
def pad (n : Nat) : List Char := List.replicate (4 * n) ' '

/-- Numbers: decimal, in both forms (as derived at ml-kem/src/kem.rs:23; ml-kem/src/algebra.rs:17, 184) -/
def num (n : Nat) : Text := fun _ _ => Nat.toDigits 10 n

/-- The entries of core's `debug_tuple`, `debug_struct` and `debug_list`: separated by commas, or each on a line of its
own and followed by a comma. `gap` is what `debug_struct` puts inside its braces in the first form.
(as derived at ml-kem/src/kem.rs:23; ml-kem/src/algebra.rs:17, 184) -/
def entries (gap : List Char) (alt : Bool) (n : Nat) (l : List (List Char)) : List Char :=
  if alt then '\n' :: l.flatMap (fun t => pad (n + 1) ++ (t ++ ",\n".toList)) ++ pad n
  else gap ++ ", ".toList.intercalate l ++ gap

/-- `debug_tuple(name)` with at least one field (as derived at ml-kem/src/kem.rs:23; ml-kem/src/algebra.rs:17, 184) -/
def tuple (name : String) (fields : List Text) : Text := fun alt n =>
  name.toList ++ '(' :: entries [] alt n (fields.map fun t => t alt (if alt then n + 1 else n)) ++ [')']

/-- `debug_struct(name)` with at least one field (as derived at ml-kem/src/kem.rs:23; ml-kem/src/algebra.rs:17, 184) -/
def struct (name : String) (fields : List (String × Text)) : Text := fun alt n =>
  name.toList ++ ' ' :: '{' :: entries [' '] alt n (fields.map fun f =>
    f.1.toList ++ ": ".toList ++ f.2 alt (if alt then n + 1 else n)) ++ ['}']

/-- `debug_list()` with at least one entry (as derived at ml-kem/src/kem.rs:23; ml-kem/src/algebra.rs:17, 184) -/
def list (items : List Text) : Text := fun alt n =>
  '[' :: entries [] alt n (items.map fun t => t alt (if alt then n + 1 else n)) ++ [']']

end Rust.Fmt
