import Verif.Rust.Extern
/-!
Reading a random generator. Nothing here mentions the model of the code.
-/
namespace Fips203
open Rust
open MlKem (Rng)

/-- `blocks` are the next 32-byte outputs of the generator, in order, and leave it in the last state. -/
inductive Draws (rng : Rng) : rng.State → List (Bytes 32) → rng.State → Prop
  | none (s) : Draws rng s [] s
  | next {s b s1 bs s2} : rng.fill_bytes 32 s = .ok (b, s1) → Draws rng s1 bs s2 → Draws rng s (b :: bs) s2

/-- A generator that cannot be used -/
def noRng : Rng where
  State := Unit
  fill_bytes _ _ := .panic

end Fips203
