import Verif.Rust.Extern
import Mathlib.SetTheory.Cardinal.Finite
import Mathlib.Data.Real.Basic
/-!
Probabilities over finite sets, and hash functions drawn at random. Nothing here mentions the model of the
code.
-/
namespace Fips203
open MlKem (Sha3)
open Rust (Bytes)

/-- The fraction of the elements of a finite type that satisfy `E` -/
noncomputable def prob {α : Type} (E : α → Prop) : ℝ := Nat.card {a // E a} / Nat.card α

/-- `S`, with SHAKE256 replaced on 33-byte strings, the inputs of `PRF`: the first 192 bytes of its output are
those of the table `F`. (192 bytes are the longest output `PRF` reads.) -/
def withPrf (S : Sha3) (F : Bytes 33 → Bytes 192) : Sha3 :=
  { S with shake256 := fun l n => if h : l.toArray.size = 33 ∧ n < 192 then (F ⟨l.toArray, h.1⟩)[n] else S.shake256 l n }

/-- `S`, with SHA3-512 replaced on 64-byte strings, the strings `m ‖ H(ek)` that encapsulation hashes, by
the table `R` -/
def withDerive (S : Sha3) (R : Bytes 64 → Bytes 64) : Sha3 :=
  { S with sha3_512 := fun l => if h : l.toArray.size = 64 then R ⟨l.toArray, h⟩ else S.sha3_512 l }

/-- `S`, with SHAKE128 replaced on 34-byte strings, the strings `ρ ‖ j ‖ i` that matrix entries are sampled
from: the first `L` bytes of its output are those of the table `T` -/
def withXof (S : Sha3) {L : Nat} (T : Bytes 34 → Bytes L) : Sha3 :=
  { S with shake128 := fun l n => if h : l.toArray.size = 34 ∧ n < L then (T ⟨l.toArray, h.1⟩)[n] else S.shake128 l n }

/-- Tables for the outputs of SHAKE128 that give the matrix, for those of SHAKE256 that give the noise and for those
of SHA3-512 that give the encapsulation's randomness. (840 bytes of SHAKE128 hold 560 candidates for the 256
coefficients of an entry.) -/
abbrev Tables : Type := (Bytes 34 → Bytes (3 * 280)) × (Bytes 33 → Bytes 192) × (Bytes 64 → Bytes 64)

/-- The hash functions with the three tables -/
def withTables (S : Sha3) (T : Tables) : Sha3 := withXof (withPrf (withDerive S T.2.2) T.2.1) T.1

end Fips203
