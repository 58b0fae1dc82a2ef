import Verif.Spec.Random
/-!
The hash functions that seeds of keys go through, as random tables.
-/
namespace Fips203
open MlKem (Sha3)
open Rust (Bytes)

/-- `S`, with SHA3-512 replaced on 33-byte strings, the strings `d ‖ k` that key generation hashes, by the table `G` -/
def withKeySeeds (S : Sha3) (G : Bytes 33 → Bytes 64) : Sha3 :=
  { S with sha3_512 := fun l => if h : l.toArray.size = 33 then G ⟨l.toArray, h⟩ else S.sha3_512 l }

/-- `S`, with SHAKE128 replaced on 32-byte strings, the secrets that X-Wing expands: the first 96 bytes of its output are
those of the table `E` -/
def withExpansion (S : Sha3) (E : Bytes 32 → Bytes 96) : Sha3 :=
  { S with shake128 := fun l n => if h : l.toArray.size = 32 ∧ n < 96 then (E ⟨l.toArray, h.1⟩)[n] else S.shake128 l n }

end Fips203
