import Verif.Model.Kem
/-!
Histories of API calls: a caller holding any number of keys and one random generator. Each call is the
modelled API function (Model/Kem.lean); the API takes keys by shared reference (`&self` in
ml-kem/src/kem.rs:54-250 and ml-kem/src/lib.rs:95-160), so a call can only read them. Dropping a key
(ml-kem/src/kem.rs:33-46) makes its index unusable.
-/
namespace MlKem.History
open Rust

variable [Build]

/-- One API call. Keys are named by the order in which they were obtained. (the calls, ml-kem/src/lib.rs:83-149) -/
inductive Op (P : ParameterSet)
  /-- `KemCore::generate` (ml-kem/src/kem.rs:236-240) -/
  | generate
  /-- `KemCore::generate_deterministic` (ml-kem/src/kem.rs:243-250) -/
  | generateDet (d z : B32)
  /-- `DecapsulationKey::from_bytes` (ml-kem/src/kem.rs:54-69) -/
  | parseDk (b : P.EncodedDecapsulationKey)
  /-- `EncapsulationKey::from_bytes` (ml-kem/src/kem.rs:178-180) -/
  | parseEk (b : P.EncodedEncryptionKey)
  /-- `DecapsulationKey::encapsulation_key` (ml-kem/src/kem.rs:125-127) -/
  | extract (i : Nat)
  /-- `DecapsulationKey::as_bytes` (ml-kem/src/kem.rs:71-75) -/
  | writeDk (i : Nat)
  /-- `EncapsulationKey::as_bytes` (ml-kem/src/kem.rs:182-184) -/
  | writeEk (j : Nat)
  /-- `EncapsulationKey::encapsulate` (ml-kem/src/kem.rs:193-199) -/
  | encaps (j : Nat)
  /-- `EncapsulationKey::encapsulate_deterministic` (ml-kem/src/kem.rs:209-214) -/
  | encapsDet (j : Nat) (m : B32)
  /-- `DecapsulationKey::decapsulate` (ml-kem/src/kem.rs:91-117) -/
  | decaps (i : Nat) (c : P.EncodedCiphertext)
  /-- `Drop` of a decapsulation key (ml-kem/src/kem.rs:33-46) -/
  | dropDk (i : Nat)
  /-- drop of an encapsulation key -/
  | dropEk (j : Nat)

/-- What the caller sees of a call (their results, ml-kem/src/lib.rs:83-149) -/
inductive Obs (P : ParameterSet)
  | generated (i j : Nat) (d z : B32)
  /-- encapsulation key `j` was taken out of decapsulation key `i` -/
  | extracted (i j : Nat)
  | dkBytes (i : Nat) (b : P.EncodedDecapsulationKey)
  | ekBytes (j : Nat) (b : P.EncodedEncryptionKey)
  | encaps (j : Nat) (c : P.EncodedCiphertext) (K : SharedKey)
  | encapsDet (j : Nat) (m : B32) (c : P.EncodedCiphertext) (K : SharedKey)
  | decaps (i : Nat) (c : P.EncodedCiphertext) (K : SharedKey)

/-- The caller's keys (`none` once dropped) and the generator's state
(the caller of the trait, ml-kem/src/lib.rs:113-149) -/
structure World (P : ParameterSet) (rng : Rng) where
  dks : List (Option (DecapsulationKey P))
  eks : List (Option (EncapsulationKey P))
  st : rng.State

variable (H : Sha3) {P : ParameterSet} {rng : Rng}

/-- One call; a call on a key that does not exist or was dropped cannot be written and does nothing.
Models ml-kem/src/kem.rs:54-250 called in sequence. -/
def step (w : World P rng) : Op P → Res (World P rng × List (Obs P))
  | .generate => do
    let ((dk, ek), st) ← Kem.generate H P rng w.st
    .ok ({ dks := w.dks ++ [some dk], eks := w.eks ++ [some ek], st }, [])
  | .generateDet d z => do
    let (dk, ek) ← Kem.generate_deterministic H P d z
    .ok ({ w with dks := w.dks ++ [some dk], eks := w.eks ++ [some ek] },
      [.generated w.dks.length w.eks.length d z])
  | .parseDk b => do
    let dk ← DecapsulationKey.from_bytes b
    .ok ({ w with dks := w.dks ++ [some dk] }, [])
  | .parseEk b => do
    let ek ← EncapsulationKey.from_bytes H b
    .ok ({ w with eks := w.eks ++ [some ek] }, [])
  | .extract i =>
    match w.dks[i]? with
    | some (some dk) => .ok ({ w with eks := w.eks ++ [some dk.encapsulation_key] },
        [.extracted i w.eks.length])
    | _ => .ok (w, [])
  | .writeDk i =>
    match w.dks[i]? with
    | some (some dk) => do
      let b ← dk.as_bytes
      .ok (w, [.dkBytes i b])
    | _ => .ok (w, [])
  | .writeEk j =>
    match w.eks[j]? with
    | some (some ek) => do
      let b ← ek.as_bytes
      .ok (w, [.ekBytes j b])
    | _ => .ok (w, [])
  | .encaps j =>
    match w.eks[j]? with
    | some (some ek) => do
      let ((c, K), st) ← ek.encapsulate H rng w.st
      .ok ({ w with st }, [.encaps j c K])
    | _ => .ok (w, [])
  | .encapsDet j m =>
    match w.eks[j]? with
    | some (some ek) => do
      let (c, K) ← ek.encapsulate_deterministic H m
      .ok (w, [.encapsDet j m c K])
    | _ => .ok (w, [])
  | .decaps i c =>
    match w.dks[i]? with
    | some (some dk) => do
      let K ← dk.decapsulate H c
      .ok (w, [.decaps i c K])
    | _ => .ok (w, [])
  | .dropDk i => .ok ({ w with dks := w.dks.set i none }, [])
  | .dropEk j => .ok ({ w with eks := w.eks.set j none }, [])

/-- A history: the final state and everything the caller saw. Models ml-kem/src/kem.rs:54-250 called in
sequence. -/
def run (w : World P rng) : List (Op P) → Res (World P rng × List (Obs P))
  | [] => .ok (w, [])
  | op :: ops => do
    let (w, o) ← step H w op
    let (w, os) ← run w ops
    .ok (w, o ++ os)

/-- The caller before any call (the caller of the trait, ml-kem/src/lib.rs:113-149) -/
def start (st : rng.State) : World P rng := { dks := [], eks := [], st }

end MlKem.History
