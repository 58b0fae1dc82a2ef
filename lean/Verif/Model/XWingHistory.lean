import Verif.Model.XWing
/-!
Histories of calls of X-Wing's API: a caller holding any number of keys and one random generator. Each
call is the modelled API function (Model/XWing.lean). The API takes keys by shared reference (`&self` in
x-wing/src/lib.rs:80-204), so a call can only read them. Ciphertexts travel as bytes
(x-wing/src/lib.rs:225-244). Dropping a key makes its index unusable.
-/
namespace XWing.History
open Rust MlKem

variable [Build]

/-- One API call. Keys are named by the order in which they were obtained. (the calls, x-wing/src/lib.rs:70-258) -/
inductive Op
  /-- `generate_key_pair` (x-wing/src/lib.rs:254-258) -/
  | generate
  /-- `DecapsulationKey::generate` (x-wing/src/lib.rs:164-167) -/
  | generateSk
  /-- `From<[u8; 32]>` (x-wing/src/lib.rs:207-211) -/
  | parseSk (b : Bytes DECAPSULATION_KEY_SIZE)
  /-- `From<&[u8; 1216]>` (x-wing/src/lib.rs:117-126) -/
  | parsePk (b : Bytes ENCAPSULATION_KEY_SIZE)
  /-- `DecapsulationKey::encapsulation_key` (x-wing/src/lib.rs:171-174) -/
  | derive (i : Nat)
  /-- `DecapsulationKey::as_bytes` (x-wing/src/lib.rs:202-204) -/
  | writeSk (i : Nat)
  /-- `EncapsulationKey::as_bytes` (x-wing/src/lib.rs:108-113) -/
  | writePk (j : Nat)
  /-- `EncapsulationKey::encapsulate` (x-wing/src/lib.rs:80-101), then `Ciphertext::as_bytes` -/
  | encaps (j : Nat)
  /-- `From<&[u8; 1120]>` of the ciphertext, then `DecapsulationKey::decapsulate`
  (x-wing/src/lib.rs:140-153) -/
  | decaps (i : Nat) (c : Bytes CIPHERTEXT_SIZE)
  /-- drop of a secret key (x-wing/src/lib.rs:131) -/
  | dropSk (i : Nat)
  /-- drop of a public key -/
  | dropPk (j : Nat)

/-- What the caller sees of a call; `derived i j` says that public key `j` was returned for secret
key `i`. (the calls, x-wing/src/lib.rs:70-258) -/
inductive Obs
  | derived (i j : Nat)
  | skBytes (i : Nat) (b : Bytes DECAPSULATION_KEY_SIZE)
  | pkBytes (j : Nat) (b : Bytes ENCAPSULATION_KEY_SIZE)
  | encaps (j : Nat) (c : Bytes CIPHERTEXT_SIZE) (ss : SharedSecret)
  | decaps (i : Nat) (c : Bytes CIPHERTEXT_SIZE) (ss : SharedSecret)

/-- The caller's keys (`none` once dropped) and the generator's state (the calls, x-wing/src/lib.rs:70-258) -/
structure World (rng : Rng) where
  sks : List (Option DecapsulationKey)
  pks : List (Option EncapsulationKey)
  st : rng.State

variable (H : Sha3) (X : X25519) {rng : Rng}

/-- One call; a call on a key that does not exist or was dropped cannot be written and does nothing.
Models x-wing/src/lib.rs:80-258 called in sequence. -/
def step (w : World rng) : Op → Res (World rng × List Obs)
  | .generate => do
    let ((sk, pk), st) ← generate_key_pair H X rng w.st
    .ok ({ sks := w.sks ++ [some sk], pks := w.pks ++ [some pk], st },
      [.derived w.sks.length w.pks.length])
  | .generateSk => do
    let (sk, st) ← DecapsulationKey.generate rng w.st
    .ok ({ w with sks := w.sks ++ [some sk], st }, [])
  | .parseSk b => .ok ({ w with sks := w.sks ++ [some (DecapsulationKey.from_bytes b)] }, [])
  | .parsePk b => do
    let pk ← EncapsulationKey.from_bytes H b
    .ok ({ w with pks := w.pks ++ [some pk] }, [])
  | .derive i =>
    match w.sks[i]? with
    | some (some sk) => do
      let pk ← sk.encapsulation_key H X
      .ok ({ w with pks := w.pks ++ [some pk] }, [.derived i w.pks.length])
    | _ => .ok (w, [])
  | .writeSk i =>
    match w.sks[i]? with
    | some (some sk) => .ok (w, [.skBytes i sk.as_bytes])
    | _ => .ok (w, [])
  | .writePk j =>
    match w.pks[j]? with
    | some (some pk) => do
      let b ← pk.as_bytes
      .ok (w, [.pkBytes j b])
    | _ => .ok (w, [])
  | .encaps j =>
    match w.pks[j]? with
    | some (some pk) => do
      let ((ct, ss), st) ← pk.encapsulate H X rng w.st
      let c ← ct.as_bytes
      .ok ({ w with st }, [.encaps j c ss])
    | _ => .ok (w, [])
  | .decaps i c =>
    match w.sks[i]? with
    | some (some sk) => do
      let ct ← Ciphertext.from_bytes c
      let ss ← sk.decapsulate H X ct
      .ok (w, [.decaps i c ss])
    | _ => .ok (w, [])
  | .dropSk i => .ok ({ w with sks := w.sks.set i none }, [])
  | .dropPk j => .ok ({ w with pks := w.pks.set j none }, [])

/-- A history: the final state and everything the caller saw. Models x-wing/src/lib.rs:80-258 called in
sequence. -/
def run (w : World rng) : List Op → Res (World rng × List Obs)
  | [] => .ok (w, [])
  | op :: ops => do
    let (w, o) ← step H X w op
    let (w, os) ← run w ops
    .ok (w, o ++ os)

/-- The caller before any call (the calls, x-wing/src/lib.rs:70-258) -/
def start (st : rng.State) : World rng := { sks := [], pks := [], st }

end XWing.History
