import Verif.Model.Kem
import Verif.Model.XWing
import Verif.Model.Dhkem
import Mathlib.Logic.Function.Basic
/-!
Threads that share keys. In all three crates a call takes keys by shared reference and the generator by exclusive
reference (`&self`, `&mut impl CryptoRngCore`: ml-kem/src/kem.rs:54-250, x-wing/src/lib.rs:80-258, dhkem/src/ecdh_kem.rs:24-66,
dhkem/src/x25519_kem.rs:15-51), and there are no mutable statics, no cells and no locks. So a call reads the keys it was
given when it began and its thread's own generator, and others see nothing of it before it ends. A key cannot be
dropped while a call holds a reference to it (Rust's borrow rules).
-/
namespace Threads
open Rust MlKem

/-- An API of calls that read keys and a generator, and return new keys and other results
(ml-kem/src/lib.rs:83-149; x-wing/src/lib.rs:70-258; dhkem/src/lib.rs:36-154) -/
structure Api where
  Key : Type
  Arg : Type
  Out : Type
  exec : List Key → Arg → (rng : Rng) → rng.State → Res ((List Key × Out) × rng.State)

variable (A : Api) (rngs : Nat → Rng)

/-- A key is named by the thread that obtained it and by when it did.
(ml-kem/src/lib.rs:83-149; x-wing/src/lib.rs:70-258; dhkem/src/lib.rs:36-154) -/
abbrev Name := Nat × Nat

/-- A call that has begun and not ended (ml-kem/src/lib.rs:83-149; x-wing/src/lib.rs:70-258; dhkem/src/lib.rs:36-154) -/
structure Running where
  names : List Name
  keys : List A.Key
  arg : A.Arg

/-- A call that has ended: by which thread, on which keys, with which argument, results and new keys
(ml-kem/src/lib.rs:83-149; x-wing/src/lib.rs:70-258; dhkem/src/lib.rs:36-154) -/
structure Entry where
  thread : Nat
  names : List Name
  arg : A.Arg
  out : A.Out
  new : List Name

/-- All threads: the keys each has obtained (`none` once dropped), its generator's state and its call, if any; and all
calls that ended, in that order (ml-kem/src/lib.rs:83-149; x-wing/src/lib.rs:70-258; dhkem/src/lib.rs:36-154) -/
structure World where
  pool : Nat → List (Option A.Key)
  st : (t : Nat) → (rngs t).State
  busy : Nat → Option (Running A)
  log : List (Entry A)

/-- What can happen next. A call may be abandoned at any point, as by a panic in the generator that is caught, or by the
end of the thread; the generator is then in any state.
(ml-kem/src/lib.rs:83-149; x-wing/src/lib.rs:70-258; dhkem/src/lib.rs:36-154) -/
inductive Event
  | begin (t : Nat) (names : List Name) (arg : A.Arg)
  | finish (t : Nat)
  | abandon (t : Nat) (s : (rngs t).State)
  | drop (t : Nat) (k : Name)

variable {A rngs}

namespace World

/-- The key of a name, unless it was dropped or does not exist yet
(ml-kem/src/lib.rs:83-149; x-wing/src/lib.rs:70-258; dhkem/src/lib.rs:36-154) -/
def get (pool : Nat → List (Option A.Key)) (k : Name) : Option A.Key := ((pool k.1)[k.2]?).join

/-- Some call is holding a reference to the key.
(ml-kem/src/lib.rs:83-149; x-wing/src/lib.rs:70-258; dhkem/src/lib.rs:36-154) -/
def Borrowed (w : World A rngs) (k : Name) : Prop := ∃ u r, w.busy u = some r ∧ k ∈ r.names

/-- The call ends with these results. (ml-kem/src/lib.rs:83-149; x-wing/src/lib.rs:70-258; dhkem/src/lib.rs:36-154) -/
def ended (w : World A rngs) (t : Nat) (names : List Name) (arg : A.Arg) (new : List A.Key) (out : A.Out)
    (s : (rngs t).State) : World A rngs where
  pool := Function.update w.pool t (w.pool t ++ new.map some)
  st := Function.update w.st t s
  busy := Function.update w.busy t none
  log := w.log ++ [{ thread := t, names, arg, out,
                     new := (List.range new.length).map fun i => (t, (w.pool t).length + i) }]

open Classical in
/-- One event; an event that cannot happen, as dropping a key a call refers to, changes nothing. A call that panics or
hangs does not finish. (ml-kem/src/lib.rs:83-149; x-wing/src/lib.rs:70-258; dhkem/src/lib.rs:36-154) -/
noncomputable def step (w : World A rngs) : Event A rngs → World A rngs
  | .begin t names arg =>
    match w.busy t, names.mapM (get w.pool) with
    | none, some keys => { w with busy := Function.update w.busy t (some { names, keys, arg }) }
    | _, _ => w
  | .finish t =>
    match w.busy t with
    | none => w
    | some r =>
      match A.exec r.keys r.arg (rngs t) (w.st t) with
      | .ok ((new, out), s) => w.ended t r.names r.arg new out s
      | _ => w
  | .abandon t s =>
    match w.busy t with
    | none => w
    | some _ => { w with st := Function.update w.st t s, busy := Function.update w.busy t none }
  | .drop _ k =>
    if w.Borrowed k then w else { w with pool := Function.update w.pool k.1 ((w.pool k.1).set k.2 none) }

/-- A schedule (ml-kem/src/lib.rs:83-149; x-wing/src/lib.rs:70-258; dhkem/src/lib.rs:36-154) -/
noncomputable def run (w : World A rngs) (es : List (Event A rngs)) : World A rngs := es.foldl step w

/-- No thread is in a call. (ml-kem/src/lib.rs:83-149; x-wing/src/lib.rs:70-258; dhkem/src/lib.rs:36-154) -/
def Quiet (w : World A rngs) : Prop := ∀ t, w.busy t = none

end World

/-- Before anything happened (ml-kem/src/lib.rs:83-149; x-wing/src/lib.rs:70-258; dhkem/src/lib.rs:36-154) -/
def start (st : (t : Nat) → (rngs t).State) : World A rngs where
  pool _ := []
  st
  busy _ := none
  log := []

/-! ### The calls of the three crates -/

section
variable [Build] (H : Sha3)

/-- The calls of ml-kem/src/kem.rs -/
inductive MlKemArg (P : ParameterSet)
  | generate
  | generateDet (d z : B32)
  | parseDk (b : P.EncodedDecapsulationKey)
  | parseEk (b : P.EncodedEncryptionKey)
  | extract
  | write
  | encaps
  | encapsDet (m : B32)
  | decaps (c : P.EncodedCiphertext)

/-- What they return besides keys (ml-kem/src/lib.rs:83-149) -/
inductive MlKemOut (P : ParameterSet)
  | nothing
  | dkBytes (b : P.EncodedDecapsulationKey)
  | ekBytes (b : P.EncodedEncryptionKey)
  | encaps (c : P.EncodedCiphertext) (K : SharedKey)
  | decaps (K : SharedKey)

/-- ml-kem/src/kem.rs:54-250: `from_bytes`, `as_bytes`, `decapsulate`, `encapsulation_key`, `encapsulate`,
`encapsulate_deterministic`, `generate`, `generate_deterministic`. Calls on the wrong kind of key cannot be written. -/
def mlKem (P : ParameterSet) : Api where
  Key := DecapsulationKey P ⊕ EncapsulationKey P
  Arg := MlKemArg P
  Out := MlKemOut P
  exec keys arg rng s :=
    match keys, arg with
    | [], .generate => do
      let ((dk, ek), s) ← Kem.generate H P rng s
      .ok (([.inl dk, .inr ek], .nothing), s)
    | [], .generateDet d z => do
      let (dk, ek) ← Kem.generate_deterministic H P d z
      .ok (([.inl dk, .inr ek], .nothing), s)
    | [], .parseDk b => do
      let dk ← DecapsulationKey.from_bytes b
      .ok (([.inl dk], .nothing), s)
    | [], .parseEk b => do
      let ek ← EncapsulationKey.from_bytes H b
      .ok (([.inr ek], .nothing), s)
    | [.inl dk], .extract => .ok (([.inr dk.encapsulation_key], .nothing), s)
    | [.inl dk], .write => do
      let b ← dk.as_bytes
      .ok (([], .dkBytes b), s)
    | [.inr ek], .write => do
      let b ← ek.as_bytes
      .ok (([], .ekBytes b), s)
    | [.inr ek], .encaps => do
      let ((c, K), s) ← ek.encapsulate H rng s
      .ok (([], .encaps c K), s)
    | [.inr ek], .encapsDet m => do
      let (c, K) ← ek.encapsulate_deterministic H m
      .ok (([], .encaps c K), s)
    | [.inl dk], .decaps c => do
      let K ← dk.decapsulate H c
      .ok (([], .decaps K), s)
    | _, _ => .ok (([], .nothing), s)

/-- The calls of x-wing/src/lib.rs -/
inductive XWingArg
  | generate
  | parseSk (b : Bytes XWing.DECAPSULATION_KEY_SIZE)
  | parsePk (b : Bytes XWing.ENCAPSULATION_KEY_SIZE)
  | derive
  | write
  | encaps
  | decaps (c : Bytes XWing.CIPHERTEXT_SIZE)

/-- What they return besides keys (x-wing/src/lib.rs:70-258) -/
inductive XWingOut
  | nothing
  | skBytes (b : Bytes XWing.DECAPSULATION_KEY_SIZE)
  | pkBytes (b : Bytes XWing.ENCAPSULATION_KEY_SIZE)
  | encaps (c : Bytes XWing.CIPHERTEXT_SIZE) (ss : XWing.SharedSecret)
  | decaps (ss : XWing.SharedSecret)

/-- x-wing/src/lib.rs:80-258: `generate_key_pair`, the two `from`, `encapsulation_key`, `as_bytes`, `encapsulate`,
`decapsulate`; ciphertexts travel as bytes. -/
def xWing (X : XWing.X25519) : Api where
  Key := XWing.DecapsulationKey ⊕ XWing.EncapsulationKey
  Arg := XWingArg
  Out := XWingOut
  exec keys arg rng s :=
    match keys, arg with
    | [], .generate => do
      let ((sk, pk), s) ← XWing.generate_key_pair H X rng s
      .ok (([.inl sk, .inr pk], .nothing), s)
    | [], .parseSk b => .ok (([.inl (XWing.DecapsulationKey.from_bytes b)], .nothing), s)
    | [], .parsePk b => do
      let pk ← XWing.EncapsulationKey.from_bytes H b
      .ok (([.inr pk], .nothing), s)
    | [.inl sk], .derive => do
      let pk ← sk.encapsulation_key H X
      .ok (([.inr pk], .nothing), s)
    | [.inl sk], .write => .ok (([], .skBytes sk.as_bytes), s)
    | [.inr pk], .write => do
      let b ← pk.as_bytes
      .ok (([], .pkBytes b), s)
    | [.inr pk], .encaps => do
      let ((ct, ss), s) ← pk.encapsulate H X rng s
      let c ← ct.as_bytes
      .ok (([], .encaps c ss), s)
    | [.inl sk], .decaps c => do
      let ct ← XWing.Ciphertext.from_bytes c
      let ss ← sk.decapsulate H X ct
      .ok (([], .decaps ss), s)
    | _, _ => .ok (([], .nothing), s)

end

/-- The calls of dhkem (dhkem/src/lib.rs:36-154) -/
inductive DhArg (C : Dhkem.DhGroup)
  | generate
  | fromPublic (pk : C.Public)
  | encaps
  | decaps (pk : C.Public)

/-- What they return besides keys; the public key of a new pair can be read off it (`as_ref`)
(dhkem/src/lib.rs:62-78) -/
inductive DhOut (C : Dhkem.DhGroup)
  | nothing
  | generated (pk : C.Public)
  | encaps (pk : C.Public) (ss : C.Shared)
  | decaps (ss : C.Shared)

/-- dhkem/src/ecdh_kem.rs:24-66: `random_keypair`, `encapsulate`, `decapsulate`, and `From` of dhkem/src/lib.rs:68-72.
dhkem/src/x25519_kem.rs:15-51 has the same text. -/
def dhKem (C : Dhkem.DhGroup) : Api where
  Key := Dhkem.DhDecapsulator C.Secret ⊕ Dhkem.DhEncapsulator C.Public
  Arg := DhArg C
  Out := DhOut C
  exec keys arg rng s :=
    match keys, arg with
    | [], .generate => do
      let ((dk, ek), s) ← Dhkem.EcdhKem.random_keypair C rng s
      .ok (([.inl dk, .inr ek], .generated ek.as_ref), s)
    | [], .fromPublic pk => .ok (([.inr (.from_ pk)], .nothing), s)
    | [.inr ek], .encaps => do
      let ((pk, ss), s) ← Dhkem.EcdhKem.encapsulate C ek rng s
      .ok (([], .encaps pk ss), s)
    | [.inl dk], .decaps pk => do
      let ss ← Dhkem.EcdhKem.decapsulate C dk pk
      .ok (([], .decaps ss), s)
    | _, _ => .ok (([], .nothing), s)

end Threads
