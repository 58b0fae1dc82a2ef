import Verif.Model.XWing
/-! Programs that exchange secrets: keys are generated and stored as bytes, and again and again somebody
reads a public key, encapsulates to it and sends the ciphertext, and the owner reads the secret key and decapsulates. Each step is
calls of the modelled API (Model/Kem.lean, Model/XWing.lean). -/
namespace Sessions
open Rust MlKem

/-- A step of the program. Keys are named by the order in which they were generated.
(ml-kem/src/lib.rs:113-149; x-wing/src/lib.rs:77-102, 137-154, 254-258; dhkem/src/lib.rs:136-154) -/
inductive Event
  | newKey
  | exchange (i : Nat)

/-- The two steps, for one KEM and one random generator. `Stored` is what is kept of a key pair. An exchange gives
the sender's secret and the recipient's.
(ml-kem/src/lib.rs:113-149; x-wing/src/lib.rs:77-102, 137-154, 254-258; dhkem/src/lib.rs:136-154) -/
structure Steps (rng : Rng) (Stored : Type) where
  newKey : rng.State → Res (Stored × rng.State)
  exchange : Stored → rng.State → Res ((B32 × B32) × rng.State)

/-- The program: all secrets, in order. An exchange with a key that does not exist does nothing. Models
ml-kem/src/kem.rs:54-250 and x-wing/src/lib.rs:86-258 called in sequence. -/
def run {rng : Rng} {Stored : Type} (K : Steps rng Stored) :
    List Event → List Stored → rng.State → Res (List (B32 × B32))
  | [], _, _ => .ok []
  | .newKey :: es, keys, s => do
    let (k, s) ← K.newKey s
    run K es (keys ++ [k]) s
  | .exchange i :: es, keys, s =>
    match keys[i]? with
    | some k => do
      let (x, s) ← K.exchange k s
      let xs ← run K es keys s
      .ok (x :: xs)
    | none => run K es keys s

variable [Build] (S : Sha3) (X : XWing.X25519)

/-- With ML-KEM: ml-kem/src/kem.rs:236-240 `generate`, 71-75 and 182-184 `as_bytes`, 54-69 and 178-180 `from_bytes`,
193-199 `encapsulate`, 91-117 `decapsulate`. -/
def mlKem (P : ParameterSet) (rng : Rng) : Steps rng (P.EncodedDecapsulationKey × P.EncodedEncryptionKey) where
  newKey s := do
    let ((dk, ek), s) ← Kem.generate S P rng s
    let db ← dk.as_bytes
    let eb ← ek.as_bytes
    .ok ((db, eb), s)
  exchange k s := do
    let ek ← MlKem.EncapsulationKey.from_bytes S k.2
    let ((c, ss), s) ← ek.encapsulate S rng s
    let dk ← MlKem.DecapsulationKey.from_bytes k.1
    let ss' ← dk.decapsulate S c
    .ok ((ss, ss'), s)

/-- With X-Wing: x-wing/src/lib.rs:254-258 `generate_key_pair`, 106-126 and 202-210 the encodings of keys, 86-101
`encapsulate`, 225-244 the encoding of ciphertexts, 140-153 `decapsulate`. -/
def xWing (rng : Rng) : Steps rng (Bytes XWing.DECAPSULATION_KEY_SIZE × Bytes XWing.ENCAPSULATION_KEY_SIZE) where
  newKey s := do
    let ((sk, pk), s) ← XWing.generate_key_pair S X rng s
    let pb ← pk.as_bytes
    .ok ((sk.as_bytes, pb), s)
  exchange k s := do
    let pk ← XWing.EncapsulationKey.from_bytes S k.2
    let ((ct, ss), s) ← pk.encapsulate S X rng s
    let cb ← ct.as_bytes
    let ct ← XWing.Ciphertext.from_bytes cb
    let ss' ← (XWing.DecapsulationKey.from_bytes k.1).decapsulate S X ct
    .ok ((ss, ss'), s)

end Sessions
