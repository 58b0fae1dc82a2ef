import Verif.Model.Pke
/-! Model of /repo/ml-kem/src/kem.rs and the generic API of lib.rs -/
namespace MlKem
open Rust

variable [Build]

/-- ml-kem/src/kem.rs:19 -/
abbrev SharedKey := B32

/-- ml-kem/src/kem.rs:148-154 -/
structure EncapsulationKey (P : ParameterSet) where
  ek_pke : EncryptionKey P
  h : B32
deriving DecidableEq

/-- ml-kem/src/kem.rs:24-31 -/
structure DecapsulationKey (P : ParameterSet) where
  dk_pke : DecryptionKey P
  ek : EncapsulationKey P
  z : B32
deriving DecidableEq

variable (H : Sha3) {P : ParameterSet}

namespace EncapsulationKey

/-- ml-kem/src/kem.rs:160-163 `EncapsulationKey::new` -/
def new (ek_pke : EncryptionKey P) : Res (EncapsulationKey P) := do
  let h := Hash H (← ek_pke.as_bytes).toList
  .ok { ek_pke, h }

/-- ml-kem/src/kem.rs:165-169 `encapsulate_deterministic_inner` -/
def encapsulate_deterministic_inner (self : EncapsulationKey P) (m : B32) :
    Res (P.EncodedCiphertext × SharedKey) := do
  let (K, r) := G H [m.toList, self.h.toList]
  let c ← self.ek_pke.encrypt H m r
  .ok (c, K)

/-- ml-kem/src/kem.rs:178-180 `from_bytes` -/
def from_bytes (enc : P.EncodedEncryptionKey) : Res (EncapsulationKey P) := do
  new H (← EncryptionKey.from_bytes enc)

/-- ml-kem/src/kem.rs:182-184 `as_bytes` -/
def as_bytes (self : EncapsulationKey P) : Res P.EncodedEncryptionKey :=
  self.ek_pke.as_bytes

/-- ml-kem/src/kem.rs:193-199 `encapsulate`; the error type is `Infallible` -/
def encapsulate (self : EncapsulationKey P) (rng : Rng) (s : rng.State) :
    Res ((P.EncodedCiphertext × SharedKey) × rng.State) := do
  let (m, s) ← rand rng 32 s
  .ok (← self.encapsulate_deterministic_inner H m, s)

/-- ml-kem/src/kem.rs:209-214 `encapsulate_deterministic` -/
def encapsulate_deterministic (self : EncapsulationKey P) (m : B32) :
    Res (P.EncodedCiphertext × SharedKey) :=
  self.encapsulate_deterministic_inner H m

end EncapsulationKey

/-- ml-kem/src/kem.rs:79-83 `constant_time_eq` -/
def constant_time_eq (x y : UInt8) : Res UInt8 := do
  let diff := Rust.xor x y
  let is_zero := Rust.and (Rust.not diff) (Rust.wrappingSub diff 1)
  .ok (Rust.wrappingSub 0 (← Rust.shr is_zero 7))

/-- ml-kem/src/kem.rs:107-111: the mask `equal` -/
def ctEqualMask {n : Nat} (cp c : Bytes n) : Res UInt8 := do
  let eqs ← zipVec constant_time_eq cp c
  .ok (eqs.toList.foldl (fun x y => Rust.and x y) 0xff)

/-- ml-kem/src/kem.rs:112-116: the masked selection -/
def ctSelect (equal : UInt8) (Kp Kbar : B32) : B32 :=
  Vector.ofFn fun i => Rust.or (Rust.and equal Kp[i]) (Rust.and (Rust.not equal) Kbar[i])

namespace DecapsulationKey

/-- ml-kem/src/kem.rs:54-69 `from_bytes` -/
def from_bytes (enc : P.EncodedDecapsulationKey) : Res (DecapsulationKey P) := do
  let (dk_pke, ek_pke, h, z) := P.split_dk enc
  let ek_pke ← EncryptionKey.from_bytes ek_pke
  .ok { dk_pke := ← DecryptionKey.from_bytes dk_pke, ek := { ek_pke, h }, z }

/-- ml-kem/src/kem.rs:71-75 `as_bytes` -/
def as_bytes (self : DecapsulationKey P) : Res P.EncodedDecapsulationKey := do
  let dk_pke ← self.dk_pke.as_bytes
  let ek ← self.ek.as_bytes
  .ok (P.concat_dk dk_pke ek self.ek.h self.z)

/-- ml-kem/src/kem.rs:91-117 `decapsulate`; the error type is `Infallible` -/
def decapsulate (self : DecapsulationKey P) (encapsulated_key : P.EncodedCiphertext) :
    Res SharedKey := do
  let mp ← self.dk_pke.decrypt encapsulated_key
  let (Kp, rp) := G H [mp.toList, self.ek.h.toList]
  let Kbar := J H [self.z.toList, encapsulated_key.toList]
  let cp ← self.ek.ek_pke.encrypt H mp rp
  let equal ← ctEqualMask cp encapsulated_key
  .ok (ctSelect equal Kp Kbar)

/-- ml-kem/src/kem.rs:125-127 `encapsulation_key` -/
def encapsulation_key (self : DecapsulationKey P) : EncapsulationKey P := self.ek

/-- ml-kem/src/kem.rs:137-142 `generate_deterministic` -/
def generate_deterministic (P : ParameterSet) (d z : B32) : Res (DecapsulationKey P) := do
  let (dk_pke, ek_pke) ← DecryptionKey.generate H P d
  let ek ← EncapsulationKey.new H ek_pke
  .ok { dk_pke, ek, z }

/-- ml-kem/src/kem.rs:129-133 `generate` -/
def generate (P : ParameterSet) (rng : Rng) (s : rng.State) :
    Res (DecapsulationKey P × rng.State) := do
  let (d, s) ← rand rng 32 s
  let (z, s) ← rand rng 32 s
  .ok (← generate_deterministic H P d z, s)

end DecapsulationKey

namespace Kem

/-- ml-kem/src/kem.rs:236-240 `KemCore::generate` -/
def generate (P : ParameterSet) (rng : Rng) (s : rng.State) :
    Res ((DecapsulationKey P × EncapsulationKey P) × rng.State) := do
  let (dk, s) ← DecapsulationKey.generate H P rng s
  let ek := dk.encapsulation_key
  .ok ((dk, ek), s)

/-- ml-kem/src/kem.rs:243-250 `KemCore::generate_deterministic` -/
def generate_deterministic (P : ParameterSet) (d z : B32) :
    Res (DecapsulationKey P × EncapsulationKey P) := do
  let dk ← DecapsulationKey.generate_deterministic H P d z
  let ek := dk.encapsulation_key
  .ok (dk, ek)

end Kem

/-! ### zeroize feature -/

/-- ml-kem/src/algebra.rs:22-24: volatile write of 0 (external `zeroize` crate) -/
def FieldElement.zeroize (_self : FieldElement) : FieldElement := ⟨0⟩
/-- ml-kem/src/algebra.rs:189-193 -/
def NttPolynomial.zeroize (self : NttPolynomial) : NttPolynomial :=
  ⟨self.coeffs.map FieldElement.zeroize⟩
/-- ml-kem/src/algebra.rs:437-441 -/
def NttVector.zeroize {K : Nat} (self : NttVector K) : NttVector K :=
  ⟨self.polys.map NttPolynomial.zeroize⟩
/-- ml-kem/src/pke.rs:28-30 -/
def DecryptionKey.zeroize (self : DecryptionKey P) : DecryptionKey P :=
  { self with s_hat := self.s_hat.zeroize }
/-- `Zeroize for Array<u8, N>` (external crates): every byte becomes 0 (ml-kem/src/kem.rs:40) -/
def bytesZeroize {n : Nat} (b : Bytes n) : Bytes n := b.map fun _ => 0
/-- ml-kem/src/kem.rs:38-41 `Drop::drop`: the contents of the key's memory after drop. The
encapsulation key field is public and not erased. -/
def DecapsulationKey.drop (self : DecapsulationKey P) : DecapsulationKey P :=
  { self with dk_pke := self.dk_pke.zeroize, z := bytesZeroize self.z }

end MlKem
