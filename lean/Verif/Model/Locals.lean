import Verif.Model.XWing
import Verif.Rust.Locals
/-!
Model of the local variables of /repo/ml-kem/src/kem.rs, /repo/ml-kem/src/pke.rs and /repo/x-wing/src/lib.rs, with the
blocks under `#[cfg(feature = "zeroize")]`. `zeroize` is whether the feature is on; x-wing/Cargo.toml:19 turns it on for
ml-kem and x25519-dalek at the same time. Variables of the functions in algebra.rs, encode.rs, compress.rs, crypto.rs
and of external crates, and the states of hash functions, are not followed. Values of type `Array` that are passed on are
taken as moved, whether or not hybrid-array makes them `Copy`.
-/
open Rust Rust.Locals

namespace MlKem
variable [Build]

/-- ml-kem/src/algebra.rs:18: `u16`, taken as little-endian -/
def FieldElement.bits (x : FieldElement) : List UInt8 := [UInt8.ofNat (x.val.toNat % 256), UInt8.ofNat (x.val.toNat / 256)]
/-- ml-kem/src/algebra.rs:99 -/
def Polynomial.bits (f : Polynomial) : List UInt8 := f.coeffs.toList.flatMap FieldElement.bits
/-- ml-kem/src/algebra.rs:185 -/
def NttPolynomial.bits (f : NttPolynomial) : List UInt8 := f.coeffs.toList.flatMap FieldElement.bits
/-- ml-kem/src/algebra.rs:154 -/
def PolynomialVector.bits {K : Nat} (v : PolynomialVector K) : List UInt8 := v.polys.toList.flatMap Polynomial.bits
/-- ml-kem/src/algebra.rs:420 -/
def NttVector.bits {K : Nat} (v : NttVector K) : List UInt8 := v.polys.toList.flatMap NttPolynomial.bits

/-- A byte: no destructor (ml-kem/src/kem.rs:79) -/
instance : Stored UInt8 := ⟨fun b => [b], fun _ b => [b]⟩
/-- Arrays of bytes: no destructor (ml-kem/src/util.rs:12-13) -/
instance (n : Nat) : Stored (Bytes n) := ⟨Vector.toList, fun _ => Vector.toList⟩
/-- No destructor (ml-kem/src/algebra.rs:97-99) -/
instance : Stored Polynomial := ⟨Polynomial.bits, fun _ => Polynomial.bits⟩
/-- No destructor (ml-kem/src/algebra.rs:152-154) -/
instance (K : Nat) : Stored (PolynomialVector K) := ⟨PolynomialVector.bits, fun _ => PolynomialVector.bits⟩
/-- No destructor (ml-kem/src/algebra.rs:432-442 implements `Zeroize` and not `ZeroizeOnDrop`) -/
instance (K : Nat) : Stored (NttVector K) := ⟨NttVector.bits, fun _ => NttVector.bits⟩
/-- No destructor (ml-kem/src/algebra.rs:484-485) -/
instance (K : Nat) : Stored (NttMatrix K) :=
  ⟨fun A => A.rows.toList.flatMap NttVector.bits, fun _ A => A.rows.toList.flatMap NttVector.bits⟩

/-- ml-kem/src/kem.rs:148-154: no destructor -/
def EncapsulationKey.bits {P : ParameterSet} (ek : EncapsulationKey P) : List UInt8 :=
  ek.ek_pke.t_hat.bits ++ ek.ek_pke.rho.toList ++ ek.h.toList
/-- ml-kem/src/kem.rs:24-31 -/
def DecapsulationKey.bits {P : ParameterSet} (dk : DecapsulationKey P) : List UInt8 :=
  dk.dk_pke.s_hat.bits ++ dk.ek.bits ++ dk.z.toList

/-- ml-kem/src/kem.rs:148-154: no destructor -/
instance (P : ParameterSet) : Stored (EncapsulationKey P) := ⟨EncapsulationKey.bits, fun _ => EncapsulationKey.bits⟩
/-- ml-kem/src/kem.rs:33-42: the destructor, with the feature -/
instance (P : ParameterSet) : Stored (DecapsulationKey P) :=
  ⟨DecapsulationKey.bits, fun zeroize dk => if zeroize then dk.drop.bits else dk.bits⟩

namespace Locals
variable (H : Sha3) (zeroize : Bool) {P : ParameterSet}

/-- ml-kem/src/pke.rs:39-60 `DecryptionKey::generate` -/
def pke_generate (P : ParameterSet) (d : B32) : Run (DecryptionKey P × EncryptionKey P) := call "DecryptionKey::generate" do
  let k : UInt8 := UInt8.ofNat P.K
  let rho ← var zeroize "rho" (G H [d.toList, [k]]).1
  let sigma ← var zeroize "sigma" (G H [d.toList, [k]]).2
  let A_hat ← var zeroize "A_hat" (← lift (NttMatrix.sample_uniform H P.K rho false))
  let s ← var zeroize "s" (← lift (PolynomialVector.sample_cbd H P.K P.Eta1 sigma 0))
  let e ← var zeroize "e" (← lift (PolynomialVector.sample_cbd H P.K P.Eta1 sigma (UInt8.ofNat P.K)))
  let s_hat ← var zeroize "s_hat" (← lift s.ntt)
  let e_hat ← var zeroize "e_hat" (← lift e.ntt)
  let t_hat ← var zeroize "t_hat" (← lift (do (← A_hat.mulVec s_hat).add e_hat))
  moved "s_hat"
  moved "t_hat"
  moved "rho"
  pure ({ s_hat }, { t_hat, rho })

/-- ml-kem/src/pke.rs:64-77 `DecryptionKey::decrypt` -/
def pke_decrypt (self : DecryptionKey P) (ciphertext : P.EncodedCiphertext) : Run B32 := call "DecryptionKey::decrypt" do
  let (c1, c2) := P.split_ct ciphertext
  let u ← var zeroize "u" (← lift (PolynomialVector.decode P.Du c1))
  let u ← assign zeroize "u" (← lift (u.decompress P.Du))
  let v ← var zeroize "v" (← lift (Polynomial.decode P.Dv c2))
  let v ← assign zeroize "v" (← lift (v.decompress P.Dv))
  let u_hat ← var zeroize "u_hat" (← lift u.ntt)
  let sTu ← var zeroize "sTu" (← lift (do (← self.s_hat.mul u_hat).ntt_inverse))
  let w ← var zeroize "w" (← lift (v.sub sTu))
  let w ← assign zeroize "w" (← lift (w.compress 1))
  lift (Polynomial.encode 1 w)

/-- ml-kem/src/pke.rs:108-129 `EncryptionKey::encrypt`. `ATr + e1` takes both by value. -/
def pke_encrypt (self : EncryptionKey P) (message randomness : B32) : Run P.EncodedCiphertext :=
  call "EncryptionKey::encrypt" do
  let r ← var zeroize "r" (← lift (PolynomialVector.sample_cbd H P.K P.Eta1 randomness 0))
  let e1 ← var zeroize "e1" (← lift (PolynomialVector.sample_cbd H P.K P.Eta2 randomness (UInt8.ofNat P.K)))
  let prf_output ← var zeroize "prf_output" (PRF H P.Eta2 randomness (← lift (Rust.mul (2 : UInt8) (UInt8.ofNat P.K))))
  let e2 ← var zeroize "e2" (← lift (Polynomial.sample_cbd P.Eta2 prf_output))
  let A_hat_t ← var zeroize "A_hat_t" (← lift (NttMatrix.sample_uniform H P.K self.rho true))
  let r_hat ← var zeroize "r_hat" (← lift r.ntt)
  let ATr ← var zeroize "ATr" (← lift (do (← A_hat_t.mulVec r_hat).ntt_inverse))
  moved "ATr"
  moved "e1"
  let u ← var zeroize "u" (← lift (ATr.add e1))
  let mu ← var zeroize "mu" (← lift (Polynomial.decode 1 message))
  let mu ← assign zeroize "mu" (← lift (mu.decompress 1))
  let tTr ← var zeroize "tTr" (← lift (do (← self.t_hat.mul r_hat).ntt_inverse))
  let v ← var zeroize "v" (← lift (do (← tTr.add e2).add mu))
  let u ← assign zeroize "u" (← lift (u.compress P.Du))
  let c1 ← var zeroize "c1" (← lift (PolynomialVector.encode P.Du u))
  let v ← assign zeroize "v" (← lift (v.compress P.Dv))
  let c2 ← var zeroize "c2" (← lift (Polynomial.encode P.Dv v))
  moved "c1"
  moved "c2"
  pure (P.concat_ct c1 c2)

/-- ml-kem/src/kem.rs:165-169 `encapsulate_deterministic_inner` -/
def encapsulate_deterministic_inner (self : EncapsulationKey P) (m : B32) : Run (P.EncodedCiphertext × SharedKey) :=
  call "EncapsulationKey::encapsulate_deterministic_inner" do
  let K ← var zeroize "K" (G H [m.toList, self.h.toList]).1
  let r ← var zeroize "r" (G H [m.toList, self.h.toList]).2
  let c ← pke_encrypt H zeroize self.ek_pke m r
  let c ← var zeroize "c" c
  moved "c"
  moved "K"
  pure (c, K)

/-- ml-kem/src/kem.rs:193-199 `encapsulate` -/
def encapsulate (self : EncapsulationKey P) (rng : Rng) (s : rng.State) :
    Run ((P.EncodedCiphertext × SharedKey) × rng.State) := call "EncapsulationKey::encapsulate" do
  let (m, s) ← lift (rand rng 32 s)
  let m ← var zeroize "m" m
  let r ← encapsulate_deterministic_inner H zeroize self m
  pure (r, s)

/-- ml-kem/src/kem.rs:91-117 `decapsulate` -/
def decapsulate (self : DecapsulationKey P) (encapsulated_key : P.EncodedCiphertext) : Run SharedKey :=
  call "DecapsulationKey::decapsulate" do
  let mp ← pke_decrypt zeroize self.dk_pke encapsulated_key
  let mp ← var zeroize "mp" mp
  let Kp ← var zeroize "Kp" (G H [mp.toList, self.ek.h.toList]).1
  let rp ← var zeroize "rp" (G H [mp.toList, self.ek.h.toList]).2
  let Kbar ← var zeroize "Kbar" (J H [self.z.toList, encapsulated_key.toList])
  let cp ← pke_encrypt H zeroize self.ek.ek_pke mp rp
  let cp ← var zeroize "cp" cp
  let equal ← var zeroize "equal" (← lift (ctEqualMask cp encapsulated_key))
  pure (ctSelect equal Kp Kbar)

/-- ml-kem/src/kem.rs:137-142 `generate_deterministic`. All variables are moved into the key. -/
def generate_deterministic (P : ParameterSet) (d z : B32) : Run (DecapsulationKey P) :=
  call "DecapsulationKey::generate_deterministic" do
  let (dk_pke, ek_pke) ← pke_generate H zeroize P d
  let ek ← lift (EncapsulationKey.new H ek_pke)
  pure { dk_pke, ek, z }

/-- ml-kem/src/kem.rs:129-133 `generate` -/
def generate (P : ParameterSet) (rng : Rng) (s : rng.State) : Run (DecapsulationKey P × rng.State) :=
  call "DecapsulationKey::generate" do
  let (d, s) ← lift (rand rng 32 s)
  let d ← var zeroize "d" d
  let (z, s) ← lift (rand rng 32 s)
  let z ← var zeroize "z" z
  let dk ← generate_deterministic H zeroize P d z
  pure (dk, s)

/-- ml-kem/src/kem.rs:236-240 `KemCore::generate`. Both variables are moved into the result. -/
def kem_generate (P : ParameterSet) (rng : Rng) (s : rng.State) :
    Run ((DecapsulationKey P × EncapsulationKey P) × rng.State) := do
  let (dk, s) ← generate H zeroize P rng s
  let ek := dk.encapsulation_key
  pure ((dk, ek), s)

/-- ml-kem/src/kem.rs:243-250 `KemCore::generate_deterministic`. Both variables are moved into the result. -/
def kem_generate_deterministic (P : ParameterSet) (d z : B32) : Run (DecapsulationKey P × EncapsulationKey P) := do
  let dk ← generate_deterministic H zeroize P d z
  let ek := dk.encapsulation_key
  pure (dk, ek)

end Locals
end MlKem

namespace XWing
open MlKem
variable [Build]

/-- x25519-dalek's `StaticSecret`: with the feature, its destructor writes zeros (external crate).
(x-wing/src/lib.rs:194) -/
structure StaticSecret where
  val : Bytes 32

/-- x-wing/src/lib.rs:194, the destructor of the external crate -/
instance : Stored StaticSecret := ⟨fun k => k.val.toList, fun zeroize k => if zeroize then (bytesZeroize k.val).toList else k.val.toList⟩

/-- x-wing/src/lib.rs:130-135: the destructor, with the feature -/
instance : Stored DecapsulationKey := ⟨fun k => k.sk.toList, fun zeroize k => if zeroize then k.drop.sk.toList else k.sk.toList⟩

namespace Locals
variable (H : Sha3) (X : X25519) (zeroize : Bool)

/-- x-wing/src/lib.rs:176-198 `expand_key`. `sk_x` is an array, and so copied into the `StaticSecret`, which is called
`sk_x` as well. -/
def expand_key (self : DecapsulationKey) :
    Run (MlKem.DecapsulationKey MlKem768Params × StaticSecret × MlKem.EncapsulationKey MlKem768Params × Bytes 32) :=
  call "expand_key" do
  let shaker := hashUpdate [] self.sk.toList
  let expanded : XofReader := { stream := H.shake128 shaker, pos := 0 }
  let (d, expanded) := read_from 32 expanded
  let d : B32 ← var zeroize "d" d
  let (z, expanded) := read_from 32 expanded
  let z : B32 ← var zeroize "z" z
  let (sk_m, pk_m) ← MlKem.Locals.kem_generate_deterministic H zeroize MlKem768Params d z
  let sk_m ← var zeroize "sk_m" sk_m
  let pk_m ← var zeroize "pk_m" pk_m
  let (sk_x, _expanded) := read_from 32 expanded
  let sk_x : Bytes 32 ← var zeroize "sk_x" sk_x
  let sk_x ← var zeroize "sk_x" (StaticSecret.mk sk_x)
  let pk_x ← var zeroize "pk_x" (X.publicKey sk_x.val)
  moved "sk_m"
  moved "sk_x"
  moved "pk_m"
  pure (sk_m, sk_x, pk_m, pk_x)

/-- x-wing/src/lib.rs:140-153 `decapsulate`. An array is `Copy`, so `let mut ss_x = ss_x` makes a second one. -/
def decapsulate (self : DecapsulationKey) (ct : Ciphertext) : Run SharedSecret := call "decapsulate" do
  let (sk_m, sk_x, _pk_m, pk_x) ← expand_key H X zeroize self
  let sk_m ← var zeroize "sk_m" sk_m
  let sk_x ← var zeroize "sk_x" sk_x
  let _pk_m ← var zeroize "_pk_m" _pk_m
  let pk_x ← var zeroize "pk_x" pk_x
  let ss_m ← MlKem.Locals.decapsulate H zeroize sk_m ct.ct_m
  let ss_m : B32 ← var zeroize "ss_m" ss_m
  let ss_x : Bytes 32 ← var zeroize "ss_x" (X.x25519 sk_x.val ct.ct_x)
  let ss ← var zeroize "ss" (combiner H ss_m ss_x ct.ct_x pk_x)
  if zeroize then
    let _ss_x ← var zeroize "ss_x" ss_x
    erase "ss_x"
  pure ss

/-- x-wing/src/lib.rs:80-101 `encapsulate` -/
def encapsulate (self : EncapsulationKey) (rng : Rng) (s : rng.State) :
    Run ((Ciphertext × SharedSecret) × rng.State) := call "encapsulate" do
  let ((ct_m, ss_m), s) ← MlKem.Locals.encapsulate H zeroize self.pk_m rng s
  let ct_m : Bytes 1088 ← var zeroize "ct_m" ct_m
  let ss_m : B32 ← var zeroize "ss_m" ss_m
  let (ek_x, s) ← lift (generate rng 32 s)
  let ek_x ← var zeroize "ek_x" ek_x
  let ct_x ← var zeroize "ct_x" (X.x25519 ek_x X25519_BASEPOINT_BYTES)
  let ss_x ← var zeroize "ss_x" (X.x25519 ek_x self.pk_x)
  let ss ← var zeroize "ss" (combiner H ss_m ss_x ct_x self.pk_x)
  if zeroize then
    let _ss_x ← var zeroize "ss_x" ss_x
    erase "ss_x"
  moved "ct_m"
  pure (({ ct_m, ct_x }, ss), s)

/-- x-wing/src/lib.rs:171-174 `encapsulation_key` -/
def encapsulation_key (self : DecapsulationKey) : Run EncapsulationKey := call "encapsulation_key" do
  let (_sk_m, _sk_x, pk_m, pk_x) ← expand_key H X zeroize self
  let _sk_m ← var zeroize "_sk_m" _sk_m
  let _sk_x ← var zeroize "_sk_x" _sk_x
  let pk_m ← var zeroize "pk_m" pk_m
  let pk_x ← var zeroize "pk_x" pk_x
  moved "pk_m"
  pure { pk_m, pk_x }

/-- x-wing/src/lib.rs:164-167 `DecapsulationKey::generate`: the array is copied into the key. -/
def generate (rng : Rng) (s : rng.State) : Run (DecapsulationKey × rng.State) := call "DecapsulationKey::generate" do
  let (sk, s) ← lift (XWing.generate rng 32 s)
  let sk ← var zeroize "sk" sk
  pure ({ sk }, s)

/-- x-wing/src/lib.rs:254-258 `generate_key_pair` -/
def generate_key_pair (rng : Rng) (s : rng.State) :
    Run ((DecapsulationKey × EncapsulationKey) × rng.State) := call "generate_key_pair" do
  let (sk, s) ← generate zeroize rng s
  let sk ← var zeroize "sk" sk
  let pk ← encapsulation_key H X zeroize sk
  moved "sk"
  pure ((sk, pk), s)

end Locals
end XWing
