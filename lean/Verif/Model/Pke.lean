import Verif.Model.Sample
/-! Model of /repo/ml-kem/src/pke.rs -/
namespace MlKem
open Rust

variable [Build]

/-- ml-kem/src/param.rs:210-212 `encode_u12` -/
def encode_u12 {P : ParameterSet} (p : NttVector P.K) : Res (Bytes P.NttVectorSize) :=
  NttVector.encode 12 p
/-- ml-kem/src/param.rs:214-216 `decode_u12` -/
def decode_u12 {P : ParameterSet} (v : Bytes P.NttVectorSize) : Res (NttVector P.K) :=
  NttVector.decode 12 v

/-- ml-kem/src/pke.rs:16-21 -/
structure DecryptionKey (P : ParameterSet) where
  s_hat : NttVector P.K
deriving DecidableEq

/-- ml-kem/src/pke.rs:94-100 -/
structure EncryptionKey (P : ParameterSet) where
  t_hat : NttVector P.K
  rho : B32
deriving DecidableEq

variable (H : Sha3) {P : ParameterSet}

/-- ml-kem/src/pke.rs:39-60 `DecryptionKey::generate`. `P::K::U8` does not exist (compile error) for
`K > 255`; modelled with `UInt8.ofNat`. -/
def DecryptionKey.generate (P : ParameterSet) (d : B32) :
    Res (DecryptionKey P × EncryptionKey P) := do
  let k : UInt8 := UInt8.ofNat P.K
  let (rho, sigma) := G H [d.toList, [k]]
  let A_hat ← NttMatrix.sample_uniform H P.K rho false
  let s ← PolynomialVector.sample_cbd H P.K P.Eta1 sigma 0
  let e ← PolynomialVector.sample_cbd H P.K P.Eta1 sigma (UInt8.ofNat P.K)
  let s_hat ← s.ntt
  let e_hat ← e.ntt
  let t_hat ← (← A_hat.mulVec s_hat).add e_hat
  .ok ({ s_hat }, { t_hat, rho })

/-- ml-kem/src/pke.rs:64-77 `DecryptionKey::decrypt` -/
def DecryptionKey.decrypt (self : DecryptionKey P) (ciphertext : P.EncodedCiphertext) :
    Res B32 := do
  let (c1, c2) := P.split_ct ciphertext
  let u ← PolynomialVector.decode P.Du c1
  let u ← u.decompress P.Du
  let v ← Polynomial.decode P.Dv c2
  let v ← v.decompress P.Dv
  let u_hat ← u.ntt
  let sTu ← (← self.s_hat.mul u_hat).ntt_inverse
  let w ← v.sub sTu
  Polynomial.encode 1 (← w.compress 1)

/-- ml-kem/src/pke.rs:80-82 -/
def DecryptionKey.as_bytes (self : DecryptionKey P) : Res P.EncodedDecryptionKey :=
  encode_u12 self.s_hat

/-- ml-kem/src/pke.rs:85-88 -/
def DecryptionKey.from_bytes (enc : P.EncodedDecryptionKey) : Res (DecryptionKey P) := do
  let s_hat ← decode_u12 enc
  .ok { s_hat }

/-- ml-kem/src/pke.rs:108-129 `EncryptionKey::encrypt` -/
def EncryptionKey.encrypt (self : EncryptionKey P) (message randomness : B32) :
    Res P.EncodedCiphertext := do
  let r ← PolynomialVector.sample_cbd H P.K P.Eta1 randomness 0
  let e1 ← PolynomialVector.sample_cbd H P.K P.Eta2 randomness (UInt8.ofNat P.K)
  let prf_output := PRF H P.Eta2 randomness (← Rust.mul (2 : UInt8) (UInt8.ofNat P.K))
  let e2 ← Polynomial.sample_cbd P.Eta2 prf_output
  let A_hat_t ← NttMatrix.sample_uniform H P.K self.rho true
  let r_hat ← r.ntt
  let ATr ← (← A_hat_t.mulVec r_hat).ntt_inverse
  let u ← ATr.add e1
  let mu ← Polynomial.decode 1 message
  let mu ← mu.decompress 1
  let tTr ← (← self.t_hat.mul r_hat).ntt_inverse
  let v ← (← tTr.add e2).add mu
  let c1 ← PolynomialVector.encode P.Du (← u.compress P.Du)
  let c2 ← Polynomial.encode P.Dv (← v.compress P.Dv)
  .ok (P.concat_ct c1 c2)

/-- ml-kem/src/pke.rs:132-135 -/
def EncryptionKey.as_bytes (self : EncryptionKey P) : Res P.EncodedEncryptionKey := do
  let t_hat ← encode_u12 self.t_hat
  .ok (P.concat_ek t_hat self.rho)

/-- ml-kem/src/pke.rs:138-145 -/
def EncryptionKey.from_bytes (enc : P.EncodedEncryptionKey) : Res (EncryptionKey P) := do
  let (t_hat, rho) := P.split_ek enc
  let t_hat ← decode_u12 t_hat
  .ok { t_hat, rho }

end MlKem
