import Verif.Spec.Fips203
/-!
X-Wing (draft-connolly-cfrg-xwing-kem, the version /repo/x-wing implements) as mathematics. Nothing
here mentions the model of the code. `x25519` is the Diffie-Hellman function of RFC 7748, a parameter.
-/
namespace XWingSpec
open MlKem (Sha3)
open Rust (Bytes)
open Fips203

/-- 32 bytes of a byte string, from an offset on -/
def slice32 (l : List UInt8) (off : Nat) : Bytes 32 := Vector.ofFn fun i => l.getD (off + i.val) 0

/-- The base point of X25519: the number 9 in little-endian -/
def basePoint : Bytes 32 := Vector.ofFn fun i => if i.val = 0 then 9 else 0

variable (S : Sha3) (x25519 : Bytes 32 → Bytes 32 → Bytes 32)

/-- `SHAKE128(sk, 96)` -/
def expand (sk : List UInt8) : List UInt8 := prefixBytes 96 (S.shake128 sk)

/-- The ML-KEM seeds `d`, `z` and the X25519 secret key of an X-Wing secret key -/
def seedD (sk : List UInt8) : Bytes 32 := slice32 (expand S sk) 0
def seedZ (sk : List UInt8) : Bytes 32 := slice32 (expand S sk) 32
def secretX (sk : List UInt8) : Bytes 32 := slice32 (expand S sk) 64

/-- `pk_M` of an X-Wing secret key -/
noncomputable def pkM (sk : List UInt8) : List UInt8 :=
  (KeyGen_internal S ML_KEM_768 (seedD S sk).toList (seedZ S sk).toList).1
/-- `sk_M` of an X-Wing secret key -/
noncomputable def skM (sk : List UInt8) : List UInt8 :=
  (KeyGen_internal S ML_KEM_768 (seedD S sk).toList (seedZ S sk).toList).2
/-- `pk_X` of an X-Wing secret key -/
def pkX (sk : List UInt8) : Bytes 32 := x25519 (secretX S sk) basePoint

/-- `GenerateKeyPairDerand(sk)`: the public key `pk_M ‖ pk_X` -/
noncomputable def publicKey (sk : List UInt8) : List UInt8 := pkM S sk ++ (pkX S x25519 sk).toList

/-- `label ‖ ss_M ‖ ss_X ‖ ct_X ‖ pk_X` with the label `\.//^\` -/
def combinerInput (ssM ssX ctX pkX : List UInt8) : List UInt8 :=
  [0x5c, 0x2e, 0x2f, 0x2f, 0x5e, 0x5c] ++ ssM ++ ssX ++ ctX ++ pkX

/-- `Combiner`: SHA3-256 of that string -/
def Combiner (ssM ssX ctX pkX : List UInt8) : Bytes 32 := S.sha3_256 (combinerInput ssM ssX ctX pkX)

/-- `EncapsulateDerand(pk, eseed)`, returning `(ss, ct)` -/
noncomputable def EncapsulateDerand (pk eseed : List UInt8) : Bytes 32 × List UInt8 :=
  let pk_M := pk.take 1184
  let pk_X := slice32 pk 1184
  let ek_X := slice32 eseed 32
  let ct_X := x25519 ek_X basePoint
  let ss_X := x25519 ek_X pk_X
  let M := Encaps_internal S ML_KEM_768 pk_M (eseed.take 32)
  (Combiner S M.1 ss_X.toList ct_X.toList pk_X.toList, M.2 ++ ct_X.toList)

/-- `Decapsulate(ct, sk)` -/
noncomputable def Decapsulate (ct sk : List UInt8) : Bytes 32 :=
  let ct_M := ct.take 1088
  let ct_X := slice32 ct 1088
  let ss_M := Decaps_internal S ML_KEM_768 (skM S sk) ct_M
  let ss_X := x25519 (secretX S sk) ct_X
  Combiner S ss_M ss_X.toList ct_X.toList (pkX S x25519 sk).toList

/-- The rejection sampling of ML-KEM key generation succeeds for this secret key. -/
def SkOk (sk : List UInt8) : Prop := SeedOk S 3 (seeds S ML_KEM_768 (seedD S sk).toList).1

end XWingSpec
