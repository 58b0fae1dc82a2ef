import Verif.Spec.Rfc9180
import Verif.Model.DhkemCurves
/-! Model of the key derivation in /repo/dhkem/tests/hpke_p256_test.rs, which shows how the crate's raw secrets are
meant to be used. -/
namespace Dhkem.HpkeTest
open Rust MlKem

/-- The external crate `hkdf`, over a hash function: `Hkdf::extract(Some(salt), ikm).0`
(dhkem/tests/hpke_p256_test.rs:49) -/
def hkdfExtract (H : Hkdf.Hash) (salt ikm : List UInt8) : List UInt8 := (Hkdf.extract H salt ikm).toList

/-- The external crate `hkdf`: `Hkdf::from_prk(prk).unwrap().expand(info, &mut out).expect("ok")` with `out` of `l`
bytes. `from_prk` fails on keys shorter than the hash, `expand` on more than 255 blocks.
(dhkem/tests/hpke_p256_test.rs:63-66) -/
def hkdfExpand (H : Hkdf.Hash) (prk info : List UInt8) (l : Nat) : Res (List UInt8) :=
  if prk.length < H.size then .panic
  else if 255 * H.size < l then .panic
  else .ok (Hkdf.expand H prk info l)

/-- dhkem/tests/hpke_p256_test.rs:46-49 `labeled_extract` -/
def labeled_extract (H : Hkdf.Hash) (salt label ikm : List UInt8) : List UInt8 :=
  let labeled_ikm := [[0x48, 0x50, 0x4b, 0x45, 0x2d, 0x76, 0x31], [0x4b, 0x45, 0x4d, 0x00, 0x10], label, ikm].flatten
  hkdfExtract H salt labeled_ikm

/-- dhkem/tests/hpke_p256_test.rs:51-68 `labeled_expand`; `l.to_be_bytes()` of a `u16` -/
def labeled_expand (H : Hkdf.Hash) (prk label info : List UInt8) (l : UInt16) : Res (List UInt8) :=
  let labeled_info := [[UInt8.ofNat (l.toNat / 256), UInt8.ofNat (l.toNat % 256)],
    [0x48, 0x50, 0x4b, 0x45, 0x2d, 0x76, 0x31], [0x4b, 0x45, 0x4d, 0x00, 0x10], label, info].flatten
  hkdfExpand H prk labeled_info l.toNat

/-- dhkem/tests/hpke_p256_test.rs:70-73 `extract_and_expand`; the labels are `eae_prk` and `shared_secret` -/
def extract_and_expand (H : Hkdf.Hash) (dh : Bytes 32) (kem_context : List UInt8) : Res (List UInt8) :=
  let eae_prk := labeled_extract H [] [0x65, 0x61, 0x65, 0x5f, 0x70, 0x72, 0x6b] dh.toList
  labeled_expand H eae_prk [0x73, 0x68, 0x61, 0x72, 0x65, 0x64, 0x5f, 0x73, 0x65, 0x63, 0x72, 0x65, 0x74] kem_context 32

end Dhkem.HpkeTest
