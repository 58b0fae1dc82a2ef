import Verif.Spec.Hkdf
import Verif.Spec.Sec2
import Verif.Spec.Rfc7748
import Mathlib.Algebra.Field.ZMod
/-! The Diffie-Hellman-based KEM of RFC 9180, sections 4, 4.1 and 7.1. Nothing here mentions the model of the code. -/
namespace Rfc9180
open Rust Hkdf

/-- `I2OSP(n, w)` -/
def i2osp (n w : Nat) : List UInt8 := (Sec2.octets w n).toList

/-- The octets of a string of ASCII characters -/
def ascii (s : String) : List UInt8 := s.toList.map fun c => UInt8.ofNat c.toNat

/-- Section 4.1: `suite_id = concat("KEM", I2OSP(kem_id, 2))` -/
def suiteId (kem_id : Nat) : List UInt8 := ascii "KEM" ++ i2osp kem_id 2

/-- Section 4: the input of `LabeledExtract` -/
def labeledIkm (kem_id : Nat) (label : String) (ikm : List UInt8) : List UInt8 :=
  ascii "HPKE-v1" ++ suiteId kem_id ++ ascii label ++ ikm

/-- Section 4: the input of `LabeledExpand` -/
def labeledInfo (kem_id : Nat) (label : String) (info : List UInt8) (L : Nat) : List UInt8 :=
  i2osp L 2 ++ ascii "HPKE-v1" ++ suiteId kem_id ++ ascii label ++ info

/-- Section 4: `LabeledExtract(salt, label, ikm)` -/
def LabeledExtract (H : Hash) (kem_id : Nat) (salt : List UInt8) (label : String) (ikm : List UInt8) : List UInt8 :=
  (extract H salt (labeledIkm kem_id label ikm)).toList

/-- Section 4: `LabeledExpand(prk, label, info, L)` -/
def LabeledExpand (H : Hash) (kem_id : Nat) (prk : List UInt8) (label : String) (info : List UInt8) (L : Nat) :
    List UInt8 :=
  expand H prk (labeledInfo kem_id label info L) L

/-- Section 4.1: `ExtractAndExpand(dh, kem_context)` -/
def ExtractAndExpand (H : Hash) (kem_id Nsecret : Nat) (dh kem_context : List UInt8) : List UInt8 :=
  let eae_prk := LabeledExtract H kem_id [] "eae_prk" dh
  LabeledExpand H kem_id eae_prk "shared_secret" kem_context Nsecret

/-- Section 4.1: what a Diffie-Hellman group has to provide. `DH` may fail: section 7.1.4 has the outputs validated. -/
structure Dh where
  Sk : Type
  Pk : Type
  pk : Sk → Pk
  DH : Sk → Pk → Option (List UInt8)
  SerializePublicKey : Pk → List UInt8
  DeserializePublicKey : List UInt8 → Option Pk

section
variable (G : Dh) (H : Hash) (kem_id Nsecret : Nat)

/-- `Encap(pkR)` with the ephemeral secret key `skE`: the shared secret and `enc` -/
def Encap (skE : G.Sk) (pkR : G.Pk) : Option (List UInt8 × List UInt8) := do
  let pkE := G.pk skE
  let dh ← G.DH skE pkR
  let enc := G.SerializePublicKey pkE
  let pkRm := G.SerializePublicKey pkR
  let kem_context := enc ++ pkRm
  some (ExtractAndExpand H kem_id Nsecret dh kem_context, enc)

/-- `Decap(enc, skR)` -/
def Decap (enc : List UInt8) (skR : G.Sk) : Option (List UInt8) := do
  let pkE ← G.DeserializePublicKey enc
  let dh ← G.DH skR pkE
  let pkRm := G.SerializePublicKey (G.pk skR)
  let kem_context := enc ++ pkRm
  some (ExtractAndExpand H kem_id Nsecret dh kem_context)

/-- The strings hashed on the way to a shared secret of one block -/
def hashed (dh kem_context : List UInt8) : List (List UInt8) :=
  let ikm := labeledIkm kem_id "eae_prk" dh
  let prk := LabeledExtract H kem_id [] "eae_prk" dh
  let info := labeledInfo kem_id "shared_secret" kem_context Nsecret ++ [1]
  [inner H [] ikm, outer H [] ikm, inner H prk info, outer H prk info]

end

/-! ### Section 7.1: the groups -/

open Sec2 in
/-- SEC 1, section 2.3.3, uncompressed -/
def sec1 (c : Params) : c.curve.Point → List UInt8
  | .zero => [0]
  | .some x y _ => 4 :: ((octets c.size x.val).toList ++ (octets c.size y.val).toList)

open Classical in
/-- The point other than infinity that a string encodes -/
noncomputable def parse (c : Sec2.Params) (b : List UInt8) : Option c.curve.Point :=
  if h : ∃ P : c.curve.Point, P ≠ 0 ∧ sec1 c P = b then some h.choose else none

open Sec2 in
/-- The x-coordinate of a point other than infinity, as octets -/
def xOctets (c : Params) : c.curve.Point → Option (List UInt8)
  | .zero => none
  | .some x _ _ => some (octets c.size x.val).toList

/-- The value itself, unless it is all zero -/
def nonzero (dh : Bytes 32) : Option (List UInt8) := if dh = Vector.replicate 32 0 then none else some dh.toList

open Sec2 in
/-- Section 7.1.1 and 7.1.4 for a curve with base point `g`: public keys are points in uncompressed form; on
deserialising, strings that encode no point, and the point at infinity, are refused; the Diffie-Hellman value is the
x-coordinate and must not come from the point at infinity. -/
noncomputable def curve (c : Params) [Fact c.p.Prime] (g : c.curve.Point) : Dh where
  Sk := {k : Nat // 0 < k ∧ k < c.n}
  Pk := c.curve.Point
  pk k := k.val • g
  DH k P := xOctets c (k.val • P)
  SerializePublicKey P := sec1 c P
  DeserializePublicKey b := parse c b

/-- Section 7.1.1 and 7.1.4 for a function like X25519: the all-zero value must be refused. -/
def montgomery (X : Bytes 32 → Bytes 32 → Bytes 32) : Dh where
  Sk := Bytes 32
  Pk := Bytes 32
  pk k := X k (Vector.ofFn fun i => if i.val = 0 then 9 else 0)
  DH k u := nonzero (X k u)
  SerializePublicKey u := u.toList
  DeserializePublicKey b := if h : b.length = 32 then some ⟨b.toArray, by rw [List.size_toArray, h]⟩ else none

/-- The group of DHKEM(X25519, HKDF-SHA256) -/
def x25519 : Dh := montgomery Rfc7748.X25519

end Rfc9180
