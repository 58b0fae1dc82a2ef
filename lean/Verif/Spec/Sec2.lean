import Mathlib.AlgebraicGeometry.EllipticCurve.Affine.Point
import Mathlib.Data.ZMod.Basic
import Verif.Rust.Basic
/-! The elliptic curves named by the `dhkem` crate, as published: secp256k1 in SEC 2 v2, section 2.4.1; P-256, P-384 and
P-521 in FIPS 186-4, appendix D.1.2, also called secp256r1, secp384r1 and secp521r1. Field elements as octet strings are
as in SEC 1 v2, section 2.3.5. -/
namespace Sec2

/-- Domain parameters of a curve `y² = x³ + a x + b` over the integers modulo `p`, with base point `(gx, gy)` of order
`n`; a field element takes `size` octets. -/
structure Params where
  p : Nat
  a : Nat
  b : Nat
  gx : Nat
  gy : Nat
  n : Nat
  size : Nat

/-- The curve with these parameters -/
def Params.curve (c : Params) : WeierstrassCurve.Affine (ZMod c.p) := ⟨0, 0, 0, c.a, c.b⟩

/-- The curves of `Secp256k1Kem`, `NistP256Kem`, `NistP384Kem` and `NistP521Kem` -/
inductive Named where
  | secp256k1
  | p256
  | p384
  | p521
deriving DecidableEq

/-- Their published parameters -/
def Named.params : Named → Params
  | .secp256k1 => {
      p := 2 ^ 256 - 2 ^ 32 - 977
      a := 0
      b := 7
      gx := 0x79be667ef9dcbbac55a06295ce870b07029bfcdb2dce28d959f2815b16f81798
      gy := 0x483ada7726a3c4655da4fbfc0e1108a8fd17b448a68554199c47d08ffb10d4b8
      n := 0xfffffffffffffffffffffffffffffffebaaedce6af48a03bbfd25e8cd0364141
      size := 32 }
  | .p256 => {
      p := 2 ^ 256 - 2 ^ 224 + 2 ^ 192 + 2 ^ 96 - 1
      a := 2 ^ 256 - 2 ^ 224 + 2 ^ 192 + 2 ^ 96 - 1 - 3
      b := 0x5ac635d8aa3a93e7b3ebbd55769886bc651d06b0cc53b0f63bce3c3e27d2604b
      gx := 0x6b17d1f2e12c4247f8bce6e563a440f277037d812deb33a0f4a13945d898c296
      gy := 0x4fe342e2fe1a7f9b8ee7eb4a7c0f9e162bce33576b315ececbb6406837bf51f5
      n := 0xffffffff00000000ffffffffffffffffbce6faada7179e84f3b9cac2fc632551
      size := 32 }
  | .p384 => {
      p := 2 ^ 384 - 2 ^ 128 - 2 ^ 96 + 2 ^ 32 - 1
      a := 2 ^ 384 - 2 ^ 128 - 2 ^ 96 + 2 ^ 32 - 1 - 3
      b := 0xb3312fa7e23ee7e4988e056be3f82d19181d9c6efe8141120314088f5013875ac656398d8a2ed19d2a85c8edd3ec2aef
      gx := 0xaa87ca22be8b05378eb1c71ef320ad746e1d3b628ba79b9859f741e082542a385502f25dbf55296c3a545e3872760ab7
      gy := 0x3617de4a96262c6f5d9e98bf9292dc29f8f41dbd289a147ce9da3113b5f0b8c00a60b1ce1d7e819d7a431d7c90ea0e5f
      n := 0xffffffffffffffffffffffffffffffffffffffffffffffffc7634d81f4372ddf581a0db248b0a77aecec196accc52973
      size := 48 }
  | .p521 => {
      p := 2 ^ 521 - 1
      a := 2 ^ 521 - 1 - 3
      b := 0x51953eb9618e1c9a1f929a21a0b68540eea2da725b99b315f3b8b489918ef109e156193951ec7e937b1652c0bd3bb1bf073573df883d2c34f1ef451fd46b503f00
      gx := 0xc6858e06b70404e9cd9e3ecb662395b4429c648139053fb521f828af606b4d3dbaa14b5e77efe75928fe1dc127a2ffa8de3348b3c1856a429bf97e7e31c2e5bd66
      gy := 0x11839296a789a3bc0045c8a5fb42c7d1bd998f54449579b446817afbd17273e662c97ee72995ef42640c550b9013fad0761353c7086a272c24088be94769fd16650
      n := 0x1fffffffffffffffffffffffffffffffffffffffffffffffffffffffffffffffffa51868783bf2f966b7fcc0148f709a5d03bb5c9b8899c47aebb6fb71e91386409
      size := 66 }

/-- A number as `size` octets, most significant first -/
def octets (size v : Nat) : Vector UInt8 size := Vector.ofFn fun i => UInt8.ofNat (v / 256 ^ (size - 1 - i) % 256)

end Sec2
