import Verif.Spec.Fips203
/-! Byte layout of encoded ML-KEM keys (FIPS 203, Algorithms 13 and 16). -/
namespace Fips203

/-- The `n`-th 12-bit field of a byte string -/
def field12 (B : List UInt8) (n : Nat) : Nat := ofBits 12 fun j => bit B (12 * n + j)

variable (p : Params)

/-- The seed `ρ` in an encapsulation key `t ‖ ρ` -/
def ekRho (ek : List UInt8) : List UInt8 := (ek.drop (384 * p.k)).take 32
/-- The encapsulation key in a decapsulation key `s ‖ ek ‖ h ‖ z` -/
def dkEk (dk : List UInt8) : List UInt8 := (dk.drop (384 * p.k)).take (384 * p.k + 32)
/-- The hash `h` in a decapsulation key -/
def dkH (dk : List UInt8) : List UInt8 := (dk.drop (768 * p.k + 32)).take 32
/-- The rejection secret `z` in a decapsulation key -/
def dkZ (dk : List UInt8) : List UInt8 := (dk.drop (768 * p.k + 64)).take 32

/-- An encapsulation key encoding passes the modulus check of FIPS 203 section 7.2: all its
coefficients are below q. -/
def EkCanonical (ek : List UInt8) : Prop := ∀ n, n < 256 * p.k → field12 ek n < 3329

/-- All coefficients in a decapsulation key encoding are below q. -/
def DkCanonical (dk : List UInt8) : Prop :=
  (∀ n, n < 256 * p.k → field12 dk n < 3329) ∧
  (∀ n, n < 256 * p.k → field12 (dk.drop (384 * p.k)) n < 3329)

end Fips203
