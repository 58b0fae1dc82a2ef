import Verif.Model.Dhkem
import Verif.Proofs.CurveChecks
import Verif.Proofs.CurvePrimes
/-! Model of the named curves of /repo/dhkem/src/lib.rs. -/
namespace Dhkem
open Rust MlKem Sec2

/-- The fields of the named curves are fields: their sizes are prime. (dhkem/src/lib.rs:158, 162, 166, 170) -/
instance (c : Named) : Fact c.params.p.Prime := ⟨by
  cases c
  · exact Pocklington.secp256k1_p
  · exact Pocklington.p256_p
  · exact Pocklington.p384_p
  · exact Pocklington.p521_p⟩

theorem base_nonsingular (c : Named) : c.params.curve.Nonsingular c.params.gx c.params.gy := by
  cases c
  · exact Weierstrass.nonsingular_of_check Weierstrass.check_secp256k1
  · exact Weierstrass.nonsingular_of_check Weierstrass.check_p256
  · exact Weierstrass.nonsingular_of_check Weierstrass.check_p384
  · exact Weierstrass.nonsingular_of_check Weierstrass.check_p521

/-- The published base point (by `public_key`, `PublicKey::from`, dhkem/src/ecdh_kem.rs:30, 63) -/
def base (c : Named) : c.params.curve.Point := .some _ _ (base_nonsingular c)

/-- `elliptic_curve::ecdh::SharedSecret`: the x-coordinate of a point as octets. The point at infinity is kept with
x-coordinate zero by the curve crates, so it gives zeros. (dhkem/src/ecdh_kem.rs:31, 44) -/
def rawSecret (c : Named) : c.params.curve.Point → Bytes c.params.size
  | .zero => Vector.replicate _ 0
  | .some x _ _ => octets c.params.size x.val

/-- `elliptic_curve::NonZeroScalar` of the curve, what an `EphemeralSecret` holds (dhkem/src/ecdh_kem.rs:29, 62) -/
abbrev Scalar (c : Named) := {k : Nat // 0 < k ∧ k < c.params.n}

/-- dhkem/src/lib.rs:156-170 `Secp256k1Kem`, `NistP256Kem`, `NistP384Kem`, `NistP521Kem`: `EcdhKem` at a curve of the
crates `k256`, `p256`, `p384`, `p521`, which are external and replaced by the curves as published. How a secret is drawn is a parameter. `PublicKey` holds a point. The constructors
of `PublicKey` from bytes refuse the point at infinity; the conversion from a secret that this code uses does not look.
So every point is a value of `Public` here. -/
noncomputable def named (c : Named)
    (random : (rng : Rng) → rng.State → Res (Scalar c × rng.State)) : DhGroup where
  Secret := Scalar c
  Public := c.params.curve.Point
  Shared := Bytes c.params.size
  random := random
  publicKey k := k.val • base c
  diffieHellman k P := rawSecret c (k.val • P)

end Dhkem
