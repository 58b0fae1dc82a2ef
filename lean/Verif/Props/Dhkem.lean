import Verif.Model.Dhkem
import Verif.Props.Toy
import Mathlib.AlgebraicGeometry.EllipticCurve.Affine.Point
/-! C44-C46: the Diffie-Hellman KEM adapters. -/
namespace Dhkem
open Rust MlKem

/-- Diffie-Hellman on this group agrees: what either side computes from the other's public key. -/
def Agrees (C : DhGroup) : Prop :=
  ∀ a b, C.diffieHellman a (C.publicKey b) = C.diffieHellman b (C.publicKey a)

variable (C : DhGroup)

/-- **C44** For a generated key pair, decapsulation inverts encapsulation, for both adapters. -/
theorem C44_agree (hC : Agrees C) {rng rng' : Rng} {s s' : rng.State} {t t' : rng'.State} :
    (∀ {dk ek pk ss}, EcdhKem.random_keypair C rng s = .ok ((dk, ek), s') →
      EcdhKem.encapsulate C ek rng' t = .ok ((pk, ss), t') →
      EcdhKem.decapsulate C dk pk = .ok ss) ∧
    (∀ {dk ek pk ss}, X25519Kem.random_keypair C rng s = .ok ((dk, ek), s') →
      X25519Kem.encapsulate C ek rng' t = .ok ((pk, ss), t') →
      X25519Kem.decapsulate C dk pk = .ok ss) := by
  constructor
  all_goals
    intro dk ek pk ss hgen henc
    simp only [EcdhKem.random_keypair, X25519Kem.random_keypair, Res.bind_eq_ok] at hgen
    simp only [EcdhKem.encapsulate, X25519Kem.encapsulate, Res.bind_eq_ok] at henc
    obtain ⟨⟨sk, s1⟩, -, h1⟩ := hgen
    obtain ⟨⟨e, t1⟩, -, h2⟩ := henc
    simp only [Res.ok.injEq, Prod.mk.injEq] at h1 h2
    obtain ⟨⟨rfl, rfl⟩, rfl⟩ := h1
    obtain ⟨⟨rfl, rfl⟩, rfl⟩ := h2
    simp only [EcdhKem.decapsulate, X25519Kem.decapsulate]
    rw [hC]

/-- Diffie-Hellman over a commutative group: scalars act on group elements, the shared secret is any
function of the resulting element. -/
def ofGroup (G : Type) [AddCommGroup G] (g : G) {Out : Type} (out : G → Out)
    (random : (rng : Rng) → rng.State → Res (Nat × rng.State)) : DhGroup where
  Secret := Nat
  Public := G
  Shared := Out
  random := random
  publicKey k := k • g
  diffieHellman k p := out (k • p)

theorem agrees_ofGroup (G : Type) [AddCommGroup G] (g : G) {Out : Type} (out : G → Out) (random) :
    Agrees (ofGroup G g out random) := fun (a b : Nat) => by
  show out (a • b • g) = out (b • a • g)
  rw [smul_comm]

/-- The x-coordinate of an affine point, if it is not the point at infinity -/
def xCoord {F : Type} [Field F] {W : WeierstrassCurve.Affine F} : W.Point → Option F
  | .zero => none
  | .some x _ _ => some x

/-- Elliptic-curve Diffie-Hellman: the x-coordinate of the secret's multiple of the other point, on
any Weierstrass curve over any field -/
noncomputable def ecdh {F : Type} [Field F] [DecidableEq F] (W : WeierstrassCurve.Affine F) (g : W.Point)
    (random : (rng : Rng) → rng.State → Res (Nat × rng.State)) : DhGroup :=
  ofGroup W.Point g xCoord random

/-- **C44** In particular on every Weierstrass curve, whatever its field, base point and sampling of
secrets. -/
theorem C44_elliptic {F : Type} [Field F] [DecidableEq F] (W : WeierstrassCurve.Affine F)
    (g : W.Point) (random) {rng rng' : Rng} {s s' : rng.State} {t t' : rng'.State} {dk ek pk ss}
    (hgen : EcdhKem.random_keypair (ecdh W g random) rng s = .ok ((dk, ek), s'))
    (henc : EcdhKem.encapsulate (ecdh W g random) ek rng' t = .ok ((pk, ss), t')) :
    EcdhKem.decapsulate (ecdh W g random) dk pk = .ok ss :=
  (C44_agree _ (agrees_ofGroup _ _ _ _)).1 hgen henc

/-- **C45** Encapsulation draws one secret, sends that secret's public key whoever the recipient is,
and shares the Diffie-Hellman value of the secret and the recipient's key; key generation draws one
secret and returns it with its public key. Nothing else is drawn, and they fail only if drawing
does. -/
theorem C45_ephemeral (rng : Rng) (s : rng.State) :
    (∀ ek r, EcdhKem.encapsulate C ek rng s = .ok r ↔ ∃ sk s', C.random rng s = .ok (sk, s') ∧
      r = ((C.publicKey sk, C.diffieHellman sk ek.into_inner), s')) ∧
    (∀ r, EcdhKem.random_keypair C rng s = .ok r ↔ ∃ sk s', C.random rng s = .ok (sk, s') ∧
      r = ((DhDecapsulator.from_ sk, DhEncapsulator.from_ (C.publicKey sk)), s')) ∧
    (∀ ek r, X25519Kem.encapsulate C ek rng s = .ok r ↔ ∃ sk s', C.random rng s = .ok (sk, s') ∧
      r = ((C.publicKey sk, C.diffieHellman sk ek.into_inner), s')) ∧
    (∀ r, X25519Kem.random_keypair C rng s = .ok r ↔ ∃ sk s', C.random rng s = .ok (sk, s') ∧
      r = ((DhDecapsulator.from_ sk, DhEncapsulator.from_ (C.publicKey sk)), s')) := by
  refine ⟨fun ek r => ?_, fun r => ?_, fun ek r => ?_, fun r => ?_⟩
  all_goals
    simp only [EcdhKem.encapsulate, EcdhKem.random_keypair, X25519Kem.encapsulate,
      X25519Kem.random_keypair, Res.bind_eq_ok, Prod.exists, Res.ok.injEq]
    constructor
    · rintro ⟨sk, s', h, rfl⟩; exact ⟨sk, s', h, rfl⟩
    · rintro ⟨sk, s', h, rfl⟩; exact ⟨sk, s', h, rfl⟩

/-- **C45** Two encapsulations from the same generator state, to any two recipients, send the same
encapsulated key and leave the generator in the same state. -/
theorem C45_recipient_independent {rng : Rng} {s s1 s2 : rng.State} {ek ek' : DhEncapsulator C.Public}
    {pk ss pk' ss'} (h1 : EcdhKem.encapsulate C ek rng s = .ok ((pk, ss), s1))
    (h2 : EcdhKem.encapsulate C ek' rng s = .ok ((pk', ss'), s2)) : pk = pk' ∧ s1 = s2 := by
  obtain ⟨sk, _, h3, h4⟩ := ((C45_ephemeral C rng s).1 _ _).1 h1
  obtain ⟨sk', _, h5, h6⟩ := ((C45_ephemeral C rng s).1 _ _).1 h2
  have := Res.ok.inj (h3.symm.trans h5)
  simp only [Prod.mk.injEq] at this h4 h6
  obtain ⟨rfl, rfl⟩ := this
  exact ⟨h4.1.1.trans h6.1.1.symm, h4.2.trans h6.2.symm⟩

/-- **C45** Decapsulation is Diffie-Hellman of the wrapped secret and the encapsulated key. -/
theorem C45_decapsulate (sk : C.Secret) (pk : C.Public) :
    EcdhKem.decapsulate C (DhDecapsulator.from_ sk) pk = .ok (C.diffieHellman sk pk) ∧
    X25519Kem.decapsulate C (DhDecapsulator.from_ sk) pk = .ok (C.diffieHellman sk pk) :=
  ⟨rfl, rfl⟩

/-- **C46** The wrappers add and lose nothing. -/
theorem C46_transparent {X : Type} (x y : X) (e e' : DhEncapsulator X) (d d' : DhDecapsulator X) :
    (DhEncapsulator.from_ x).into_inner = x ∧ (DhEncapsulator.from_ x).as_ref = x ∧
    (DhDecapsulator.from_ x).into_inner = x ∧ (DhDecapsulator.from_ x).as_ref = x ∧
    DhEncapsulator.from_ e.into_inner = e ∧ DhDecapsulator.from_ d.into_inner = d ∧
    (DhEncapsulator.from_ x = DhEncapsulator.from_ y ↔ x = y) ∧
    (DhDecapsulator.from_ x = DhDecapsulator.from_ y ↔ x = y) ∧
    (e = e' ↔ e.as_ref = e'.as_ref) ∧ (d = d' ↔ d.as_ref = d'.as_ref) := by
  refine ⟨rfl, rfl, rfl, rfl, rfl, rfl, ?_, ?_, ?_, ?_⟩
  · simp [DhEncapsulator.from_]
  · simp [DhDecapsulator.from_]
  · cases e; cases e'; simp [DhEncapsulator.as_ref]
  · cases d; cases d'; simp [DhDecapsulator.as_ref]

/-- **C46** Ordering, hashing, defaults, point encoding and erasure are the wrapped type's. -/
theorem C46_derived {X E : Type} (x y : X) (cmpX : X → X → Ordering) (hashX : X → List UInt8)
    (enc : X → Bool → E) (wipe : X → X) (c : Bool) :
    DhEncapsulator.cmp cmpX (.from_ x) (.from_ y) = cmpX x y ∧
    DhDecapsulator.cmp cmpX (.from_ x) (.from_ y) = cmpX x y ∧
    DhEncapsulator.hash hashX (.from_ x) = hashX x ∧ DhDecapsulator.hash hashX (.from_ x) = hashX x ∧
    (DhEncapsulator.default x).into_inner = x ∧ (DhDecapsulator.default x).into_inner = x ∧
    (DhEncapsulator.from_ x).to_encoded_point enc c = enc x c ∧
    ((DhEncapsulator.from_ x).zeroize wipe).into_inner = wipe x ∧
    ((DhDecapsulator.from_ x).zeroize wipe).into_inner = wipe x := by
  refine ⟨?_, ?_, rfl, rfl, rfl, rfl, rfl, rfl, rfl⟩
  · unfold DhEncapsulator.cmp DhEncapsulator.from_
    cases cmpX x y <;> rfl
  · unfold DhDecapsulator.cmp DhDecapsulator.from_
    cases cmpX x y <;> rfl

/-! ### The hypotheses are satisfiable -/

/-- Integers with a secret drawn as one byte of the generator -/
def toy : DhGroup := ofGroup Int 5 id fun rng s => do
  let (b, s) ← rng.fill_bytes 1 s
  .ok (b[0].toNat, s)

example : Agrees toy := agrees_ofGroup _ _ _ _

/-- A key pair and an encapsulation as in C44 exist; the shared secret is 5 · 7 · 9. -/
example : ∃ dk ek pk ss, EcdhKem.random_keypair toy Toy.rng (7 : Nat) = .ok ((dk, ek), (8 : Nat)) ∧
    EcdhKem.encapsulate toy ek Toy.rng (9 : Nat) = .ok ((pk, ss), (10 : Nat)) ∧ ss = (315 : Int) :=
  ⟨_, _, _, _, rfl, rfl, rfl⟩

/-- Curves with a finite point exist: (0, 0) on y² = x³ + x over the rationals. -/
example : ∃ (W : WeierstrassCurve.Affine ℚ) (g : W.Point), xCoord g = some 0 := by
  refine ⟨⟨0, 0, 0, 1, 0⟩, .some 0 0 ?_, rfl⟩
  rw [WeierstrassCurve.Affine.nonsingular_iff, WeierstrassCurve.Affine.equation_iff]
  norm_num

end Dhkem
