import Verif.Proofs.X25519All
import Verif.Props.X25519
/-!
C74, C75: X25519, the X25519 adapter and X-Wing on every string of 32 bytes, whether it encodes a point of the curve
or of its twist.
-/
namespace Rfc7748
open Rust XWingSpec

/-- **C74** The order of two applications never matters: not only for points of the curve as in C65. -/
theorem C74_commutes (j k b : Bytes 32) : X25519 j (X25519 k b) = X25519 k (X25519 j b) := by
  rw [X_eq_iff (P := decodeScalar25519 k • pt b) (P' := decodeScalar25519 j • pt b) (X_pt k b).symm (X_pt j b).symm,
    smul_comm]

/-- **C74** The result is zero exactly for the strings of Bernstein's list, whatever the secret. -/
theorem C74_zero_iff (k b : Bytes 32) :
    X25519 k b = Vector.replicate 32 0 ↔ maskedInteger b ∈ smallOrder := by
  rw [X_zero_iff (uK_over _), mem_smallOrder]
  exact clamped_zero k (pt_isField b)

/-- **C74** No application to a string outside the list gives a string in the list. -/
theorem C74_stays_large (k b : Bytes 32) (h : maskedInteger b ∉ smallOrder) :
    maskedInteger (X25519 k b) ∉ smallOrder := by
  rw [← C74_zero_iff k]
  rw [X_zero_iff (P := decodeScalar25519 k • pt b) (X_pt k b).symm]
  rw [clamped_zero k (isField_nsmul (pt_isField b) _)]
  rw [mem_smallOrder] at h
  exact eight_multiple k (pt_isField b) h

theorem base_nine : decodeUCoordinate basePoint = 9 := base_encodes

theorem base_large : maskedInteger basePoint ∉ smallOrder := by
  have : maskedInteger basePoint = 9 := by
    unfold maskedInteger
    decide +kernel
  rw [this]
  decide +kernel

/-- **C74** Public keys are never in the list, nor are the secrets two honest parties share. -/
theorem C74_honest (j k : Bytes 32) :
    maskedInteger (X25519 k basePoint) ∉ smallOrder ∧ X25519 k basePoint ≠ Vector.replicate 32 0 ∧
    maskedInteger (X25519 j (X25519 k basePoint)) ∉ smallOrder ∧
    X25519 j (X25519 k basePoint) ≠ Vector.replicate 32 0 := by
  have h1 := C74_stays_large k _ base_large
  refine ⟨h1, ?_, C74_stays_large j _ h1, ?_⟩
  · rw [Ne, C74_zero_iff]
    exact base_large
  · rw [Ne, C74_zero_iff]
    exact h1

/-- **C75** Whether two strings give the same secret does not depend on whose secret key it is. -/
theorem C75_same_for_all (j k b b' : Bytes 32) : X25519 j b = X25519 j b' ↔ X25519 k b = X25519 k b' := by
  rw [X_eq_iff (P := pt b) (P' := pt b') (uK_over _) (uK_over _), X_eq_iff (P := pt b) (P' := pt b') (uK_over _)
    (uK_over _), clamped_eq j (pt_isField b) (pt_isField b'), clamped_eq k (pt_isField b) (pt_isField b')]

/-- **C75** Two secret keys have the same public key exactly if their clamped scalars are equal or add up to 8 times
the order of the base point. -/
theorem C75_public_keys (j k : Bytes 32) : X25519 j basePoint = X25519 k basePoint ↔
    decodeScalar25519 j = decodeScalar25519 k ∨ decodeScalar25519 j + decodeScalar25519 k = 8 * order := by
  rw [X_eq_iff (base_uK base_nine) (base_uK base_nine)]
  refine scalars_eq order_prime (by decide +kernel) eight_base ?_ base_isField
  rw [smul_comm, order_nsmul, nsmul_zero]

/-- **C75** Secret keys with the same public key derive the same secret from every honest public key; others from none. -/
theorem C75_shared (i j k : Bytes 32) :
    X25519 j (X25519 i basePoint) = X25519 k (X25519 i basePoint) ↔ X25519 j basePoint = X25519 k basePoint := by
  rw [C74_commutes j, C74_commutes k]
  constructor
  · intro h
    rw [C75_public_keys]
    have h := h
    rw [C74_commutes i, C74_commutes i, X_eq_iff (P := decodeScalar25519 i • baseK) (P' := decodeScalar25519 i • baseK)
      (X_of (base_uK base_nine)).symm (X_of (base_uK base_nine)).symm] at h
    refine (scalars_eq order_prime (by decide +kernel) (eight_multiple i base_isField eight_base) ?_
      (isField_nsmul base_isField _)).1 h
    rw [smul_comm 8, smul_comm order, smul_comm order, order_nsmul, nsmul_zero, nsmul_zero]
  · intro h
    rw [h]

/-- **C75** From any string outside the list, at most two clamped scalars derive a given secret. -/
theorem C75_few_keys (j k b : Bytes 32) (hb : maskedInteger b ∉ smallOrder) (h : X25519 j b = X25519 k b) :
    decodeScalar25519 j = decodeScalar25519 k ∨ decodeScalar25519 j + decodeScalar25519 k = 8 * order ∨
    decodeScalar25519 j + decodeScalar25519 k = 8 * twistOrder := by
  rw [X_eq_iff (P := pt b) (P' := pt b) (uK_over _) (uK_over _)] at h
  rw [mem_smallOrder] at hb
  rcases mem_of_isField (pt_isField b) with hP | hP
  · have := (scalars_eq order_prime (by decide +kernel) hb
      (by rw [← mul_nsmul]; exact curve_nsmul hP) (pt_isField b)).1 h
    exact this.imp_right Or.inl
  · have := (scalars_eq twist_prime (by decide +kernel) hb (by
      rw [← mul_nsmul, show 8 * twistOrder = 4 * twistOrder * 2 by ring, mul_nsmul, twist_nsmul hP, nsmul_zero])
      (pt_isField b)).1 h
    exact this.imp_right Or.inr

/-! ### Witnesses -/

/-- The hypothesis of `C74_stays_large` holds for the base point, and for 2, which encodes no point of the curve. -/
example : maskedInteger basePoint ∉ smallOrder := base_large

/-- The bytes of a number -/
def ofNat (n : Nat) : Bytes 32 := Vector.ofFn fun i => UInt8.ofNat (n / 2 ^ (8 * i.val))

example : maskedInteger (ofNat 2) ∉ smallOrder ∧ ¬ ∃ Q, Encodes (ofNat 2) Q := by
  have h2 : maskedInteger (ofNat 2) = 2 := by unfold maskedInteger; decide +kernel
  refine ⟨by rw [h2]; decide +kernel, ?_⟩
  rintro ⟨Q, hQ⟩
  unfold Encodes at hQ
  rw [masked_cast, h2] at hQ
  cases Q with
  | zero =>
    have hQ : ((2 : Nat) : Fp) = 0 := hQ
    rw [ZMod.natCast_eq_zero_iff] at hQ
    revert hQ
    decide +kernel
  | some x y hn =>
    have hx : ((2 : Nat) : Fp) = x := hQ
    have he := Montgomery.equation hn
    rw [← hx] at he
    refine not_square (a := 2 ^ 3 + 486662 * 2 ^ 2 + 2) (by decide +kernel) (he.trans ?_) (by decide +kernel)
    unfold A25519
    push_cast
    rfl

/-- All 14 strings of the list, with the unused bit clear or set, are there. -/
example : ∀ n ∈ smallOrder, maskedInteger (ofNat n) ∈ smallOrder ∧ maskedInteger (ofNat (n + 2 ^ 255)) ∈ smallOrder ∧
    ofNat n ≠ ofNat (n + 2 ^ 255) := by
  unfold maskedInteger
  decide +kernel

/-- Two secrets whose scalars differ have the same public key: the smallest scalar and 8 times the order less it. -/
example : ∃ j k : Bytes 32, decodeScalar25519 j ≠ decodeScalar25519 k ∧ X25519 j basePoint = X25519 k basePoint := by
  refine ⟨ofNat (2 ^ 254), ofNat (8 * order - 2 ^ 254), by decide +kernel, ?_⟩
  rw [C75_public_keys]
  exact Or.inr (by decide +kernel)

/-- Strings other than copies of one string give the same secret under every secret key: 9 and the coordinate of the
base point plus (0, 0). -/
example (k : Bytes 32) : ∃ b, maskedInteger b ≠ maskedInteger basePoint ∧ decodeUCoordinate b ≠ decodeUCoordinate basePoint ∧
    X25519 k b = X25519 k basePoint := by
  refine ⟨ofNat (Prime25519.powMod p 255 9 (p - 2)), ?_, ?_, ?_⟩
  · unfold maskedInteger
    decide +kernel
  · rw [masked_cast, masked_cast, Ne, ZMod.natCast_eq_natCast_iff']
    unfold maskedInteger
    decide +kernel
  · rw [C75_same_for_all k (ofNat 0), X25519_eq, X25519_eq]
    decide +kernel

end Rfc7748

namespace Dhkem
open Rust MlKem Rfc7748

theorem encapsulated (C : DhGroup) {ek : DhEncapsulator C.Public} {rng : Rng} {s s' : rng.State} {pk ss}
    (h : X25519Kem.encapsulate C ek rng s = .ok ((pk, ss), s')) :
    ∃ sk, pk = C.publicKey sk ∧ ss = C.diffieHellman sk ek.val := by
  obtain ⟨sk, s1, -, h2⟩ := ((C45_ephemeral C rng s).2.2.1 ek _).1 h
  simp only [Prod.mk.injEq] at h2
  exact ⟨sk, h2.1⟩

theorem generated (C : DhGroup) {rng : Rng} {s s' : rng.State} {dk ek}
    (h : X25519Kem.random_keypair C rng s = .ok ((dk, ek), s')) : ek.val = C.publicKey dk.val := by
  obtain ⟨sk, s1, -, h2⟩ := ((C45_ephemeral C rng s).2.2.2 _).1 h
  simp only [Prod.mk.injEq] at h2
  rw [h2.1.1, h2.1.2]
  rfl

theorem decapsulate_eq (C : DhGroup) (dk dk' : DhDecapsulator C.Secret) (pk pk' : C.Public) (x : C.Shared) :
    (X25519Kem.decapsulate C dk pk = .ok x ↔ C.diffieHellman dk.val pk = x) ∧
    (X25519Kem.decapsulate C dk pk = X25519Kem.decapsulate C dk' pk' ↔
      C.diffieHellman dk.val pk = C.diffieHellman dk'.val pk') := by
  simp only [X25519Kem.decapsulate, Res.ok.injEq, and_self]

/-- **C74** The X25519 adapter has no check of the encapsulated key: for the strings of the list, and only for them,
decapsulation returns 32 zero bytes, with every decapsulation key. -/
theorem C74_x25519_decapsulate (dk : DhDecapsulator (Bytes 32)) (pk : Bytes 32) :
    X25519Kem.decapsulate x25519 dk pk = .ok (Vector.replicate 32 (0 : UInt8) : Bytes 32) ↔
      maskedInteger pk ∈ smallOrder := by
  rw [← C74_zero_iff dk.val]
  exact (decapsulate_eq x25519 dk dk pk pk _).1

/-- **C74** Nor of the encapsulation key: encapsulation to a key of the list returns 32 zero bytes as secret, and to
no other key. -/
theorem C74_x25519_encapsulate {ek : DhEncapsulator (Bytes 32)} {rng : Rng} {s s' : rng.State} {pk ss : Bytes 32}
    (h : X25519Kem.encapsulate x25519 ek rng s = .ok ((pk, ss), s')) :
    (ss = Vector.replicate 32 0 ↔ maskedInteger ek.val ∈ smallOrder) ∧ maskedInteger pk ∉ smallOrder := by
  obtain ⟨sk, h3, h4⟩ := encapsulated x25519 h
  rw [h3, h4]
  exact ⟨C74_zero_iff sk ek.val, (C74_honest sk sk).1⟩

/-- **C74** Generated keys are never in the list, so secrets encapsulated to them are never zero. -/
theorem C74_x25519_honest {rng rng' : Rng} {s s' : rng.State} {t t' : rng'.State} {dk ek} {pk ss : Bytes 32}
    (hgen : X25519Kem.random_keypair x25519 rng s = .ok ((dk, ek), s'))
    (henc : X25519Kem.encapsulate x25519 ek rng' t = .ok ((pk, ss), t')) :
    maskedInteger ek.val ∉ smallOrder ∧ maskedInteger pk ∉ smallOrder ∧ ss ≠ Vector.replicate 32 0 := by
  have hek : maskedInteger ek.val ∉ smallOrder := by
    rw [generated x25519 hgen]
    exact (C74_honest dk.val dk.val).1
  obtain ⟨h3, h4⟩ := C74_x25519_encapsulate henc
  exact ⟨hek, h4, fun h => hek (h3.1 h)⟩

/-- **C75** Two encapsulated keys give the same secret under one decapsulation key if and only if they do under every
other: an outsider can tell, with any key of their own. -/
theorem C75_x25519_same_for_all (dk dk' : DhDecapsulator (Bytes 32)) (pk pk' : Bytes 32) :
    X25519Kem.decapsulate x25519 dk pk = X25519Kem.decapsulate x25519 dk pk' ↔
    X25519Kem.decapsulate x25519 dk' pk = X25519Kem.decapsulate x25519 dk' pk' := by
  rw [(decapsulate_eq x25519 dk dk pk pk' (x25519.diffieHellman dk.val pk)).2,
    (decapsulate_eq x25519 dk' dk' pk pk' (x25519.diffieHellman dk.val pk)).2]
  exact C75_same_for_all dk.val dk'.val pk pk'

/-- **C75** From an honest encapsulated key, two decapsulation keys derive the same secret exactly if their public keys
are equal. -/
theorem C75_x25519_same_key {ek : DhEncapsulator (Bytes 32)} {rng : Rng} {s s' : rng.State} {pk ss : Bytes 32}
    (h : X25519Kem.encapsulate x25519 ek rng s = .ok ((pk, ss), s')) (dk dk' : DhDecapsulator (Bytes 32)) :
    X25519Kem.decapsulate x25519 dk pk = X25519Kem.decapsulate x25519 dk' pk ↔
    x25519.publicKey dk.val = x25519.publicKey dk'.val := by
  obtain ⟨sk, h3, -⟩ := encapsulated x25519 h
  rw [h3, (decapsulate_eq x25519 dk dk' _ _ (x25519.diffieHellman dk.val pk)).2]
  exact C75_shared sk dk.val dk'.val

/-- Encapsulation to a key of the list, and to a generated key, goes through from any state. -/
example (s t : Nat) : (∃ pk ss, X25519Kem.encapsulate x25519 ⟨ofNat 1⟩ Toy.rng t = .ok ((pk, ss), t + 1) ∧
      ss = (Vector.replicate 32 0 : Bytes 32)) ∧
    ∃ dk ek pk ss, X25519Kem.random_keypair x25519 Toy.rng s = .ok ((dk, ek), s + 1) ∧
      X25519Kem.encapsulate x25519 ek Toy.rng t = .ok ((pk, ss), t + 1) := by
  refine ⟨⟨_, _, rfl, (C74_zero_iff _ (ofNat 1)).2 ?_⟩, _, _, _, _, rfl, rfl⟩
  unfold maskedInteger
  decide +kernel

end Dhkem

namespace XWing
open Rust MlKem Fips203 XWingSpec Rfc7748

variable [Build] (S : Sha3)

/-- **C74** X-Wing decapsulates every ciphertext whose X25519 part is in the list, as C65 says of points of small
order, with 32 zero bytes as the X25519 secret, for every secret key. -/
theorem C74_xwing_accepted (sk : DecapsulationKey) (hs : SkOk S sk.sk.toList) (cb : Bytes CIPHERTEXT_SIZE)
    (h : maskedInteger (slice32 cb.toList 1088) ∈ smallOrder) :
    ∃ ct, Ciphertext.from_bytes cb = .ok ct ∧ sk.decapsulate S rfc7748 ct = .ok (Combiner S
      (Decaps_internal S ML_KEM_768 (skM S sk.sk.toList) (cb.toList.take 1088)) (List.replicate 32 0)
      (slice32 cb.toList 1088).toList (pkX S Rfc7748.X25519 sk.sk.toList).toList) := by
  obtain ⟨ct, h1, h2⟩ := C38_decaps S rfc7748 rfc7748_base sk hs cb
  refine ⟨ct, h1, h2.trans ?_⟩
  unfold Decapsulate
  dsimp only
  have : rfc7748.x25519 (secretX S sk.as_bytes.toList) (slice32 cb.toList 1088) = Vector.replicate 32 0 :=
    (C74_zero_iff _ _).2 h
  rw [this, Vector.toList_replicate]
  rfl

omit [Build] in
/-- **C74** For all other ciphertexts the X25519 secret is not zero, whatever the secret key, and for honest
encapsulations to generated keys neither are public key, ciphertext part and secret. -/
theorem C74_xwing_honest (sk : Bytes 32) (cb : Bytes CIPHERTEXT_SIZE) (e : Bytes 32) :
    (maskedInteger (slice32 cb.toList 1088) ∉ smallOrder →
      Rfc7748.X25519 (secretX S sk.toList) (slice32 cb.toList 1088) ≠ Vector.replicate 32 0) ∧
    maskedInteger (pkX S Rfc7748.X25519 sk.toList) ∉ smallOrder ∧
    Rfc7748.X25519 e (pkX S Rfc7748.X25519 sk.toList) ≠ Vector.replicate 32 0 :=
  ⟨fun h h' => h ((C74_zero_iff _ _).1 h'), (C74_honest e _).1, (C74_honest e _).2.2.2⟩

/-- A ciphertext whose X25519 part is in the list -/
example : ∃ cb : Bytes CIPHERTEXT_SIZE, maskedInteger (slice32 cb.toList 1088) ∈ smallOrder := by
  refine ⟨Vector.replicate _ 0, ?_⟩
  have : slice32 (Vector.replicate CIPHERTEXT_SIZE (0 : UInt8)).toList 1088 = ofNat 0 := by decide +kernel
  rw [this]
  unfold maskedInteger
  decide +kernel

end XWing
