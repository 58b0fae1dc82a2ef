import Verif.Props.Hpke
import Verif.Spec.Sha256
/-! The test vector of RFC 9180, appendix A.3.1, and of /repo/dhkem/tests/hpke_p256_test.rs:78-118, for the model and the
specification alike. It meets the hypotheses of C76 and C77. -/
namespace Dhkem.HpkeTest
open Rust MlKem Sec2 Rfc9180
open WeierstrassCurve.Affine (Point)

/-- The coordinates of a multiple of the base point, computed -/
def isMultiple (c : Params) (bits k x y : Nat) : Bool :=
  match Weierstrass.mult c bits k with
  | none => false
  | some t => decide (x < c.p ∧ y < c.p ∧ t.1 % c.p = x * t.2.2 ^ 2 % c.p ∧ t.2.1 % c.p = y * t.2.2 ^ 3 % c.p)

theorem smul_base {c : Named} {bits k x y : Nat} (h : isMultiple c.params bits k x y = true) :
    ∃ hn, k • base c = .some (x : ZMod c.params.p) (y : ZMod c.params.p) hn ∧
      (x : ZMod c.params.p).val = x ∧ (y : ZMod c.params.p).val = y := by
  unfold isMultiple at h
  split at h
  · exact absurd h (by simp)
  · rename_i t ht
    obtain ⟨hx, hy, h1, h2⟩ := of_decide_eq_true h
    obtain ⟨x', y', hn, h3, h4, h5, h6⟩ := Weierstrass.mult_rep (hG := base_nonsingular c) ht
    have e1 : x' = (x : ZMod c.params.p) := by
      have := (ZMod.natCast_eq_natCast_iff _ _ _).2 h1
      push_cast at this
      rw [h5] at this
      exact mul_right_cancel₀ (pow_ne_zero 2 h4) this
    have e2 : y' = (y : ZMod c.params.p) := by
      have := (ZMod.natCast_eq_natCast_iff _ _ _).2 h2
      push_cast at this
      rw [h6] at this
      exact mul_right_cancel₀ (pow_ne_zero 3 h4) this
    subst e1 e2
    exact ⟨hn, h3, ZMod.val_natCast_of_lt hx, ZMod.val_natCast_of_lt hy⟩

def skR : Nat := 0xf3ce7fdae57e1a310d87f1ebbde6f328be0a99cdbcadf4d6589cf29de4b8ffd2
def skE : Nat := 0x4995788ef4b9d6132b249ce59a77281493eb39af373d236a1fe415cb0c2d7beb
def pkRx : Nat := 0xfe8c19ce0905191ebc298a9245792531f26f0cece2460639e8bc39cb7f706a82
def pkRy : Nat := 0x6a779b4cf969b8a0e539c7f62fb3d30ad6aa8f80e30f1d128aafd68a2ce72ea0
def pkEx : Nat := 0xa92719c6195d5085104f469a8b9814d5838ff72b60501e2c4466e5e67b325ac9
def pkEy : Nat := 0x8536d7b61a1af4b78e5b7f951c0900be863c403ce65c9bfcb9382657222d18c4
def dhx : Nat := 0x13f918529458d2542531406888c8a6d4ea7ff473a6f4db452ac3c4ae1d01cea1
def dhy : Nat := 0xa90fc99827db57fef060caf4903a4be99f400153cdcb008ce9fdb792f4af81b4
def shared : Nat := 0xc0d26aeab536609a572b07695d933b589dcf363ff9d93c93adea537aeabb8cb8

/-- `ConstantRng` of the test: the secret is read from the 32 bytes that are there, big-endian -/
def scalar (b : Bytes 32) : Res (Scalar .p256) :=
  let k := b.toList.foldl (fun n x => 256 * n + x.toNat) 0
  if h : 0 < k ∧ k < Named.p256.params.n then .ok ⟨k, h⟩ else .panic

def random (rng : Rng) (s : rng.State) : Res (Scalar .p256 × rng.State) := do
  let (b, s) ← rng.fill_bytes 32 s
  let k ← scalar b
  .ok (k, s)

/-- The generator of the test: its state is the bytes it has left -/
def constantRng : Rng where
  State := List UInt8
  fill_bytes n s := if h : n ≤ s.length then .ok (⟨(s.take n).toArray, by simp [h]⟩, s.drop n) else .panic

theorem skR_range : 0 < skR ∧ skR < Named.p256.params.n := by decide +kernel
theorem skE_range : 0 < skE ∧ skE < Named.p256.params.n := by decide +kernel

theorem fill {n : Nat} (b : Bytes n) : constantRng.fill_bytes n b.toList = .ok (b, ([] : List UInt8)) := by
  show (if h : n ≤ b.toList.length then
    Res.ok ((⟨(b.toList.take n).toArray, _⟩ : Bytes n), b.toList.drop n) else .panic) = _
  have hl : b.toList.length = n := Vector.length_toList
  rw [dif_pos hl.ge]
  have e1 : b.toList.take n = b.toList := List.take_of_length_le hl.le
  have e2 : b.toList.drop n = [] := List.drop_of_length_le hl.le
  have : (⟨(b.toList.take n).toArray, by rw [e1, List.size_toArray, hl]⟩ : Bytes n) = b := Vector.toList_inj.1 e1
  exact congrArg Res.ok (Prod.ext this e2)

theorem draw {b : Bytes 32} {k : Scalar .p256} (h : scalar b = .ok k) :
    random constantRng b.toList = .ok (k, ([] : List UInt8)) := by
  unfold random
  rw [fill, Res.ok_bind]
  show (scalar b >>= fun k => Res.ok (k, ([] : List UInt8))) = _
  rw [h]
  rfl

theorem scalar_of {b : Bytes 32} {k : Nat} (h : 0 < k ∧ k < Named.p256.params.n)
    (hk : b.toList.foldl (fun n x => 256 * n + x.toNat) 0 = k) : scalar b = .ok ⟨k, h⟩ := by
  subst hk
  unfold scalar
  exact dif_pos h

theorem encapsulates (C : DhGroup) {rng : Rng} {s s' : rng.State} {sk : C.Secret} (h : C.random rng s = .ok (sk, s'))
    (ek : DhEncapsulator C.Public) :
    EcdhKem.encapsulate C ek rng s = .ok ((C.publicKey sk, C.diffieHellman sk ek.into_inner), s') ∧
    EcdhKem.random_keypair C rng s = .ok ((.from_ sk, .from_ (C.publicKey sk)), s') := by
  unfold EcdhKem.encapsulate EcdhKem.random_keypair
  rw [h]
  exact ⟨rfl, rfl⟩

theorem at_skR : isMultiple Named.p256.params 256 skR pkRx pkRy = true := by decide +kernel
theorem at_skE : isMultiple Named.p256.params 256 skE pkEx pkEy = true := by decide +kernel
theorem at_dh : isMultiple Named.p256.params 256 (skE * skR % Named.p256.params.n) dhx dhy = true := by
  decide +kernel

theorem dh_point : skE • skR • base .p256 = (skE * skR % Named.p256.params.n) • base .p256 := by
  have h : Named.p256.params.n • base .p256 = 0 := (smul_eq_zero_iff (base_ne_zero _) _).2 dvd_rfl
  rw [← mul_nsmul']
  conv_lhs => rw [← Nat.mod_add_div (skE * skR) Named.p256.params.n]
  rw [add_nsmul, mul_nsmul, h, nsmul_zero, add_zero]

theorem run {kR kE : Scalar .p256} {bR bE d : Bytes 32} {aR aE K : List UInt8} (hR : scalar bR = .ok kR)
    (hE : scalar bE = .ok kE) (f1 : sec1 Named.p256.params (kR.val • base .p256) = aR)
    (f2 : sec1 Named.p256.params (kE.val • base .p256) = aE)
    (f3 : rawSecret .p256 (kE.val • kR.val • base .p256) = d)
    (f4 : extract_and_expand Sha256.hash d (aE ++ aR) = .ok K) :
    ∃ (dk : DhDecapsulator (Scalar .p256)) (ek : DhEncapsulator Named.p256.params.curve.Point)
      (pk : Named.p256.params.curve.Point) (ss : Bytes 32),
      EcdhKem.random_keypair (named .p256 random) constantRng bR.toList = .ok ((dk, ek), ([] : List UInt8)) ∧
      sec1 Named.p256.params ek.into_inner = aR ∧
      EcdhKem.encapsulate (named .p256 random) ek constantRng bE.toList = .ok ((pk, ss), ([] : List UInt8)) ∧
      sec1 Named.p256.params pk = aE ∧
      EcdhKem.decapsulate (named .p256 random) dk pk = .ok ss ∧
      extract_and_expand Sha256.hash ss (sec1 Named.p256.params pk ++ sec1 Named.p256.params ek.into_inner) = .ok K := by
  subst f1 f2 f3
  refine ⟨.from_ kR, .from_ (kR.val • base .p256), kE.val • base .p256, _,
    (encapsulates (named .p256 random) (draw hR) (.from_ (base .p256))).2, rfl,
    (encapsulates (named .p256 random) (draw hE) (.from_ (kR.val • base .p256))).1, rfl, ?_, f4⟩
  exact congrArg (fun P => Res.ok (rawSecret .p256 P)) (smul_comm kR.val kE.val (base .p256))

/-- The whole test: both public keys have the published encodings, the two sides agree, and the extracted secret is
the published one. -/
theorem C76_vector : ∃ (dk : DhDecapsulator (Scalar .p256)) (ek : DhEncapsulator Named.p256.params.curve.Point)
    (pk : Named.p256.params.curve.Point) (ss : Bytes 32),
    EcdhKem.random_keypair (named .p256 random) constantRng (octets 32 skR).toList = .ok ((dk, ek), ([] : List UInt8)) ∧
    sec1 Named.p256.params ek.into_inner = 4 :: ((octets 32 pkRx).toList ++ (octets 32 pkRy).toList) ∧
    EcdhKem.encapsulate (named .p256 random) ek constantRng (octets 32 skE).toList
      = .ok ((pk, ss), ([] : List UInt8)) ∧
    sec1 Named.p256.params pk = 4 :: ((octets 32 pkEx).toList ++ (octets 32 pkEy).toList) ∧
    EcdhKem.decapsulate (named .p256 random) dk pk = .ok ss ∧
    extract_and_expand Sha256.hash ss (sec1 Named.p256.params pk ++ sec1 Named.p256.params ek.into_inner)
      = .ok (octets 32 shared).toList := by
  refine run (d := octets 32 dhx) (scalar_of skR_range (by decide +kernel)) (scalar_of skE_range (by decide +kernel))
    ?_ ?_ ?_ ?_
  · obtain ⟨h1, e1, x1, y1⟩ := smul_base at_skR
    rw [e1]
    simp only [sec1]
    rw [x1, y1]
    rfl
  · obtain ⟨h2, e2, x2, y2⟩ := smul_base at_skE
    rw [e2]
    simp only [sec1]
    rw [x2, y2]
    rfl
  · obtain ⟨h3, e3, x3, y3⟩ := smul_base at_dh
    rw [dh_point, e3]
    simp only [rawSecret]
    rw [x3]
    rfl
  · rw [C76_extraction _ (by decide)]
    exact congrArg Res.ok (by decide +kernel)

end Dhkem.HpkeTest

namespace Dhkem
open Rust MlKem Sec2 Rfc9180

/-- SHA-256 meets the hypothesis on the hash function. -/
example : 0 < Sha256.hash.size := by decide

/-- RFC 9180 refuses the string of zeros, and not the base point, under every key. -/
example (k : Bytes 32) : Decap Rfc9180.x25519 Sha256.hash 0x0020 32 (Vector.replicate 32 (0 : UInt8)).toList k = none ∧
    (Decap Rfc9180.x25519 Sha256.hash 0x0020 32 XWingSpec.basePoint.toList k).isSome := by
  obtain ⟨_, -, h1⟩ := C76_x25519_decap Sha256.hash 0x0020 32 (.from_ k) (Vector.replicate 32 0)
  obtain ⟨_, -, h2⟩ := C76_x25519_decap Sha256.hash 0x0020 32 (.from_ k) XWingSpec.basePoint
  constructor
  · exact h1.trans (if_pos (by decide +kernel))
  · refine (congrArg Option.isSome h2).trans ?_
    rw [if_neg (by decide +kernel)]
    rfl

end Dhkem
