import Verif.Proofs.X25519
import Verif.Props.Failure
import Verif.Props.XWingHistory
import Verif.Props.Dhkem
/-!
C65: with X25519 as RFC 7748 defines it, X-Wing and the X25519 adapter agree, with nothing assumed about
Diffie-Hellman.
-/
namespace Rfc7748
open Montgomery

/-- The point a string of 32 bytes stands for has the `u`-coordinate the string decodes to. -/
def Encodes (b : Rust.Bytes 32) (Q : E25519.Point) : Prop := decodeUCoordinate b = uOf Q

/-- **C65** `X25519(k, u)` is the `u`-coordinate of the multiple of the point by the clamped scalar, for every scalar
and every point of the curve, in the group Mathlib defines on the curve. -/
theorem C65_multiplies (k b : Rust.Bytes 32) (Q : E25519.Point) (h : Encodes b Q) :
    X25519 k b = encodeUCoordinate (uOf (decodeScalar25519 k • Q)) ∧
    Encodes (X25519 k b) (decodeScalar25519 k • Q) := by
  have e : X25519 k b = encodeUCoordinate (uOf (decodeScalar25519 k • Q)) := by
    unfold X25519
    rw [show decodeUCoordinate b = uOf Q from h,
      ladder_uOf (decodeScalar_lt k) (dvd_trans (by decide) (decodeScalar_dvd k))]
  exact ⟨e, by rw [e]; exact decode_encode _⟩

/-- **C65** On every point of the curve, the order of two applications does not matter. -/
theorem C65_commutes (j k b : Rust.Bytes 32) (Q : E25519.Point) (h : Encodes b Q) :
    X25519 j (X25519 k b) = X25519 k (X25519 j b) := by
  rw [(C65_multiplies j _ _ (C65_multiplies k b Q h).2).1, (C65_multiplies k _ _ (C65_multiplies j b Q h).2).1,
    smul_comm]

/-- **C65** A point of small order, the order dividing 8, gives the zero string under every scalar. -/
theorem C65_small_order (k b : Rust.Bytes 32) (Q : E25519.Point) (h : Encodes b Q) (h8 : 8 • Q = 0) :
    X25519 k b = Vector.replicate 32 0 := by
  obtain ⟨m, hm⟩ := decodeScalar_dvd k
  rw [(C65_multiplies k b Q h).1, hm, mul_comm, mul_nsmul', h8, nsmul_zero]
  show encodeUCoordinate 0 = _
  apply Vector.ext
  intro i hi
  simp [encodeUCoordinate]

theorem base_encodes : Encodes XWingSpec.basePoint base := by
  have : decodeLittleEndian (XWingSpec.basePoint.set 31 (XWingSpec.basePoint[31] &&& 0x7f)) = 9 := by decide +kernel
  show ((decodeLittleEndian (XWingSpec.basePoint.set 31 (XWingSpec.basePoint[31] &&& 0x7f)) : Nat) : Fp) = (9 : Fp)
  rw [this]
  rfl

/-- The zero string stands for the point at infinity. -/
theorem zero_encodes : Encodes (Vector.replicate 32 0) 0 := by
  have : decodeLittleEndian ((Vector.replicate 32 0 : Rust.Bytes 32).set 31 ((Vector.replicate 32 0 : Rust.Bytes 32)[31] &&& 0x7f)) = 0 := by
    decide +kernel
  show ((decodeLittleEndian ((Vector.replicate 32 0 : Rust.Bytes 32).set 31 ((Vector.replicate 32 0 : Rust.Bytes 32)[31] &&& 0x7f)) : Nat) : Fp) = 0
  rw [this]
  rfl

/-! The definition computes what RFC 7748 says it computes. -/

/-- Section 5.2, first test vector -/
example : X25519 #v[0xa5, 0x46, 0xe3, 0x6b, 0xf0, 0x52, 0x7c, 0x9d, 0x3b, 0x16, 0x15, 0x4b, 0x82, 0x46, 0x5e, 0xdd, 0x62, 0x14, 0x4c, 0x0a, 0xc1, 0xfc, 0x5a, 0x18, 0x50, 0x6a, 0x22, 0x44, 0xba, 0x44, 0x9a, 0xc4]
    #v[0xe6, 0xdb, 0x68, 0x67, 0x58, 0x30, 0x30, 0xdb, 0x35, 0x94, 0xc1, 0xa4, 0x24, 0xb1, 0x5f, 0x7c, 0x72, 0x66, 0x24, 0xec, 0x26, 0xb3, 0x35, 0x3b, 0x10, 0xa9, 0x03, 0xa6, 0xd0, 0xab, 0x1c, 0x4c] =
    #v[0xc3, 0xda, 0x55, 0x37, 0x9d, 0xe9, 0xc6, 0x90, 0x8e, 0x94, 0xea, 0x4d, 0xf2, 0x8d, 0x08, 0x4f, 0x32, 0xec, 0xcf, 0x03, 0x49, 0x1c, 0x71, 0xf7, 0x54, 0xb4, 0x07, 0x55, 0x77, 0xa2, 0x85, 0x52] := by
  rw [X25519_eq]
  decide +kernel

/-- Second test vector -/
example : X25519 #v[0x4b, 0x66, 0xe9, 0xd4, 0xd1, 0xb4, 0x67, 0x3c, 0x5a, 0xd2, 0x26, 0x91, 0x95, 0x7d, 0x6a, 0xf5, 0xc1, 0x1b, 0x64, 0x21, 0xe0, 0xea, 0x01, 0xd4, 0x2c, 0xa4, 0x16, 0x9e, 0x79, 0x18, 0xba, 0x0d]
    #v[0xe5, 0x21, 0x0f, 0x12, 0x78, 0x68, 0x11, 0xd3, 0xf4, 0xb7, 0x95, 0x9d, 0x05, 0x38, 0xae, 0x2c, 0x31, 0xdb, 0xe7, 0x10, 0x6f, 0xc0, 0x3c, 0x3e, 0xfc, 0x4c, 0xd5, 0x49, 0xc7, 0x15, 0xa4, 0x93] =
    #v[0x95, 0xcb, 0xde, 0x94, 0x76, 0xe8, 0x90, 0x7d, 0x7a, 0xad, 0xe4, 0x5c, 0xb4, 0xb8, 0x73, 0xf8, 0x8b, 0x59, 0x5a, 0x68, 0x79, 0x9f, 0xa1, 0x52, 0xe6, 0xf8, 0xf7, 0x64, 0x7a, 0xac, 0x79, 0x57] := by
  rw [X25519_eq]
  decide +kernel

end Rfc7748

namespace XWing
open Rust MlKem Fips203 XWingSpec Rfc7748

/-- What x25519-dalek promises: its `x25519` is that of RFC 7748, and the public key of a secret is the secret applied
to the base point. -/
def rfc7748 : X25519 where
  x25519 := Rfc7748.X25519
  publicKey k := Rfc7748.X25519 k basePoint

theorem rfc7748_base : PublicKeyIsBase rfc7748 := fun _ => rfl

theorem rfc7748_commutes : Commutes rfc7748 := fun a b => C65_commutes a b basePoint base base_encodes

variable [Build] (S : Sha3)

/-- **C65** X-Wing: decapsulation of an honest ciphertext with a generated key returns the shared secret, if the noise
of its ML-KEM part is small. -/
theorem C65_agree {rng rng' : Rng} {s s' : rng.State} {t t' : rng'.State} {sk pk ct ss}
    (hgen : generate_key_pair S rfc7748 rng s = .ok ((sk, pk), s'))
    (henc : pk.encapsulate S rfc7748 rng' t = .ok ((ct, ss), t')) :
    ∃ m t1, rng'.fill_bytes 32 t = .ok (m, t1) ∧
      (NoiseOk S ML_KEM_768 (seedD S sk.sk.toList).toList m.toList
          (encapsRandomness S (pkM S sk.sk.toList) m.toList) →
        sk.decapsulate S rfc7748 ct = .ok ss) :=
  C37_agree S rfc7748 rfc7748_base rfc7748_commutes hgen henc

/-- **C65** Over the random functions of C61, for any generators, that fails with probability at most `2^-90`. -/
theorem C65_failure (rng rng' : Rng) (s : rng.State) (t : rng'.State) :
    prob (fun T : (Bytes 33 → Bytes 192) × (Bytes 64 → Bytes 64) =>
      Disagree (withPrf (withDerive S T.2) T.1) rfc7748 rng rng' s t) ≤ 2 ^ (-90 : ℤ) :=
  C61_xwing S rfc7748 rfc7748_base rfc7748_commutes rng rng' s t

/-- **C65** A secret key whose noise is short never fails. -/
theorem C65_short_keys_never_fail {sk : DecapsulationKey} {pk : EncapsulationKey}
    (hpk : sk.encapsulation_key S rfc7748 = .ok pk)
    (hshort : noiseBound S ML_KEM_768 (seedD S sk.as_bytes.toList).toList ≤ 831)
    {rng : Rng} {s s' : rng.State} {ct ss} (henc : pk.encapsulate S rfc7748 rng s = .ok ((ct, ss), s')) :
    sk.decapsulate S rfc7748 ct = .ok ss :=
  C58_short_keys_never_fail S rfc7748 rfc7748_base rfc7748_commutes hpk hshort henc

/-- **C65** In every history of calls, the secrets two parties log for one ciphertext agree, if the noise is small. -/
theorem C65_histories_agree {rng : Rng} {ops : List History.Op} {st : rng.State} {w log}
    (h : History.run S rfc7748 (History.start st) ops = .ok (w, log)) {j b c ss} (hb : .pkBytes j b ∈ log)
    (he : .encaps j c ss ∈ log) :
    ∃ m e : Bytes 32, ss = (EncapsulateDerand S Rfc7748.X25519 b.toList (m.toList ++ e.toList)).1 ∧
      c.toList = (EncapsulateDerand S Rfc7748.X25519 b.toList (m.toList ++ e.toList)).2 ∧
      ∀ {i sb ss'}, .derived i j ∈ log → .skBytes i sb ∈ log → .decaps i c ss' ∈ log →
        NoiseOk S ML_KEM_768 (seedD S sb.toList).toList m.toList
          (encapsRandomness S (pkM S sb.toList) m.toList) → ss' = ss :=
  History.C57_agree S rfc7748 rfc7748_base rfc7748_commutes h hb he

/-- **C65** X-Wing does not reject a ciphertext whose X25519 part is a point of small order: decapsulation returns the
combiner's output with 32 zero bytes as the X25519 secret, so that part adds nothing secret. -/
theorem C65_small_order_accepted (sk : DecapsulationKey) (hs : SkOk S sk.sk.toList) (cb : Bytes CIPHERTEXT_SIZE)
    (Q : E25519.Point) (hQ : Encodes (slice32 cb.toList 1088) Q) (h8 : 8 • Q = 0) :
    ∃ ct, Ciphertext.from_bytes cb = .ok ct ∧ sk.decapsulate S rfc7748 ct = .ok (Combiner S
      (Decaps_internal S ML_KEM_768 (skM S sk.sk.toList) (cb.toList.take 1088)) (List.replicate 32 0)
      (slice32 cb.toList 1088).toList (pkX S Rfc7748.X25519 sk.sk.toList).toList) := by
  obtain ⟨ct, h1, h2⟩ := C38_decaps S rfc7748 rfc7748_base sk hs cb
  refine ⟨ct, h1, h2.trans ?_⟩
  unfold Decapsulate
  dsimp only
  have : rfc7748.x25519 (secretX S sk.as_bytes.toList) (slice32 cb.toList 1088) = Vector.replicate 32 0 :=
    C65_small_order _ _ Q hQ h8
  rw [this, Vector.toList_replicate]
  rfl

/-! ### The hypotheses are satisfiable -/

/-- With toy hashes and RFC 7748's X25519, key generation, encapsulation and decapsulation go through from any
generator state and agree. -/
example (s t : Nat) : ∃ sk pk s' ct ss t',
    generate_key_pair Toy.S rfc7748 Toy.rng s = .ok ((sk, pk), s') ∧
    pk.encapsulate Toy.S rfc7748 Toy.rng t = .ok ((ct, ss), t') ∧ sk.decapsulate Toy.S rfc7748 ct = .ok ss := by
  obtain ⟨pk, b, h1, -⟩ := C38_keygen Toy.S rfc7748 rfc7748_base
    (DecapsulationKey.from_bytes (Vector.ofFn fun i => UInt8.ofNat (s + i.val))) (Toy.seedOk _ _)
  have hgen := ((C40_randomness Toy.S rfc7748 Toy.rng s).1 _).2 ⟨_, s + 1, pk, rfl, h1, rfl⟩
  obtain ⟨pb, -, h3⟩ := C38_encaps Toy.S rfc7748 (.derived h1) (rng := Toy.rng) (s := t) rfl rfl
  obtain ⟨ct, ss, -, h4, -⟩ := h3 (Toy.seedOk _ _)
  obtain ⟨m, t1, -, h5⟩ := C65_agree Toy.S hgen h4
  exact ⟨_, pk, _, ct, ss, _, hgen, h4, h5 (Toy.noiseOk (by simp) _ _ _)⟩

/-- Small-order strings exist: zero, for one. -/
example : ∃ (b : Bytes 32) (Q : E25519.Point), Encodes b Q ∧ 8 • Q = 0 := ⟨_, 0, zero_encodes, nsmul_zero 8⟩

end XWing

namespace Dhkem
open Rust MlKem

/-- What `X25519Kem` uses of x25519-dalek: 32 bytes drawn from the generator are the secret; the public key is RFC
7748's function of the secret and the base point, the shared secret of the secret and the other public key. -/
def x25519 : DhGroup where
  Secret := Bytes 32
  Public := Bytes 32
  Shared := Bytes 32
  random rng s := rng.fill_bytes 32 s
  publicKey k := Rfc7748.X25519 k XWingSpec.basePoint
  diffieHellman k u := Rfc7748.X25519 k u

/-- **C65** The X25519 adapter: for a generated key pair, decapsulation inverts encapsulation. -/
theorem C65_x25519_kem {rng rng' : Rng} {s s' : rng.State} {t t' : rng'.State} {dk ek pk ss}
    (hgen : X25519Kem.random_keypair x25519 rng s = .ok ((dk, ek), s'))
    (henc : X25519Kem.encapsulate x25519 ek rng' t = .ok ((pk, ss), t')) :
    X25519Kem.decapsulate x25519 dk pk = .ok ss :=
  (C44_agree x25519 fun a b => Rfc7748.C65_commutes a b _ Rfc7748.base Rfc7748.base_encodes).2 hgen henc

/-- A key pair and an encapsulation as in C65 exist from any generator states. -/
example (s t : Nat) : ∃ dk ek pk ss, X25519Kem.random_keypair x25519 Toy.rng s = .ok ((dk, ek), s + 1) ∧
    X25519Kem.encapsulate x25519 ek Toy.rng t = .ok ((pk, ss), t + 1) :=
  ⟨_, _, _, _, rfl, rfl⟩

end Dhkem
