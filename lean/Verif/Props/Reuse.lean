import Verif.Props.XWing
import Verif.Props.Dhkem
/-! C99: what a repeated message or a repeated state of the generator exposes. -/
namespace MlKem
open Rust Fips203

variable [Build]
variable (S : Sha3) {P P' : ParameterSet} {p p' : Params}

/-- What a recipient can do: decrypt the message of a ciphertext, and encapsulate it to somebody else's key -/
def otherRecipient (dk : DecapsulationKey P') (c' : P'.EncodedCiphertext) (ek : EncapsulationKey P) :
    Res (P.EncodedCiphertext × SharedKey) := do
  let m ← dk.dk_pke.decrypt c'
  ek.encapsulate_deterministic S m

theorem decrypts (h : Supported P p) (hdu : p.du ≤ 11) (hdv : p.dv ≤ 11) {d z m : B32} {dk : DecapsulationKey P}
    {ek : EncapsulationKey P} {c K} (hgen : Kem.generate_deterministic S P d z = .ok (dk, ek))
    (henc : ek.encapsulate_deterministic S m = .ok (c, K))
    (hnoise : NoiseOk S p d.toList m.toList (encapsRandomness S (KeyGen_internal S p d.toList z.toList).1 m.toList)) :
    dk.dk_pke.decrypt c = .ok m := by
  obtain rfl := h.eq
  obtain ⟨hs, rfl, rfl⟩ := (generate_ok_iff S h.valid).1 hgen
  have hs' : SeedOk S P.K (bytesOf (n := 32) (seeds S P.toParams d.toList).1).toList := by
    rw [toList_bytesOf (seeds_length S _ _).1]; exact hs
  unfold genEk at henc
  dsimp only at henc
  rw [encaps_ok S h.valid _ _ _ m hs', Hash_toList, ekBytes_gen] at henc
  obtain ⟨rfl, -⟩ := Prod.mk.inj (Res.ok.inj henc)
  refine (decrypt_ok h.valid _ _).trans (congrArg Res.ok ?_)
  have hm := (decT_honest_iff S P.toParams h.du_pos hdu h.dv_pos hdv d.toList m.toList _
    m.length_toList).2 hnoise
  have e : encapsRandomness S (KeyGen_internal S P.toParams d.toList z.toList).1 m.toList
    = (Fips203.G S (m.toList ++ Fips203.H S (KPKE_KeyGen S P.toParams d.toList).1)).2 := rfl
  rw [e] at hm
  rw [toList_bytesOf (encT_length S P.toParams _ _ _ _), toList_bytesOf (seeds_length S _ _).1, hm, bytesOf_toList]

/-- **C99** A message that is encapsulated for two recipients (of the same or of different parameter sets) is known to both:
each of them can compute the ciphertext and the shared key of the other. -/
theorem C99_same_message (h : Supported P' p') (hdu : p'.du ≤ 11) (hdv : p'.dv ≤ 11) {d z m : B32}
    {dk : DecapsulationKey P'} {ek' : EncapsulationKey P'} (hgen : Kem.generate_deterministic S P' d z = .ok (dk, ek'))
    {c' K'} (henc' : ek'.encapsulate_deterministic S m = .ok (c', K'))
    (hnoise : NoiseOk S p' d.toList m.toList (encapsRandomness S (KeyGen_internal S p' d.toList z.toList).1 m.toList))
    (ek : EncapsulationKey P) :
    otherRecipient S dk c' ek = ek.encapsulate_deterministic S m := by
  unfold otherRecipient
  rw [decrypts S h hdu hdv hgen henc' hnoise, Res.ok_bind]

/-- **C99** So it is if a generator is in the same state at two encapsulations (a copied virtual machine, a forked process,
a seed used twice). -/
theorem C99_same_state (h : Supported P' p') (hdu : p'.du ≤ 11) (hdv : p'.dv ≤ 11) {d z : B32}
    {dk : DecapsulationKey P'} {ek' : EncapsulationKey P'} (hgen : Kem.generate_deterministic S P' d z = .ok (dk, ek'))
    {rng : Rng} {s s' t : rng.State} {c' K'} (henc' : ek'.encapsulate S rng s = .ok ((c', K'), s'))
    {ek : EncapsulationKey P} {c K} (henc : ek.encapsulate S rng s = .ok ((c, K), t)) :
    ∃ m, rng.fill_bytes 32 s = .ok (m, s') ∧ s' = t ∧
      (NoiseOk S p' d.toList m.toList (encapsRandomness S (KeyGen_internal S p' d.toList z.toList).1 m.toList) →
        otherRecipient S dk c' ek = .ok (c, K)) := by
  have key : ∀ {P : ParameterSet} {ek : EncapsulationKey P} {t : rng.State} {r}, ek.encapsulate S rng s = .ok (r, t) →
      ∃ m, rng.fill_bytes 32 s = .ok (m, t) ∧ ek.encapsulate_deterministic S m = .ok r := by
    intro P ek t r he
    unfold EncapsulationKey.encapsulate rand at he
    rw [Res.bind_eq_ok] at he
    obtain ⟨⟨m, s1⟩, h1, he⟩ := he
    rw [Res.bind_eq_ok] at he
    obtain ⟨r', h2, he⟩ := he
    simp only [Res.ok.injEq, Prod.mk.injEq] at he
    obtain ⟨rfl, rfl⟩ := he
    exact ⟨m, h1, h2⟩
  obtain ⟨m, h1, h2⟩ := key henc'
  obtain ⟨m', g1, g2⟩ := key henc
  have e := Res.ok.inj (h1.symm.trans g1)
  simp only [Prod.mk.injEq] at e
  obtain ⟨rfl, rfl⟩ := e
  exact ⟨m, h1, rfl, fun hn => by rw [C99_same_message S h hdu hdv hgen h2 hn, g2]⟩

/-- **C99** Conversely a repetition towards one recipient shows on the wire, and nothing else looks like one: two ciphertexts
for one key are equal exactly if their messages are, and then the shared keys are equal too. -/
theorem C99_visible (h : Supported P p) (hdu : p.du ≤ 11) (hdv : p.dv ≤ 11) {d z m m' : B32}
    {dk : DecapsulationKey P} {ek : EncapsulationKey P} (hgen : Kem.generate_deterministic S P d z = .ok (dk, ek))
    {c K c' K'} (henc : ek.encapsulate_deterministic S m = .ok (c, K))
    (henc' : ek.encapsulate_deterministic S m' = .ok (c', K'))
    (hn : NoiseOk S p d.toList m.toList (encapsRandomness S (KeyGen_internal S p d.toList z.toList).1 m.toList))
    (hn' : NoiseOk S p d.toList m'.toList (encapsRandomness S (KeyGen_internal S p d.toList z.toList).1 m'.toList)) :
    (c = c' ↔ m = m') ∧ (c = c' → K = K') := by
  have a := decrypts S h hdu hdv hgen henc hn
  have b := decrypts S h hdu hdv hgen henc' hn'
  have f : c = c' → m = m' := by
    rintro rfl
    exact Res.ok.inj (a.symm.trans b)
  have g : m = m' → (c, K) = (c', K') := by
    rintro rfl
    exact Res.ok.inj (henc.symm.trans henc')
  exact ⟨⟨f, fun e => (Prod.mk.inj (g e)).1⟩, fun e => (Prod.mk.inj (g (f e))).2⟩

/-- The hypotheses are met with the toy primitives by a recipient of 768 and a victim of 1024, for all seeds, in every state. -/
example (d z d' z' : B32) (s : Nat) : ∃ dk ek' dk1 ek r r' t t',
    Kem.generate_deterministic Toy.S MlKem768Params d z = .ok (dk, ek') ∧
    Kem.generate_deterministic Toy.S MlKem1024Params d' z' = .ok (dk1, ek) ∧
    ek'.encapsulate Toy.S Toy.rng s = .ok (r', t') ∧ ek.encapsulate Toy.S Toy.rng s = .ok (r, t) ∧
    otherRecipient Toy.S dk r'.1 ek = .ok r := by
  obtain ⟨dk, ek', -, -, h1, -⟩ := C01_keygen_is_fips203 Toy.S supported_768 d z (Toy.seedOk _ _)
  obtain ⟨dk1, ek, -, -, h2, -⟩ := C01_keygen_is_fips203 Toy.S supported_1024 d' z' (Toy.seedOk _ _)
  obtain ⟨m, t, hm⟩ : ∃ m t, Toy.rng.fill_bytes 32 s = .ok (m, t) := ⟨_, _, rfl⟩
  obtain ⟨_, -, h3⟩ := C02_encaps_is_fips203 Toy.S supported_768 (.generated h1) m
  obtain ⟨c', K', h3, -⟩ := h3 (Toy.seedOk _ _)
  obtain ⟨_, -, h4⟩ := C02_encaps_is_fips203 Toy.S supported_1024 (.generated h2) m
  obtain ⟨c, K, h4, -⟩ := h4 (Toy.seedOk _ _)
  have e1 : ek'.encapsulate Toy.S Toy.rng s = .ok ((c', K'), t) := by
    unfold EncapsulationKey.encapsulate rand
    rw [hm, Res.ok_bind]
    dsimp only
    unfold EncapsulationKey.encapsulate_deterministic at h3
    rw [h3, Res.ok_bind]
  have e2 : ek.encapsulate Toy.S Toy.rng s = .ok ((c, K), t) := by
    unfold EncapsulationKey.encapsulate rand
    rw [hm, Res.ok_bind]
    dsimp only
    unfold EncapsulationKey.encapsulate_deterministic at h4
    rw [h4, Res.ok_bind]
  obtain ⟨m', -, -, h5⟩ := C99_same_state Toy.S supported_768 (by decide) (by decide) h1 e1 e2
  exact ⟨dk, ek', dk1, ek, _, _, t, t, h1, h2, e1, e2, h5 (Toy.noiseOk (by simp) _ _ _)⟩

/-- So are those of `C99_visible`, for all pairs of messages. -/
example (d z m m' : B32) : ∃ (dk : DecapsulationKey MlKem512Params) (ek : EncapsulationKey MlKem512Params) (r r' : _ × SharedKey),
    Kem.generate_deterministic Toy.S MlKem512Params d z = .ok (dk, ek) ∧
    ek.encapsulate_deterministic Toy.S m = .ok r ∧ ek.encapsulate_deterministic Toy.S m' = .ok r' ∧ (r.1 = r'.1 ↔ m = m') := by
  obtain ⟨dk, ek, -, -, h1, -⟩ := C01_keygen_is_fips203 Toy.S supported_512 d z (Toy.seedOk _ _)
  obtain ⟨_, -, h3⟩ := C02_encaps_is_fips203 Toy.S supported_512 (.generated h1) m
  obtain ⟨c, K, h3, -⟩ := h3 (Toy.seedOk _ _)
  obtain ⟨_, -, h4⟩ := C02_encaps_is_fips203 Toy.S supported_512 (.generated h1) m'
  obtain ⟨c', K', h4, -⟩ := h4 (Toy.seedOk _ _)
  exact ⟨dk, ek, _, _, h1, h3, h4, (C99_visible Toy.S supported_512 (by decide) (by decide) h1 h3 h4
    (Toy.noiseOk (by simp) _ _ _) (Toy.noiseOk (by simp) _ _ _)).1⟩

end MlKem

namespace XWing
open Rust MlKem Fips203 XWingSpec

variable [Build]
variable (S : Sha3) (X : X25519)

/-- **C99** X-Wing: from one state of the generator two recipients get the same X25519 part. The second one can compute the
ML-KEM part of the first one's exchange, so that all that still protects it is the value X25519(e, pk_x). -/
theorem C99_xwing {sk' : DecapsulationKey} {pk pk' : EncapsulationKey}
    (hpk' : sk'.encapsulation_key S X = .ok pk') {rng : Rng} {s t t' : rng.State} {ct ct' ss ss'}
    (henc : pk.encapsulate S X rng s = .ok ((ct, ss), t)) (henc' : pk'.encapsulate S X rng s = .ok ((ct', ss'), t')) :
    ct.ct_x = ct'.ct_x ∧
    ∃ m e s1 sk_m, rng.fill_bytes 32 s = .ok (m, s1) ∧ rng.fill_bytes 32 s1 = .ok (e, t) ∧ t' = t ∧
      Kem.generate_deterministic S MlKem768Params (seedD S sk'.as_bytes.toList) (seedZ S sk'.as_bytes.toList)
        = .ok (sk_m, pk'.pk_m) ∧
      (NoiseOk S ML_KEM_768 (seedD S sk'.as_bytes.toList).toList m.toList
          (encapsRandomness S (pkM S sk'.as_bytes.toList) m.toList) →
        ∃ ss_m, otherRecipient S sk_m ct'.ct_m pk.pk_m = .ok (ct.ct_m, ss_m) ∧
          ss = Combiner S ss_m.toList (X.x25519 e pk.pk_x).toList ct'.ct_x.toList pk.pk_x.toList) := by
  obtain ⟨m, s1, e, s2, ct_m, ss_m, h1, h2, h3, h4⟩ := ((C40_randomness S X rng s).2 _ _).1 henc
  obtain ⟨m', s1', e', s2', ct_m', ss_m', g1, g2, g3, g4⟩ := ((C40_randomness S X rng s).2 _ _).1 henc'
  simp only [Prod.mk.injEq] at h4 g4
  obtain ⟨⟨rfl, rfl⟩, rfl⟩ := h4
  obtain ⟨⟨rfl, rfl⟩, rfl⟩ := g4
  have q := Res.ok.inj (h1.symm.trans g1)
  simp only [Prod.mk.injEq] at q
  obtain ⟨rfl, rfl⟩ := q
  have q := Res.ok.inj (h2.symm.trans g2)
  simp only [Prod.mk.injEq] at q
  obtain ⟨rfl, rfl⟩ := q
  obtain ⟨sk_m, h5, -⟩ := derived_shape S X hpk'
  refine ⟨rfl, m, e, s1, sk_m, h1, h2, rfl, h5, fun hn => ⟨ss_m, ?_, rfl⟩⟩
  exact (C99_same_message S supported_768 (by decide) (by decide) h5 g3 hn pk.pk_m).trans h3

/-- Two toy recipients, in every state -/
example (sk sk' : DecapsulationKey) (s : Nat) : ∃ pk pk' ct ss ct' ss' t t' sk_m ss_m,
    sk.encapsulation_key Toy.S toyX = .ok pk ∧ sk'.encapsulation_key Toy.S toyX = .ok pk' ∧
    pk.encapsulate Toy.S toyX Toy.rng s = .ok ((ct, ss), t) ∧ pk'.encapsulate Toy.S toyX Toy.rng s = .ok ((ct', ss'), t') ∧
    ct.ct_x = ct'.ct_x ∧ otherRecipient Toy.S (P' := MlKem768Params) sk_m ct'.ct_m pk.pk_m = .ok (ct.ct_m, ss_m) := by
  obtain ⟨pk, b, h1, -⟩ := C38_keygen Toy.S toyX toyX_base sk (Toy.seedOk _ _)
  obtain ⟨pk', b', h1', -⟩ := C38_keygen Toy.S toyX toyX_base sk' (Toy.seedOk _ _)
  obtain ⟨pb, -, h3⟩ := C38_encaps Toy.S toyX (.derived h1) (rng := Toy.rng) (s := s) rfl rfl
  obtain ⟨ct, ss, cb, h4, -⟩ := h3 (Toy.seedOk _ _)
  obtain ⟨pb', -, h3'⟩ := C38_encaps Toy.S toyX (.derived h1') (rng := Toy.rng) (s := s) rfl rfl
  obtain ⟨ct', ss', cb', h4', -⟩ := h3' (Toy.seedOk _ _)
  obtain ⟨h5, m, e, s1, sk_m, -, -, -, -, h6⟩ := C99_xwing Toy.S toyX h1' h4 h4'
  obtain ⟨ss_m, h6, -⟩ := h6 (Toy.noiseOk (by simp) _ _ _)
  exact ⟨pk, pk', ct, ss, ct', ss', _, _, sk_m, ss_m, h1, h1', h4, h4', h5, h6⟩

end XWing

namespace Dhkem
open Rust MlKem

variable (C : DhGroup)

/-- **C99** The Diffie-Hellman adapters: from one state of the generator every recipient gets the same ciphertext. -/
theorem C99_dhkem (rng : Rng) (s : rng.State) (pk pk' : DhEncapsulator C.Public) {r t r' t'} :
    (EcdhKem.encapsulate C pk rng s = .ok (r, t) → EcdhKem.encapsulate C pk' rng s = .ok (r', t') → r.1 = r'.1 ∧ t = t') ∧
    (X25519Kem.encapsulate C pk rng s = .ok (r, t) → X25519Kem.encapsulate C pk' rng s = .ok (r', t') →
      r.1 = r'.1 ∧ t = t') := by
  have key : EcdhKem.encapsulate C pk rng s = .ok (r, t) → EcdhKem.encapsulate C pk' rng s = .ok (r', t') →
      r.1 = r'.1 ∧ t = t' := by
    unfold EcdhKem.encapsulate
    intro h h'
    rw [Res.bind_eq_ok] at h h'
    obtain ⟨⟨sk, s1⟩, h1, h⟩ := h
    obtain ⟨⟨sk', s1'⟩, h1', h'⟩ := h'
    have e := Res.ok.inj (h1.symm.trans h1')
    simp only [Prod.mk.injEq] at e
    obtain ⟨rfl, rfl⟩ := e
    simp only [Res.ok.injEq, Prod.mk.injEq] at h h'
    obtain ⟨rfl, rfl⟩ := h
    obtain ⟨rfl, rfl⟩ := h'
    exact ⟨rfl, rfl⟩
  exact ⟨key, key⟩

/-- The integers modulo 2^64 under addition stand in for a group: two recipients, one ciphertext, two secrets. -/
example (s : Nat) : ∃ (C : DhGroup) (pk pk' : DhEncapsulator C.Public) (r r' : C.Public × C.Shared) (t : Nat),
    EcdhKem.encapsulate C pk Toy.rng s = .ok (r, t) ∧ EcdhKem.encapsulate C pk' Toy.rng s = .ok (r', t) ∧
    r.1 = r'.1 ∧ r.2 ≠ r'.2 :=
  ⟨⟨UInt64, UInt64, UInt64, fun _ s => .ok (1, s), id, (· * ·)⟩, ⟨2⟩, ⟨3⟩, (1, 2), (1, 3), s, rfl, rfl, rfl, by decide⟩

end Dhkem
