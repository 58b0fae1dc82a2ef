import Verif.Spec.Collision
import Verif.Props.KemKeys
import Verif.Props.XWing
/-! C54-C56: what a shared key says about the public key, the ciphertext and the message. -/
namespace MlKem
open Rust Fips203

variable [Build]
variable (S : Sha3) {P : ParameterSet} {p : Params}

/-- What decapsulation returns, in terms of the encoding of the key -/
theorem decaps_value (h : Supported P p) {dk : DecapsulationKey P} (hk : DkReach S dk) {db}
    (hdb : dk.as_bytes = .ok db) {c : P.EncodedCiphertext} {K} (hdec : dk.decapsulate S c = .ok K) :
    ∃ m', dk.dk_pke.decrypt c = .ok m' ∧
      (c.toList = KPKE_Encrypt S p (dkEk p db.toList) m'.toList
          (Fips203.G S (m'.toList ++ dkH p db.toList)).2 ∧
          K.toList = (Fips203.G S (m'.toList ++ dkH p db.toList)).1 ∨
        K.toList = Fips203.J S (dkZ p db.toList ++ c.toList)) := by
  obtain ⟨db', m', c', K', h1, h2, h3, h4, h5⟩ := decaps_struct S h hk hdec
  obtain rfl := Res.ok.inj (hdb.symm.trans h1)
  refine ⟨m', h2, ?_⟩
  obtain ⟨e1, e2⟩ := C50_extracted_encaps S h hk hdb h3
  by_cases e : c = c'
  · left
    rw [h4 e, ← e2, e]
    exact ⟨rfl, e1⟩
  · exact .inr (h5 e)

omit [Build] in
theorem append_inj32 {a b : B32} {x y : List UInt8} (h : a.toList ++ x = b.toList ++ y) :
    a = b ∧ x = y := by
  obtain ⟨h1, h2⟩ := List.append_inj h (by rw [Vector.length_toList, Vector.length_toList])
  exact ⟨bytes_ext h1, h2⟩

/-- **C54** A shared key binds the public key and the ciphertext. If two decapsulation keys, whose
stored hash is that of their encapsulation key, return the same shared key for `c₀` and `c₁`, then
the encapsulation keys (or, if both ciphertexts are rejected, the rejection secrets) and the
ciphertexts are equal, or the values at hand are a collision of one of the hash functions. -/
theorem C54_key_binds (h : Supported P p) {dk₀ dk₁ : DecapsulationKey P} (hk₀ : DkReach S dk₀)
    (hk₁ : DkReach S dk₁) {b₀ b₁} (hb₀ : dk₀.as_bytes = .ok b₀) (hb₁ : dk₁.as_bytes = .ok b₁)
    (hv₀ : dkH p b₀.toList = Fips203.H S (dkEk p b₀.toList))
    (hv₁ : dkH p b₁.toList = Fips203.H S (dkEk p b₁.toList))
    {c₀ c₁ : P.EncodedCiphertext} {K} (hd₀ : dk₀.decapsulate S c₀ = .ok K)
    (hd₁ : dk₁.decapsulate S c₁ = .ok K) :
    ∃ m₀ m₁, dk₀.dk_pke.decrypt c₀ = .ok m₀ ∧ dk₁.dk_pke.decrypt c₁ = .ok m₁ ∧
      ((dkEk p b₀.toList = dkEk p b₁.toList ∧ c₀ = c₁) ∨
       (dkZ p b₀.toList = dkZ p b₁.toList ∧ c₀ = c₁) ∨
       CollideG S (m₀.toList ++ dkH p b₀.toList) (m₁.toList ++ dkH p b₁.toList) ∨
       CollideH S (dkEk p b₀.toList) (dkEk p b₁.toList) ∨
       CollideJ S (dkZ p b₀.toList ++ c₀.toList) (dkZ p b₁.toList ++ c₁.toList) ∨
       CollideGJ S (m₀.toList ++ dkH p b₀.toList) (dkZ p b₁.toList ++ c₁.toList) ∨
       CollideGJ S (m₁.toList ++ dkH p b₁.toList) (dkZ p b₀.toList ++ c₀.toList)) := by
  obtain ⟨m₀, h2, h3⟩ := decaps_value S h hk₀ hb₀ hd₀
  obtain ⟨m₁, g2, g3⟩ := decaps_value S h hk₁ hb₁ hd₁
  refine ⟨m₀, m₁, h2, g2, ?_⟩
  rcases h3 with ⟨hc, hK⟩ | hK <;> rcases g3 with ⟨gc, gK⟩ | gK
  · by_cases e : m₀.toList ++ dkH p b₀.toList = m₁.toList ++ dkH p b₁.toList
    · obtain ⟨rfl, e2⟩ := append_inj32 e
      by_cases e3 : dkEk p b₀.toList = dkEk p b₁.toList
      · left
        refine ⟨e3, bytes_ext ?_⟩
        rw [hc, gc, e3, e2]
      · right; right; right; left
        exact ⟨e3, by rw [← hv₀, ← hv₁, e2]⟩
    · right; right; left
      exact ⟨e, hK.symm.trans gK⟩
  · right; right; right; right; right; left
    exact hK.symm.trans gK
  · right; right; right; right; right; right
    exact gK.symm.trans hK
  · by_cases e : dkZ p b₀.toList ++ c₀.toList = dkZ p b₁.toList ++ c₁.toList
    · right; left
      have hl := congrArg List.length e
      rw [List.length_append, List.length_append, Vector.length_toList, Vector.length_toList] at hl
      obtain ⟨e1, e2⟩ := List.append_inj e (by omega)
      exact ⟨e1, bytes_ext e2⟩
    · right; right; right; right; left
      exact ⟨e, hK.symm.trans gK⟩

/-- **C54** for generated keys, whose stored hash is always right -/
theorem C54_generated (h : Supported P p) {d₀ z₀ d₁ z₁ : B32} {dk₀ dk₁ : DecapsulationKey P}
    {ek₀ ek₁ : EncapsulationKey P} (hg₀ : Kem.generate_deterministic S P d₀ z₀ = .ok (dk₀, ek₀))
    (hg₁ : Kem.generate_deterministic S P d₁ z₁ = .ok (dk₁, ek₁))
    {c₀ c₁ : P.EncodedCiphertext} {K} (hd₀ : dk₀.decapsulate S c₀ = .ok K)
    (hd₁ : dk₁.decapsulate S c₁ = .ok K) :
    ∃ m₀ m₁ e₀ e₁, dk₀.dk_pke.decrypt c₀ = .ok m₀ ∧ dk₁.dk_pke.decrypt c₁ = .ok m₁ ∧
      ek₀.as_bytes = .ok e₀ ∧ ek₁.as_bytes = .ok e₁ ∧
      ((ek₀ = ek₁ ∧ c₀ = c₁) ∨ (z₀ = z₁ ∧ c₀ = c₁) ∨
       CollideG S (m₀.toList ++ Fips203.H S e₀.toList) (m₁.toList ++ Fips203.H S e₁.toList) ∨
       CollideH S e₀.toList e₁.toList ∨
       CollideJ S (z₀.toList ++ c₀.toList) (z₁.toList ++ c₁.toList) ∨
       CollideGJ S (m₀.toList ++ Fips203.H S e₀.toList) (z₁.toList ++ c₁.toList) ∨
       CollideGJ S (m₁.toList ++ Fips203.H S e₁.toList) (z₀.toList ++ c₀.toList)) := by
  obtain ⟨-, e₀, b₀, he₀, hb₀, h1, h2, h3⟩ := C16_generated_consistent S h hg₀
  obtain ⟨-, e₁, b₁, he₁, hb₁, g1, g2, g3⟩ := C16_generated_consistent S h hg₁
  obtain ⟨m₀, m₁, a, b, hor⟩ := C54_key_binds S h (.generated hg₀) (.generated hg₁) hb₀ hb₁
    (by rw [h1, h2]) (by rw [g1, g2]) hd₀ hd₁
  refine ⟨m₀, m₁, e₀, e₁, a, b, he₀, he₁, ?_⟩
  rw [h1, h2, h3, g1, g2, g3] at hor
  refine hor.imp (fun hh => ⟨?_, hh.2⟩) (Or.imp_left fun hh => ⟨bytes_ext hh.1, hh.2⟩)
  rw [C17_ek_eq_iff S h (.generated hg₀) (.generated hg₁), he₀, he₁, bytes_ext hh.1]

/-- **C54** The condition on the stored hash is needed: from any two key pairs one can build a
decapsulation key that parses, holds the second encapsulation key, and for every message yields the
shared key of the first. -/
theorem C54_needs_hash (h : Supported P p) {d₀ z₀ d₁ z₁ : B32} {dk₀ dk₁ : DecapsulationKey P}
    {ek₀ ek₁ : EncapsulationKey P} (hg₀ : Kem.generate_deterministic S P d₀ z₀ = .ok (dk₀, ek₀))
    (hg₁ : Kem.generate_deterministic S P d₁ z₁ = .ok (dk₁, ek₁)) :
    ∃ (b : P.EncodedDecapsulationKey) (dk : DecapsulationKey P), DecapsulationKey.from_bytes b = .ok dk ∧
      dk.encapsulation_key.as_bytes = ek₁.as_bytes ∧
      ∀ m, ∃ c₀ c K, ek₀.encapsulate_deterministic S m = .ok (c₀, K) ∧
        dk.encapsulation_key.encapsulate_deterministic S m = .ok (c, K) := by
  obtain rfl := h.eq
  obtain ⟨hs₀, rfl, rfl⟩ := (generate_ok_iff S h.valid).1 hg₀
  obtain ⟨hs₁, rfl, rfl⟩ := (generate_ok_iff S h.valid).1 hg₁
  have e₀ : SeedOk S P.K (bytesOf (n := 32) (seeds S P.toParams d₀.toList).1).toList := by
    rw [toList_bytesOf (seeds_length S _ _).1]; exact hs₀
  have e₁ : SeedOk S P.K (bytesOf (n := 32) (seeds S P.toParams d₁.toList).1).toList := by
    rw [toList_bytesOf (seeds_length S _ _).1]; exact hs₁
  refine ⟨_, _, dk_from_dkBytes (genS S P.toParams (seeds S P.toParams d₁.toList).2)
    (genT S P.toParams (seeds S P.toParams d₁.toList).1 (seeds S P.toParams d₁.toList).2)
    (bytesOf (seeds S P.toParams d₁.toList).1) (genEk S P d₀).h z₁, ?_, fun m => ?_⟩
  · exact (kem_ek_as_bytes _ _ _).trans (kem_ek_as_bytes _ _ _).symm
  · exact ⟨_, _, _, encaps_ok S h.valid _ _ _ m e₀, encaps_ok S h.valid _ _ _ m e₁⟩

/-! ### C55 -/

/-- **C55** Different messages give different ciphertexts, if the noise of each is in its window. -/
theorem C55_ciphertexts_differ (h : Supported P p) (hdu : p.du ≤ 11) (hdv : p.dv ≤ 11) {d z m m' : B32}
    {dk : DecapsulationKey P} {ek c K c' K'} (hgen : Kem.generate_deterministic S P d z = .ok (dk, ek))
    (h1 : ek.encapsulate_deterministic S m = .ok (c, K))
    (h2 : ek.encapsulate_deterministic S m' = .ok (c', K'))
    (hn : NoiseOk S p d.toList m.toList
      (encapsRandomness S (KeyGen_internal S p d.toList z.toList).1 m.toList))
    (hn' : NoiseOk S p d.toList m'.toList
      (encapsRandomness S (KeyGen_internal S p d.toList z.toList).1 m'.toList))
    (hne : m ≠ m') : c ≠ c' := by
  obtain rfl := h.eq
  obtain ⟨hs, rfl, rfl⟩ := (generate_ok_iff S h.valid).1 hgen
  have hs' : SeedOk S P.K (bytesOf (n := 32) (seeds S P.toParams d.toList).1).toList := by
    rw [toList_bytesOf (seeds_length S _ _).1]; exact hs
  unfold genEk at h1 h2
  dsimp only at h1 h2
  rw [encaps_ok S h.valid _ _ _ _ hs', Hash_toList, ekBytes_gen] at h1 h2
  have h1 := (Prod.mk.inj (Res.ok.inj h1)).1
  have h2 := (Prod.mk.inj (Res.ok.inj h2)).1
  rintro rfl
  have e := congrArg Vector.toList (h1.trans h2.symm)
  rw [toList_bytesOf (encT_length S P.toParams _ _ _ _),
    toList_bytesOf (encT_length S P.toParams _ _ _ _), toList_bytesOf (seeds_length S _ _).1] at e
  have a := (decT_honest_iff S P.toParams h.du_pos hdu h.dv_pos hdv d.toList m.toList _
    m.length_toList).2 hn
  have b := (decT_honest_iff S P.toParams h.du_pos hdu h.dv_pos hdv d.toList m'.toList _
    m'.length_toList).2 hn'
  have ea : ∀ m : B32, encapsRandomness S (KeyGen_internal S P.toParams d.toList z.toList).1 m.toList
    = (Fips203.G S (m.toList ++ Fips203.H S (KPKE_KeyGen S P.toParams d.toList).1)).2 := fun _ => rfl
  rw [ea] at a b
  rw [e] at a
  exact hne (bytes_ext (a.symm.trans b))

/-- **C55** Different messages, to whichever keys, give different shared keys unless the values at hand
are a collision; so do equal messages to different keys. -/
theorem C55_keys_differ (h : Supported P p) {ek ek' : EncapsulationKey P} (hk : EkReach S ek)
    (hk' : EkReach S ek') {m m' : B32} {c c' K} (h1 : ek.encapsulate_deterministic S m = .ok (c, K))
    (h2 : ek'.encapsulate_deterministic S m' = .ok (c', K)) :
    ∃ e e', ek.as_bytes = .ok e ∧ ek'.as_bytes = .ok e' ∧
      ((m = m' ∧ ek = ek') ∨
       CollideG S (m.toList ++ Fips203.H S e.toList) (m'.toList ++ Fips203.H S e'.toList) ∨
       CollideH S e.toList e'.toList) := by
  obtain ⟨e, he, h3⟩ := C02_encaps_is_fips203 S h hk m
  obtain ⟨e', he', h3'⟩ := C02_encaps_is_fips203 S h hk' m'
  obtain ⟨eb, hb, hi⟩ := (C04_encaps_outcome S h (.reach hk) m).2
  obtain ⟨eb', hb', hi'⟩ := (C04_encaps_outcome S h (.reach hk') m').2
  obtain rfl := Res.ok.inj (he.symm.trans hb)
  obtain rfl := Res.ok.inj (he'.symm.trans hb')
  obtain ⟨_, _, e1, e2, -⟩ := h3 (hi.1 ⟨_, h1⟩)
  obtain ⟨_, _, e1', e2', -⟩ := h3' (hi'.1 ⟨_, h2⟩)
  obtain ⟨-, rfl⟩ := Prod.mk.inj (Res.ok.inj (h1.symm.trans e1))
  obtain ⟨-, rfl⟩ := Prod.mk.inj (Res.ok.inj (h2.symm.trans e1'))
  refine ⟨e, e', he, he', ?_⟩
  by_cases g : m.toList ++ Fips203.H S e.toList = m'.toList ++ Fips203.H S e'.toList
  · obtain ⟨rfl, g2⟩ := append_inj32 g
    by_cases g3 : e.toList = e'.toList
    · left
      exact ⟨rfl, (C17_ek_eq_iff S h hk hk').2 (by rw [he, he', bytes_ext g3])⟩
    · exact .inr (.inr ⟨g3, g2⟩)
  · exact .inr (.inl ⟨g, e2.symm.trans e2'⟩)

/-! ### The hypotheses are satisfiable -/

/-- C54 and C55 with the toy primitives: key pairs from any seeds, decapsulating honest ciphertexts of
the same message. -/
example (d z m : B32) : ∃ dk ek c K, Kem.generate_deterministic Toy.S MlKem768Params d z = .ok (dk, ek) ∧
    ek.encapsulate_deterministic Toy.S m = .ok (c, K) ∧ dk.decapsulate Toy.S c = .ok K := by
  obtain ⟨⟨dk, ek⟩, hg⟩ := (C04_generate_outcome Toy.S supported_768 d z).2.2 (Toy.seedOk _ _)
  obtain ⟨eb, -, hi⟩ := (C04_encaps_outcome Toy.S supported_768 (.reach (.generated hg)) m).2
  obtain ⟨⟨c, K⟩, he⟩ := hi.2 (Toy.seedOk _ _)
  exact ⟨dk, ek, c, K, hg, he, C05_decaps_encaps Toy.S supported_768 (by decide) (by decide) hg he
    (Toy.noiseOk (by simp) _ _ _)⟩

/-- With the toy primitives the ciphertexts of any two different messages differ. -/
example (d z m m' : B32) (hne : m ≠ m') : ∃ dk ek c K c' K',
    Kem.generate_deterministic Toy.S MlKem768Params d z = .ok (dk, ek) ∧
    ek.encapsulate_deterministic Toy.S m = .ok (c, K) ∧
    ek.encapsulate_deterministic Toy.S m' = .ok (c', K') ∧ c ≠ c' := by
  obtain ⟨⟨dk, ek⟩, hg⟩ := (C04_generate_outcome Toy.S supported_768 d z).2.2 (Toy.seedOk _ _)
  obtain ⟨eb, -, hi⟩ := (C04_encaps_outcome Toy.S supported_768 (.reach (.generated hg)) m).2
  obtain ⟨⟨c, K⟩, he⟩ := hi.2 (Toy.seedOk _ _)
  obtain ⟨eb', -, hi'⟩ := (C04_encaps_outcome Toy.S supported_768 (.reach (.generated hg)) m').2
  obtain ⟨⟨c', K'⟩, he'⟩ := hi'.2 (Toy.seedOk _ _)
  exact ⟨dk, ek, c, K, c', K', hg, he, he', C55_ciphertexts_differ Toy.S supported_768 (by decide)
    (by decide) hg he he' (Toy.noiseOk (by simp) _ _ _) (Toy.noiseOk (by simp) _ _ _) hne⟩

end MlKem

namespace XWing
open Rust MlKem Fips203 XWingSpec

variable [Build] (S : Sha3) (X : X25519)

theorem decapsulate_inv {sk : DecapsulationKey} {ct : Ciphertext} {ss}
    (h : sk.decapsulate S X ct = .ok ss) :
    ∃ (dk : MlKem.DecapsulationKey MlKem768Params) (pk : EncapsulationKey) (K : B32),
      Kem.generate_deterministic S MlKem768Params (seedD S sk.sk.toList) (seedZ S sk.sk.toList)
        = .ok (dk, pk.pk_m) ∧ sk.encapsulation_key S X = .ok pk ∧
      dk.decapsulate S ct.ct_m = .ok K ∧
      ss = combiner S K (X.x25519 (secretX S sk.sk.toList) ct.ct_x) ct.ct_x pk.pk_x := by
  unfold DecapsulationKey.decapsulate at h
  rw [expand_key_eq, bind_assoc, Res.bind_eq_ok] at h
  obtain ⟨⟨dk, pk_m⟩, hg, h⟩ := h
  rw [Res.ok_bind] at h
  dsimp only at h
  rw [Res.bind_eq_ok] at h
  obtain ⟨K, hK, h⟩ := h
  refine ⟨dk, ⟨pk_m, X.publicKey (secretX S sk.sk.toList)⟩, K, hg, ?_, hK, (Res.ok.inj h).symm⟩
  unfold DecapsulationKey.encapsulation_key
  rw [expand_key_eq, hg]
  rfl

/-- **C56** An X-Wing shared secret binds the public key and the ciphertext. If two secret keys return
the same shared secret for `ct₀` and `ct₁`, then the ciphertexts are equal, and so are the public keys
(or, if both ML-KEM parts are rejected, the X25519 public keys and the ML-KEM rejection secrets), or the
values at hand are a collision of one of the hash functions. -/
theorem C56_secret_binds {sk₀ sk₁ : DecapsulationKey} {ct₀ ct₁ : Ciphertext} {ss}
    (h₀ : sk₀.decapsulate S X ct₀ = .ok ss) (h₁ : sk₁.decapsulate S X ct₁ = .ok ss) :
    ∃ (dk₀ dk₁ : MlKem.DecapsulationKey MlKem768Params) (pk₀ pk₁ : EncapsulationKey)
        (e₀ e₁ : Bytes 1184) (K₀ K₁ m₀ m₁ : B32),
      Kem.generate_deterministic S MlKem768Params (seedD S sk₀.sk.toList) (seedZ S sk₀.sk.toList)
        = .ok (dk₀, pk₀.pk_m) ∧
      Kem.generate_deterministic S MlKem768Params (seedD S sk₁.sk.toList) (seedZ S sk₁.sk.toList)
        = .ok (dk₁, pk₁.pk_m) ∧
      sk₀.encapsulation_key S X = .ok pk₀ ∧ sk₁.encapsulation_key S X = .ok pk₁ ∧
      pk₀.pk_m.as_bytes = .ok e₀ ∧ pk₁.pk_m.as_bytes = .ok e₁ ∧
      dk₀.decapsulate S ct₀.ct_m = .ok K₀ ∧ dk₁.decapsulate S ct₁.ct_m = .ok K₁ ∧
      dk₀.dk_pke.decrypt ct₀.ct_m = .ok m₀ ∧ dk₁.dk_pke.decrypt ct₁.ct_m = .ok m₁ ∧
      ((pk₀ = pk₁ ∧ ct₀ = ct₁) ∨
       (seedZ S sk₀.sk.toList = seedZ S sk₁.sk.toList ∧ pk₀.pk_x = pk₁.pk_x ∧ ct₀ = ct₁) ∨
       CollideH S
        (combinerInput K₀.toList (X.x25519 (secretX S sk₀.sk.toList) ct₀.ct_x).toList ct₀.ct_x.toList
          pk₀.pk_x.toList)
        (combinerInput K₁.toList (X.x25519 (secretX S sk₁.sk.toList) ct₁.ct_x).toList ct₁.ct_x.toList
          pk₁.pk_x.toList) ∨
       CollideG S (m₀.toList ++ Fips203.H S e₀.toList) (m₁.toList ++ Fips203.H S e₁.toList) ∨
       CollideH S e₀.toList e₁.toList ∨
       CollideJ S ((seedZ S sk₀.sk.toList).toList ++ ct₀.ct_m.toList)
        ((seedZ S sk₁.sk.toList).toList ++ ct₁.ct_m.toList) ∨
       CollideGJ S (m₀.toList ++ Fips203.H S e₀.toList)
        ((seedZ S sk₁.sk.toList).toList ++ ct₁.ct_m.toList) ∨
       CollideGJ S (m₁.toList ++ Fips203.H S e₁.toList)
        ((seedZ S sk₀.sk.toList).toList ++ ct₀.ct_m.toList)) := by
  obtain ⟨dk₀, pk₀, K₀, hg₀, hp₀, hd₀, rfl⟩ := decapsulate_inv S X h₀
  obtain ⟨dk₁, pk₁, K₁, hg₁, hp₁, hd₁, hss⟩ := decapsulate_inv S X h₁
  obtain ⟨-, e₀, b₀, he₀, hb₀, -⟩ := C16_generated_consistent S supported_768 hg₀
  obtain ⟨-, e₁, b₁, he₁, hb₁, -⟩ := C16_generated_consistent S supported_768 hg₁
  obtain ⟨m₀, hm₀, -⟩ := decaps_value S supported_768 (.generated hg₀) hb₀ hd₀
  obtain ⟨m₁, hm₁, -⟩ := decaps_value S supported_768 (.generated hg₁) hb₁ hd₁
  refine ⟨dk₀, dk₁, pk₀, pk₁, e₀, e₁, K₀, K₁, m₀, m₁, hg₀, hg₁, hp₀, hp₁, he₀, he₁, hd₀, hd₁, hm₀,
    hm₁, ?_⟩
  by_cases e : K₀ = K₁ ∧ X.x25519 (secretX S sk₀.sk.toList) ct₀.ct_x
      = X.x25519 (secretX S sk₁.sk.toList) ct₁.ct_x ∧ ct₀.ct_x = ct₁.ct_x ∧ pk₀.pk_x = pk₁.pk_x
  · obtain ⟨rfl, -, hcx, hpx⟩ := e
    obtain ⟨m₀', m₁', e₀', e₁', g1, g2, g3, g4, g⟩ := C54_generated S supported_768 hg₀ hg₁ hd₀ hd₁
    obtain rfl := Res.ok.inj (hm₀.symm.trans g1)
    obtain rfl := Res.ok.inj (hm₁.symm.trans g2)
    obtain rfl := Res.ok.inj (he₀.symm.trans g3)
    obtain rfl := Res.ok.inj (he₁.symm.trans g4)
    have hct : ct₀.ct_m = ct₁.ct_m → ct₀ = ct₁ := fun hm => by
      cases ct₀; cases ct₁; simp only [Ciphertext.mk.injEq]; exact ⟨hm, hcx⟩
    have hpk : pk₀.pk_m = pk₁.pk_m → pk₀ = pk₁ := fun hm => by
      cases pk₀; cases pk₁; simp only [EncapsulationKey.mk.injEq]; exact ⟨hm, hpx⟩
    rcases g with g | g | g
    · exact .inl ⟨hpk g.1, hct g.2⟩
    · exact .inr (.inl ⟨g.1, hpx, hct g.2⟩)
    · exact .inr (.inr (.inr g))
  · exact .inr (.inr (.inl (C42_collision S e hss)))

/-- With the toy primitives every secret key decapsulates every ciphertext. -/
example (sk : DecapsulationKey) (ct : Ciphertext) : ∃ ss, sk.decapsulate Toy.S toyX ct = .ok ss :=
  (C43_implicit_rejection Toy.S toyX sk ct).2.1.2 (Toy.seedOk _ _)

end XWing
