import Verif.Proofs.Layout
import Verif.Props.Toy
/-!
C01-C04: the public ML-KEM operations compute the FIPS 203 algorithms, never panic, and return
exactly when the matrix seed can be expanded.
-/
namespace MlKem
open Rust Fips203

variable [Build]

variable (S : Sha3) {P : ParameterSet} {p : Params}

omit [Build] in
/-- **C01**-**C03** are about the parameter sets of the standard: the three parameter sets of the crate
have the parameters of FIPS 203, table 2, and meet the hypothesis `Supported` of the theorems below. -/
theorem C01_parameter_sets : Supported MlKem512Params ML_KEM_512 ∧ Supported MlKem768Params ML_KEM_768 ∧
    Supported MlKem1024Params ML_KEM_1024 :=
  ⟨supported_512, supported_768, supported_1024⟩

/-- **C01** `generate_deterministic(d, z)` returns keys whose encodings are those of
`ML-KEM.KeyGen_internal(d, z)`. The hypothesis says that the rejection sampling of the standard
itself succeeds for the seed ρ. -/
theorem C01_keygen_is_fips203 (h : Supported P p) (d z : B32)
    (hs : SeedOk S p.k (seeds S p d.toList).1) :
    ∃ dk ek eb db,
      Kem.generate_deterministic S P d z = .ok (dk, ek) ∧
      ek.as_bytes = .ok eb ∧ dk.as_bytes = .ok db ∧
      eb.toList = (KeyGen_internal S p d.toList z.toList).1 ∧
      db.toList = (KeyGen_internal S p d.toList z.toList).2 := by
  obtain rfl := h.eq
  refine ⟨_, _, _, _, kem_generate_ok S h.valid d z hs, genEk_as_bytes S d, genDk_as_bytes S d z, ?_, ?_⟩
  · apply toList_bytesOf
    show (KPKE_KeyGen S P.toParams d.toList).1.length = _
    rw [KPKE_KeyGen_eq, List.length_append, enc12_length, (seeds_length S _ _).1]
  · apply toList_bytesOf
    have := dkBytes_length (P := P) (genS S P.toParams (seeds S P.toParams d.toList).2)
      (genT S P.toParams (seeds S P.toParams d.toList).1 (seeds S P.toParams d.toList).2)
      (bytesOf (seeds S P.toParams d.toList).1)
      (Hash S (ekBytes (P := P) (genT S P.toParams (seeds S P.toParams d.toList).1
        (seeds S P.toParams d.toList).2) (bytesOf (seeds S P.toParams d.toList).1))) z
    rw [dkBytes, ekBytes_gen, Hash_toList] at this
    show ((KPKE_KeyGen S P.toParams d.toList).2 ++ (KPKE_KeyGen S P.toParams d.toList).1
      ++ Fips203.H S (KPKE_KeyGen S P.toParams d.toList).1 ++ z.toList).length = _
    refine this.trans ?_
    show _ = 12 * 32 * P.K + (12 * 32 * P.K + 32) + 32 + 32
    omega

/-- C01 applies to the toy primitives, with any seeds, for ML-KEM-768. -/
example (d z : B32) : ∃ dk ek, Kem.generate_deterministic Toy.S MlKem768Params d z = .ok (dk, ek) := by
  obtain ⟨dk, ek, _, _, h, _⟩ := C01_keygen_is_fips203 Toy.S supported_768 d z (Toy.seedOk _ _)
  exact ⟨dk, ek, h⟩

/-- **C02** For a key that was generated or parsed from arbitrary bytes,
`encapsulate_deterministic(m)` returns the `(K, c)` of `ML-KEM.Encaps_internal` on the key's
encoding. -/
theorem C02_encaps_is_fips203 (h : Supported P p) {ek : EncapsulationKey P} (hk : EkReach S ek)
    (m : B32) :
    ∃ eb, ek.as_bytes = .ok eb ∧ (SeedOk S p.k (ekRho p eb.toList) →
      ∃ c K, ek.encapsulate_deterministic S m = .ok (c, K) ∧
        K.toList = (Encaps_internal S p eb.toList m.toList).1 ∧
        c.toList = (Encaps_internal S p eb.toList m.toList).2) := by
  obtain rfl := h.eq
  obtain ⟨t, rho, rfl⟩ := hk.shape S h.valid
  have hlen : (ekBytes t rho).length = P.EncryptionKeySize := by
    rw [ekBytes_length]
  refine ⟨_, kem_ek_as_bytes t rho _, fun hs => ?_⟩
  rw [toList_bytesOf hlen] at hs ⊢
  unfold ekRho at hs
  have hs' : SeedOk S P.K rho.toList := by rw [← ekBytes_take (t := t)]; exact hs
  have hE : KPKE_Encrypt S P.toParams (ekBytes t rho) = encT S P.toParams t rho.toList := by
    funext m r; exact KPKE_Encrypt_enc12 S P.toParams t rho.toList m r rho.length_toList
  refine ⟨_, _, encaps_ok S h.valid t rho _ m hs', ?_, ?_⟩
  · rw [toList_bytesOf (G_length S _).1, Hash_toList]
    rfl
  · rw [toList_bytesOf (encT_length S P.toParams t _ _ _), Hash_toList, Encaps_internal]
    dsimp only
    rw [hE]

/-- A key parsed from a canonical encoding (one that passes the modulus check of FIPS 203)
encapsulates as the standard prescribes for that encoding. -/
theorem C02_encaps_of_canonical (h : Supported P p) (b : P.EncodedEncryptionKey)
    (hc : EkCanonical p b.toList) (hs : SeedOk S p.k (ekRho p b.toList)) (m : B32) :
    ∃ ek c K, EncapsulationKey.from_bytes S b = .ok ek ∧
      ek.encapsulate_deterministic S m = .ok (c, K) ∧
      K.toList = (Encaps_internal S p b.toList m.toList).1 ∧
      c.toList = (Encaps_internal S p b.toList m.toList).2 := by
  obtain rfl := h.eq
  obtain ⟨t, rho, ht, hr, hf⟩ := kem_ek_from_bytes S b
  have hlen : b.toList.length = 384 * P.K + 32 := by
    rw [Vector.length_toList]
  have he : ekBytes t rho = b.toList := by
    rw [ekBytes, (enc12_eq_iff (by omega) ht).2 hc, hr,
      List.take_of_length_le (l := b.toList.drop _) (by rw [List.length_drop]; omega), List.take_append_drop]
  obtain ⟨eb, h1, h2⟩ := C02_encaps_is_fips203 S h (EkReach.parsed hf) m
  rw [kem_ek_as_bytes, he, bytesOf_toList] at h1
  obtain rfl := Res.ok.inj h1
  obtain ⟨c, K, h3⟩ := h2 hs
  exact ⟨_, c, K, hf, h3⟩

example (d z m : B32) : ∃ ek : EncapsulationKey MlKem512Params, EkReach Toy.S ek ∧
    ∃ c K, ek.encapsulate_deterministic Toy.S m = .ok (c, K) := by
  obtain ⟨dk, ek, _, _, h, _⟩ := C01_keygen_is_fips203 Toy.S supported_512 d z (Toy.seedOk _ _)
  obtain ⟨eb, _, hh⟩ := C02_encaps_is_fips203 Toy.S supported_512 (.generated h) m
  obtain ⟨c, K, hc, _⟩ := hh (Toy.seedOk _ _)
  exact ⟨ek, .generated h, c, K, hc⟩

/-- **C03** Decapsulation with a key parsed from any byte string is `ML-KEM.Decaps_internal` on
that byte string, for every ciphertext. -/
theorem C03_decaps_is_fips203 (h : Supported P p) (b : P.EncodedDecapsulationKey)
    (c : P.EncodedCiphertext) :
    ∃ dk, DecapsulationKey.from_bytes b = .ok dk ∧
      (SeedOk S p.k (ekRho p (dkEk p b.toList)) →
        ∃ K, dk.decapsulate S c = .ok K ∧ K.toList = Decaps_internal S p b.toList c.toList) := by
  obtain rfl := h.eq
  obtain ⟨s, t, rho, hh, z, hs, ht, hr, eh, ez, hf⟩ := kem_dk_from_bytes b
  refine ⟨_, hf, fun hseed => ?_⟩
  have hseed' : SeedOk S P.K rho.toList := by rw [hr]; exact hseed
  refine ⟨_, decaps_ok S h.valid s t rho hh z hseed' c, ?_⟩
  rw [toList_bytesOf (decapsT_length _ _ _ _ _ _ _ _), Decaps_parsed S hs ht hr eh ez]

/-- The same for every key a caller can hold, on the key's own encoding -/
theorem C03_decaps_of_held (h : Supported P p) {dk : DecapsulationKey P} (hk : DkReach S dk)
    (c : P.EncodedCiphertext) :
    ∃ db, dk.as_bytes = .ok db ∧ (SeedOk S p.k (ekRho p (dkEk p db.toList)) →
      ∃ K, dk.decapsulate S c = .ok K ∧ K.toList = Decaps_internal S p db.toList c.toList) := by
  obtain ⟨s, t, rho, hh, z, rfl⟩ := hk.shape S (by obtain rfl := h.eq; exact h.valid)
  refine ⟨_, kem_dk_as_bytes s t rho hh z, fun hseed => ?_⟩
  obtain ⟨dk', h1, h2⟩ := C03_decaps_is_fips203 S h (bytesOf (dkBytes s t rho hh z)) c
  rw [dk_from_dkBytes] at h1
  obtain rfl := Res.ok.inj h1
  exact h2 hseed

example (b : MlKem1024Params.EncodedDecapsulationKey) (c : MlKem1024Params.EncodedCiphertext) :
    ∃ dk K, DecapsulationKey.from_bytes b = .ok dk ∧ dk.decapsulate Toy.S c = .ok K := by
  obtain ⟨dk, h1, h2⟩ := C03_decaps_is_fips203 Toy.S supported_1024 b c
  obtain ⟨K, h3, _⟩ := h2 (Toy.seedOk _ _)
  exact ⟨dk, K, h1, h3⟩

/-! ### C04: outcomes -/

theorem genSeed_iff (h : Supported P p) (d z : B32) :
    (∃ r, Kem.generate_deterministic S P d z = .ok r) ↔ SeedOk S p.k (seeds S p d.toList).1 := by
  obtain rfl := h.eq
  constructor
  · rintro ⟨⟨dk, ek⟩, hr⟩
    exact ((generate_ok_iff S h.valid).1 hr).1
  · intro hs
    exact ⟨_, kem_generate_ok S h.valid d z hs⟩

/-- **C04** Key generation returns if the seed can be expanded, loops otherwise, and never
panics. -/
theorem C04_generate_outcome (h : Supported P p) (d z : B32) :
    Kem.generate_deterministic S P d z ≠ .panic ∧
    ((∃ r, Kem.generate_deterministic S P d z = .ok r) ↔ SeedOk S p.k (seeds S p d.toList).1) := by
  refine ⟨?_, genSeed_iff S h d z⟩
  obtain rfl := h.eq
  by_cases hs : SeedOk S P.K (seeds S P.toParams d.toList).1
  · rw [kem_generate_ok S h.valid d z hs]; nofun
  · rw [kem_generate_div S P d z hs]; nofun

/-- **C04** Parsing never fails, whatever the bytes. -/
theorem C04_parse_total (e : P.EncodedEncryptionKey) (b : P.EncodedDecapsulationKey) :
    (∃ ek, EncapsulationKey.from_bytes S e = .ok ek) ∧ (∃ dk, DecapsulationKey.from_bytes b = .ok dk) := by
  obtain ⟨_, _, _, _, h1⟩ := kem_ek_from_bytes S e
  obtain ⟨_, _, _, _, _, _, _, _, _, _, h2⟩ := kem_dk_from_bytes b
  exact ⟨⟨_, h1⟩, ⟨_, h2⟩⟩

/-- **C04** Serialising any key a caller can hold succeeds. -/
theorem C04_serialise_total (h : Supported P p) {ek : EncapsulationKey P} {dk : DecapsulationKey P}
    (hek : EkHeld S ek) (hdk : DkReach S dk) :
    (∃ eb, ek.as_bytes = .ok eb) ∧ (∃ db, dk.as_bytes = .ok db) := by
  obtain rfl := h.eq
  obtain ⟨t, rho, hh, rfl⟩ := hek.shape S h.valid
  obtain ⟨s, t', rho', hh', z, rfl⟩ := hdk.shape S h.valid
  exact ⟨⟨_, kem_ek_as_bytes _ _ _⟩, ⟨_, kem_dk_as_bytes _ _ _ _ _⟩⟩

/-- **C04** Encapsulation to any key a caller can hold never panics, and returns exactly if the
seed in the key can be expanded. -/
theorem C04_encaps_outcome (h : Supported P p) {ek : EncapsulationKey P} (hk : EkHeld S ek) (m : B32) :
    ek.encapsulate_deterministic S m ≠ .panic ∧
    ∃ eb, ek.as_bytes = .ok eb ∧ ((∃ r, ek.encapsulate_deterministic S m = .ok r) ↔
      SeedOk S p.k (ekRho p eb.toList)) := by
  obtain rfl := h.eq
  obtain ⟨t, rho, hh, rfl⟩ := hk.shape S h.valid
  have hlen : (ekBytes t rho).length = P.EncryptionKeySize := by
    rw [ekBytes_length]
  have hrho : ekRho P.toParams (ekBytes t rho) = rho.toList := ekBytes_take
  by_cases hs : SeedOk S P.K rho.toList
  · rw [encaps_ok S h.valid t rho hh m hs]
    refine ⟨by nofun, _, kem_ek_as_bytes t rho hh, ?_⟩
    rw [toList_bytesOf hlen, hrho]
    exact ⟨fun _ => hs, fun _ => ⟨_, rfl⟩⟩
  · rw [encaps_div S h.valid t rho hh m hs]
    refine ⟨by nofun, _, kem_ek_as_bytes t rho hh, ?_⟩
    rw [toList_bytesOf hlen, hrho]
    exact ⟨fun ⟨_, hr⟩ => (nomatch hr), fun h' => absurd h' hs⟩

/-- **C04** Decapsulation of any ciphertext with any key a caller can hold never panics, and
returns exactly if the seed in the key can be expanded; it does not depend on the ciphertext. -/
theorem C04_decaps_outcome (h : Supported P p) {dk : DecapsulationKey P} (hk : DkReach S dk)
    (c : P.EncodedCiphertext) :
    dk.decapsulate S c ≠ .panic ∧
    ∃ db, dk.as_bytes = .ok db ∧ ((∃ K, dk.decapsulate S c = .ok K) ↔
      SeedOk S p.k (ekRho p (dkEk p db.toList))) := by
  obtain rfl := h.eq
  obtain ⟨s, t, rho, hh, z, rfl⟩ := hk.shape S h.valid
  have hlen : (dkBytes s t rho hh z).length = P.DecapsulationKeySize := by
    rw [dkBytes_length]; show _ = 12 * 32 * P.K + (12 * 32 * P.K + 32) + 32 + 32; omega
  have hek : dkEk P.toParams (dkBytes s t rho hh z) = ekBytes t rho := by
    unfold dkEk
    rw [dkBytes, List.append_assoc, List.append_assoc, List.drop_left' (enc12_length s),
      List.take_left' (ekBytes_length t rho)]
  have hrho : ekRho P.toParams (ekBytes t rho) = rho.toList := ekBytes_take
  by_cases hs : SeedOk S P.K rho.toList
  · rw [decaps_ok S h.valid s t rho hh z hs c]
    refine ⟨by nofun, _, kem_dk_as_bytes s t rho hh z, ?_⟩
    rw [toList_bytesOf hlen, hek, hrho]
    exact ⟨fun _ => hs, fun _ => ⟨_, rfl⟩⟩
  · rw [decaps_div S h.valid s t rho hh z hs c]
    refine ⟨by nofun, _, kem_dk_as_bytes s t rho hh z, ?_⟩
    rw [toList_bytesOf hlen, hek, hrho]
    exact ⟨fun ⟨_, hr⟩ => (nomatch hr), fun h' => absurd h' hs⟩

/-- Both outcomes of C04 occur: the toy primitives always return; with a constant `0xff` XOF the
rejection sampler never accepts and key generation does not return. -/
example (d z : B32) :
    (∃ r, Kem.generate_deterministic Toy.S MlKem768Params d z = .ok r) ∧
    Kem.generate_deterministic { Toy.S with shake128 := fun _ _ => 255 } MlKem768Params d z = .div := by
  constructor
  · exact (C04_generate_outcome Toy.S supported_768 d z).2.2 (Toy.seedOk _ _)
  · apply kem_generate_div
    intro hs
    obtain ⟨N, hN⟩ := hs 0 0 (by decide) (by decide)
    have : ∀ n, ¬ (candidate (fun _ => (255 : UInt8)) n < 3329) := by
      intro n
      unfold candidate
      split <;> simp
    have h0 : Nat.count (fun n => candidate (fun _ => (255 : UInt8)) n < 3329) N = 0 := by
      rw [Nat.count_eq_card_filter_range, Finset.card_eq_zero, Finset.filter_eq_empty_iff]
      intro n _; exact this n
    have hN' : 256 ≤ Nat.count (fun n => candidate (fun _ => (255 : UInt8)) n < 3329) N := hN
    omega

end MlKem
