import Verif.Props.KemSpec
/-!
C05-C10 and C49: agreement of encapsulation and decapsulation, exact failure condition, implicit
rejection.
-/
namespace MlKem
open Rust Fips203

variable [Build]

variable (S : Sha3) {P : ParameterSet} {p : Params}

/-- The encryption randomness of an encapsulation of `m` to `ek`: the second half of
`G(m ‖ H(ek))` (FIPS 203, Algorithm 17) -/
def encapsRandomness (ek m : List UInt8) : List UInt8 := (Fips203.G S (m ++ Fips203.H S ek)).2

/-- **C05** If key generation and encapsulation return and the noise is in its window, then
decapsulation returns the encapsulated key. -/
theorem C05_decaps_encaps (h : Supported P p) (hdu : p.du ≤ 11) (hdv : p.dv ≤ 11) {d z m : B32}
    {dk : DecapsulationKey P} {ek c K} (hgen : Kem.generate_deterministic S P d z = .ok (dk, ek))
    (henc : ek.encapsulate_deterministic S m = .ok (c, K))
    (hnoise : NoiseOk S p d.toList m.toList
      (encapsRandomness S (KeyGen_internal S p d.toList z.toList).1 m.toList)) :
    dk.decapsulate S c = .ok K := by
  obtain rfl := h.eq
  obtain ⟨hs, rfl, rfl⟩ := (generate_ok_iff S h.valid).1 hgen
  have hs' : SeedOk S P.K (bytesOf (n := 32) (seeds S P.toParams d.toList).1).toList := by
    rw [toList_bytesOf (seeds_length S _ _).1]; exact hs
  unfold genEk at henc
  dsimp only at henc
  rw [encaps_ok S h.valid _ _ _ m hs', Hash_toList, ekBytes_gen] at henc
  have henc := Prod.mk.inj (Res.ok.inj henc)
  obtain ⟨rfl, rfl⟩ := henc
  rw [genDk_eq, decaps_ok S h.valid _ _ _ _ _ hs', ekBytes_gen,
    toList_bytesOf (encT_length S P.toParams _ _ _ _), Hash_toList,
    toList_bytesOf (seeds_length S _ _).1]
  congr 2
  unfold decapsT
  dsimp only
  have hm := (decT_honest_iff S P.toParams h.du_pos hdu h.dv_pos hdv d.toList m.toList _
    m.length_toList).2 hnoise
  have e : encapsRandomness S (KeyGen_internal S P.toParams d.toList z.toList).1 m.toList
    = (Fips203.G S (m.toList ++ Fips203.H S (KPKE_KeyGen S P.toParams d.toList).1)).2 := rfl
  rw [e] at hm
  rw [hm, if_pos rfl]

/-- **C05**, with randomness: keys from `generate(rng)`, ciphertext from `encapsulate(rng)`, possibly
with different generators. The noise condition is only about the values actually drawn: `d` and
`z` by key generation, `m` by encapsulation. -/
theorem C05_decaps_encaps_rng (h : Supported P p) (hdu : p.du ≤ 11) (hdv : p.dv ≤ 11)
    {rng rng' : Rng} {s1 s2 : rng.State} {s3 s4 : rng'.State} {dk : DecapsulationKey P} {ek c K}
    (hgen : Kem.generate S P rng s1 = .ok ((dk, ek), s2))
    (henc : ek.encapsulate S rng' s3 = .ok ((c, K), s4)) :
    ∃ d z m s', rng.fill_bytes 32 s1 = .ok (d, s') ∧ rng.fill_bytes 32 s' = .ok (z, s2) ∧
      rng'.fill_bytes 32 s3 = .ok (m, s4) ∧
      (NoiseOk S p d.toList m.toList
        (encapsRandomness S (KeyGen_internal S p d.toList z.toList).1 m.toList) →
      dk.decapsulate S c = .ok K) := by
  obtain ⟨d, z, s', hd, hz, hg⟩ := sampled_generated S hgen
  unfold EncapsulationKey.encapsulate rand at henc
  rw [Res.bind_eq_ok] at henc
  obtain ⟨⟨m, s''⟩, hm, henc⟩ := henc
  rw [Res.bind_eq_ok] at henc
  obtain ⟨⟨c', K'⟩, he, heq⟩ := henc
  simp only [Res.ok.injEq, Prod.mk.injEq] at heq
  obtain ⟨⟨rfl, rfl⟩, rfl⟩ := heq
  exact ⟨d, z, m, s', hd, hz, hm, C05_decaps_encaps S h hdu hdv hg he⟩

/-- With the toy primitives everything agrees, for all seeds and messages. -/
example (d z m : B32) : ∃ (dk : DecapsulationKey MlKem768Params) (ek : EncapsulationKey MlKem768Params)
    (c : MlKem768Params.EncodedCiphertext) (K : SharedKey),
    Kem.generate_deterministic Toy.S MlKem768Params d z = .ok (dk, ek) ∧
    ek.encapsulate_deterministic Toy.S m = .ok (c, K) ∧ dk.decapsulate Toy.S c = .ok K := by
  obtain ⟨dk, ek, eb, db, h1, h2, -⟩ :=
    C01_keygen_is_fips203 Toy.S supported_768 d z (Toy.seedOk _ _)
  obtain ⟨eb', -, h3⟩ := C02_encaps_is_fips203 Toy.S supported_768 (.generated h1) m
  obtain ⟨c, K, h4, -⟩ := h3 (Toy.seedOk _ _)
  exact ⟨dk, ek, c, K, h1, h4, C05_decaps_encaps Toy.S supported_768 (by decide) (by decide) h1 h4
    (Toy.noiseOk (by simp) _ _ _)⟩

/-- **C06** Decrypting an honest encryption of `m` with any randomness `r`: bit `n` of the result
is bit `n` of `m` if and only if coefficient `n` of the noise is in its window. -/
theorem C06_decrypt_bit_iff (h : Supported P p) (hdu : p.du ≤ 11) (hdv : p.dv ≤ 11) {d z : B32}
    {dk : DecapsulationKey P} {ek} (hgen : Kem.generate_deterministic S P d z = .ok (dk, ek))
    (m r : B32) :
    ∃ c m', ek.ek_pke.encrypt S m r = .ok c ∧ dk.dk_pke.decrypt c = .ok m' ∧
      (∀ n : Fin 256, bit m'.toList n.val = bit m.toList n.val ↔
        InWindow (bit m.toList n.val) (noise S p d.toList m.toList r.toList n)) ∧
      (m' = m ↔ NoiseOk S p d.toList m.toList r.toList) := by
  obtain rfl := h.eq
  obtain ⟨hs, rfl, rfl⟩ := (generate_ok_iff S h.valid).1 hgen
  have hs' : SeedOk S P.K (bytesOf (n := 32) (seeds S P.toParams d.toList).1).toList := by
    rw [toList_bytesOf (seeds_length S _ _).1]; exact hs
  refine ⟨_, _, encrypt_ok S h.valid _ _ m r hs', decrypt_ok h.valid _ _, ?_, ?_⟩
  · intro n
    rw [toList_bytesOf (decT_length _ _ _), toList_bytesOf (encT_length S P.toParams _ _ _ _),
      toList_bytesOf (seeds_length S _ _).1]
    exact decT_bit S P.toParams h.du_pos hdu h.dv_pos hdv _ _ _ n
  · rw [← decT_honest_iff S P.toParams h.du_pos hdu h.dv_pos hdv d.toList m.toList _ m.length_toList,
      toList_bytesOf (encT_length S P.toParams _ _ _ _), toList_bytesOf (seeds_length S _ _).1]
    constructor
    · intro e
      have := congrArg Vector.toList e
      rwa [toList_bytesOf (decT_length _ _ _)] at this
    · intro e
      rw [e, bytesOf_toList]

/-- Both sides of the window occur: 832 is inside for a zero bit but not for a one bit. -/
example : InWindow false (832 : Zq) ∧ ¬ InWindow true (832 : Zq) ∧ InWindow true (-832 : Zq) ∧
    ¬ InWindow false (833 : Zq) ∧ ¬ InWindow false (-833 : Zq) := by
  unfold InWindow; decide

/-- **C49** If the secret and error vectors of the key are short enough, decapsulation agrees with
encapsulation for every message and all further randomness. -/
theorem C49_short_keys_never_fail (h : Supported P p) (hdu : p.du ≤ 11) (hdv : p.dv ≤ 11)
    {d z : B32} {dk : DecapsulationKey P} {ek}
    (hgen : Kem.generate_deterministic S P d z = .ok (dk, ek))
    (hshort : noiseBound S p d.toList ≤ 831) (m : B32) :
    ∃ c K, ek.encapsulate_deterministic S m = .ok (c, K) ∧ dk.decapsulate S c = .ok K := by
  obtain ⟨⟨c, K⟩, henc⟩ : ∃ r, ek.encapsulate_deterministic S m = .ok r := by
    obtain rfl := h.eq
    obtain ⟨hs, rfl, rfl⟩ := (generate_ok_iff S h.valid).1 hgen
    unfold genEk
    exact ⟨_, encaps_ok S h.valid _ _ _ m (by rw [toList_bytesOf (seeds_length S _ _).1]; exact hs)⟩
  exact ⟨c, K, henc, C05_decaps_encaps S h hdu hdv hgen henc
    (noiseOk_of_bound S p h.du_pos hdu h.dv_pos hdv _ _ _ hshort)⟩

example (d : B32) : noiseBound Toy.S ML_KEM_1024 d.toList ≤ 831 := Toy.noiseBound_le (by simp) _

/-! ### Implicit rejection -/

/-- What decapsulation computes, in terms of the API's own operations -/
theorem decaps_struct (h : Supported P p) {dk : DecapsulationKey P} (hk : DkReach S dk)
    {c : P.EncodedCiphertext} {K} (hdec : dk.decapsulate S c = .ok K) :
    ∃ db m' c' K', dk.as_bytes = .ok db ∧ dk.dk_pke.decrypt c = .ok m' ∧
      dk.encapsulation_key.encapsulate_deterministic S m' = .ok (c', K') ∧
      (c = c' → K = K') ∧ (c ≠ c' → K.toList = Fips203.J S (dkZ p db.toList ++ c.toList)) := by
  obtain rfl := h.eq
  obtain ⟨s, t, rho, hh, z, rfl⟩ := hk.shape S h.valid
  have hlen : (dkBytes s t rho hh z).length = P.DecapsulationKeySize := by
    rw [dkBytes_length]; show _ = 12 * 32 * P.K + (12 * 32 * P.K + 32) + 32 + 32; omega
  have hz : dkZ P.toParams (dkBytes s t rho hh z) = z.toList := by
    have l1 : (enc12 s).length = 384 * P.K := enc12_length s
    have l2 := ekBytes_length t rho
    have l3 : hh.toList.length = 32 := hh.length_toList
    have l4 : z.toList.length = 32 := z.length_toList
    unfold dkZ
    rw [dkBytes, List.drop_left' (by simp only [List.length_append]; omega),
      List.take_of_length_le (by omega)]
  by_cases hs : SeedOk S P.K rho.toList
  · rw [decaps_ok S h.valid s t rho hh z hs c] at hdec
    obtain rfl := Res.ok.inj hdec
    refine ⟨_, _, _, _, kem_dk_as_bytes s t rho hh z, decrypt_ok h.valid s c,
      encaps_ok S h.valid t rho hh _ hs, ?_, ?_⟩
    · intro hc
      congr 1
      unfold decapsT
      dsimp only
      have hc := congrArg Vector.toList hc
      rw [toList_bytesOf (encT_length S P.toParams _ _ _ _), toList_bytesOf (decT_length _ _ _)] at hc
      rw [if_pos hc, toList_bytesOf (decT_length _ _ _)]
    · intro hc
      rw [toList_bytesOf hlen, hz, toList_bytesOf (decapsT_length _ _ _ _ _ _ _ _)]
      unfold decapsT
      dsimp only
      rw [if_neg]
      intro e
      apply hc
      rw [toList_bytesOf (decT_length _ _ _), ← e, bytesOf_toList]
  · rw [decaps_div S h.valid s t rho hh z hs c] at hdec
    nomatch hdec

/-- **C07** For every ciphertext: decrypt it to `m'`, encapsulate `m'` again to `(c', K')` under
the embedded encapsulation key. The result is `K'` if `c' = c` and `SHAKE256(z ‖ c)` otherwise;
there is no error and no other outcome. -/
theorem C07_implicit_rejection (h : Supported P p) {dk : DecapsulationKey P} (hk : DkReach S dk)
    (c : P.EncodedCiphertext) {db} (hdb : dk.as_bytes = .ok db)
    (hs : SeedOk S p.k (ekRho p (dkEk p db.toList))) :
    ∃ m' c' K' K, dk.dk_pke.decrypt c = .ok m' ∧
      dk.encapsulation_key.encapsulate_deterministic S m' = .ok (c', K') ∧
      dk.decapsulate S c = .ok K ∧
      (c = c' → K = K') ∧ (c ≠ c' → K.toList = Fips203.J S (dkZ p db.toList ++ c.toList)) := by
  obtain ⟨-, db', hdb', hiff⟩ := C04_decaps_outcome S h hk c
  obtain rfl := Res.ok.inj (hdb.symm.trans hdb')
  obtain ⟨K, hK⟩ := hiff.2 hs
  obtain ⟨db', m', c', K', h1, h2, h3, h4, h5⟩ := decaps_struct S h hk hK
  obtain rfl := Res.ok.inj (hdb.symm.trans h1)
  exact ⟨m', c', K', K, h2, h3, hK, h4, h5⟩

/-- **C08** A ciphertext that no message encapsulates to is answered with `SHAKE256(z ‖ c)`. -/
theorem C08_foreign_ciphertext (h : Supported P p) {dk : DecapsulationKey P} (hk : DkReach S dk)
    {c : P.EncodedCiphertext} {db K} (hdb : dk.as_bytes = .ok db) (hdec : dk.decapsulate S c = .ok K)
    (hforeign : ∀ m K', dk.encapsulation_key.encapsulate_deterministic S m ≠ .ok (c, K')) :
    K.toList = Fips203.J S (dkZ p db.toList ++ c.toList) := by
  obtain ⟨db', m', c', K', h1, -, h3, -, h5⟩ := decaps_struct S h hk hdec
  obtain rfl := Res.ok.inj (hdb.symm.trans h1)
  apply h5
  rintro rfl
  exact hforeign _ _ h3

/-- **C09** Of two different ciphertexts that decrypt to the same message, at least one is
answered with its pseudorandom key. -/
theorem C09_at_most_one_accepted (h : Supported P p) {dk : DecapsulationKey P} (hk : DkReach S dk)
    {c₁ c₂ : P.EncodedCiphertext} {db K₁ K₂} (hdb : dk.as_bytes = .ok db)
    (h₁ : dk.decapsulate S c₁ = .ok K₁) (h₂ : dk.decapsulate S c₂ = .ok K₂) (hne : c₁ ≠ c₂)
    (hm : dk.dk_pke.decrypt c₁ = dk.dk_pke.decrypt c₂) :
    K₁.toList = Fips203.J S (dkZ p db.toList ++ c₁.toList) ∨
    K₂.toList = Fips203.J S (dkZ p db.toList ++ c₂.toList) := by
  obtain ⟨db', m1, c1', K1', a1, a2, a3, -, a5⟩ := decaps_struct S h hk h₁
  obtain rfl := Res.ok.inj (hdb.symm.trans a1)
  obtain ⟨db', m2, c2', K2', b1, b2, b3, -, b5⟩ := decaps_struct S h hk h₂
  obtain rfl := Res.ok.inj (hdb.symm.trans b1)
  rw [a2, b2] at hm
  obtain rfl := Res.ok.inj hm
  rw [a3] at b3
  obtain ⟨rfl, rfl⟩ := Prod.mk.inj (Res.ok.inj b3)
  by_cases e : c₁ = c1'
  · right
    apply b5
    rintro rfl
    exact hne e
  · exact .inl (a5 e)

/-! ### The rejecting case occurs for every key -/

omit [Build] in
/-- There is no injection from longer to shorter byte strings. -/
theorem no_injection {n m : Nat} (h : m < n) (f : Bytes n → Bytes m) : ¬ Function.Injective f := by
  intro hf
  let g : (Fin n → Fin 256) → (Fin m → Fin 256) := fun a i =>
    ⟨((f (Vector.ofFn fun j => UInt8.ofNat (a j).val))[i]).toNat, UInt8.toNat_lt _⟩
  have hlt : Fintype.card (Fin m → Fin 256) < Fintype.card (Fin n → Fin 256) := by
    rw [Fintype.card_fun, Fintype.card_fun, Fintype.card_fin, Fintype.card_fin, Fintype.card_fin]
    exact Nat.pow_lt_pow_right (by omega) h
  obtain ⟨a, b, hab, e⟩ := Fintype.exists_ne_map_eq_of_card_lt g hlt
  apply hab
  have e1 : f (Vector.ofFn fun j => UInt8.ofNat (a j).val)
      = f (Vector.ofFn fun j => UInt8.ofNat (b j).val) := by
    apply Vector.ext
    intro i hi
    have := congrArg Fin.val (congrFun e ⟨i, hi⟩)
    exact UInt8.toNat_inj.1 this
  have e2 := hf e1
  funext j
  have := congrArg (fun v : Bytes n => (v[j.val]'j.isLt).toNat) e2
  simp only [Vector.getElem_ofFn, UInt8.toNat_ofNat', Fin.eta] at this
  apply Fin.ext
  have h1 := (a j).isLt
  have h2 := (b j).isLt
  omega

/-- Every decapsulation key whose seed can be expanded rejects some ciphertext: the rejecting case
of C07, C08 and C09 is never vacuous. -/
theorem rejects_some (h : Supported P p) (hk1 : 1 ≤ p.k) {dk : DecapsulationKey P} (hk : DkReach S dk)
    {db} (hdb : dk.as_bytes = .ok db) (hs : SeedOk S p.k (ekRho p (dkEk p db.toList))) :
    ∃ c m' c' K', dk.dk_pke.decrypt c = .ok m' ∧
      dk.encapsulation_key.encapsulate_deterministic S m' = .ok (c', K') ∧ c ≠ c' := by
  by_contra hno
  push Not at hno
  have hall : ∀ c, ∃ m', dk.dk_pke.decrypt c = .ok m' ∧
      ∃ K', dk.encapsulation_key.encapsulate_deterministic S m' = .ok (c, K') := by
    intro c
    obtain ⟨m', c', K', K, h1, h2, -⟩ := C07_implicit_rejection S h hk c hdb hs
    obtain rfl := hno c m' c' K' h1 h2
    exact ⟨m', h1, K', h2⟩
  choose f hf g hg using hall
  refine no_injection (m := 32) ?_ f ?_
  · obtain rfl := h.eq
    have e1 : 32 ≤ P.Du * 32 * P.K := by
      have := Nat.mul_le_mul (Nat.mul_le_mul h.du_pos (le_refl 32)) hk1
      simpa using this
    have e2 : 32 ≤ P.Dv * 32 := by have := h.dv_pos; simp only at this; omega
    show 32 < P.Du * 32 * P.K + P.Dv * 32
    omega
  · intro c₁ c₂ e
    have h1 := hg c₁
    rw [e, hg c₂] at h1
    exact (Prod.mk.inj (Res.ok.inj h1)).1.symm

/-- Every key parsed from arbitrary bytes rejects some ciphertext (toy primitives);
generated keys accept every honest one (example of C05). -/
example (b : MlKem768Params.EncodedDecapsulationKey) : ∃ dk : DecapsulationKey MlKem768Params,
    DkReach Toy.S dk ∧ ∃ c m' c' K', dk.dk_pke.decrypt c = .ok m' ∧
      dk.encapsulation_key.encapsulate_deterministic Toy.S m' = .ok (c', K') ∧ c ≠ c' := by
  obtain ⟨dk, hdk⟩ := (C04_parse_total (P := MlKem768Params) Toy.S (Vector.replicate _ 0) b).2
  obtain ⟨db, hdb⟩ := (C04_decaps_outcome Toy.S supported_768 (.parsed hdk) (Vector.replicate _ 0)).2
  exact ⟨dk, .parsed hdk, rejects_some Toy.S supported_768 (by decide) (.parsed hdk) hdb.1 (Toy.seedOk _ _)⟩

/-- **C10** The mask is `0xff` for equal and `0x00` for different byte strings, without a panic. -/
theorem C10_mask {n : Nat} (a b : Bytes n) :
    (a = b → ctEqualMask a b = .ok 0xff) ∧ (a ≠ b → ctEqualMask a b = .ok 0x00) := by
  rw [ctEqualMask_ok]
  constructor
  · rintro rfl; simp
  · intro h; simp [h]

omit [Build] in
/-- **C10** With these masks the selection returns exactly one of the candidates. -/
theorem C10_select (a b : B32) : ctSelect 0xff a b = a ∧ ctSelect 0x00 a b = b :=
  ⟨ctSelect_ff a b, ctSelect_zero a b⟩

omit [Build] in
/-- Any other mask would mix the candidates: the two values above are the only ones that select. -/
theorem C10_select_only (mask : UInt8) (hm : ∀ a b : B32, ctSelect mask a b = a ∨ ctSelect mask a b = b) :
    mask = 0xff ∨ mask = 0x00 := by
  have h := hm (Vector.ofFn fun _ => 0xff) (Vector.ofFn fun _ => 0x00)
  have e : ∀ a b : B32, ctSelect mask a b = Vector.ofFn fun i =>
    Rust.or (Rust.and mask a[i]) (Rust.and (Rust.not mask) b[i]) := fun _ _ => rfl
  have table : ∀ x : Fin 256, Rust.or (Rust.and (UInt8.ofNat x.val) (0xff : UInt8))
      (Rust.and (Rust.not (UInt8.ofNat x.val)) 0x00) = UInt8.ofNat x.val := by decide +kernel
  have tm := table ⟨mask.toNat, mask.toNat_lt⟩
  simp only [UInt8.ofNat_toNat] at tm
  rcases h with h | h
  · left
    have := congrArg (fun v : B32 => v[0]) h
    simpa [e, tm] using this
  · right
    have := congrArg (fun v : B32 => v[0]) h
    simpa [e, tm] using this

example : ctEqualMask (#v[1, 2, 3] : Bytes 3) #v[1, 2, 3] = .ok 0xff ∧
    ctEqualMask (#v[1, 2, 3] : Bytes 3) #v[1, 2, 4] = .ok 0 :=
  ⟨(C10_mask _ _).1 rfl, (C10_mask _ _).2 (by decide)⟩

end MlKem
