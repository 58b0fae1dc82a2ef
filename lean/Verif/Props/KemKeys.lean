import Verif.Props.KemCorrect
/-!
C11-C20, C36, C50: serialisation, equality and sizes of ML-KEM keys, use of randomness.
-/
namespace MlKem
open Rust Fips203

variable [Build]

variable (S : Sha3) {P : ParameterSet} {p : Params}

/-- Serialise an encapsulation key and parse the bytes again -/
def EncapsulationKey.reparse (ek : EncapsulationKey P) : Res (EncapsulationKey P) := do
  EncapsulationKey.from_bytes S (← ek.as_bytes)

/-- Serialise a decapsulation key and parse the bytes again -/
def DecapsulationKey.reparse (dk : DecapsulationKey P) : Res (DecapsulationKey P) := do
  DecapsulationKey.from_bytes (← dk.as_bytes)

/-- **C11** Encapsulation keys that were generated or parsed survive serialisation. -/
theorem C11_ek_roundtrip (h : Supported P p) {ek : EncapsulationKey P} (hk : EkReach S ek) :
    ∃ b, ek.as_bytes = .ok b ∧ EncapsulationKey.from_bytes S b = .ok ek := by
  obtain rfl := h.eq
  obtain ⟨t, rho, rfl⟩ := hk.shape S h.valid
  exact ⟨_, kem_ek_as_bytes t rho _, ek_from_ekBytes S t rho⟩

/-- **C12** Decapsulation keys survive serialisation, so the parsed key also decapsulates every
ciphertext identically. -/
theorem C12_dk_roundtrip (h : Supported P p) {dk : DecapsulationKey P} (hk : DkReach S dk) :
    ∃ b, dk.as_bytes = .ok b ∧ DecapsulationKey.from_bytes b = .ok dk := by
  obtain rfl := h.eq
  obtain ⟨s, t, rho, hh, z, rfl⟩ := hk.shape S h.valid
  exact ⟨_, kem_dk_as_bytes s t rho hh z, dk_from_dkBytes s t rho hh z⟩

/-- Keys as in C11 and C12 exist: any seeds with the toy primitives, any bytes with any. -/
example (d z : B32) (b : MlKem768Params.EncodedEncryptionKey) :
    (∃ (dk : DecapsulationKey MlKem768Params) (ek : EncapsulationKey MlKem768Params),
      DkReach Toy.S dk ∧ EkReach Toy.S ek) ∧
    (∃ ek : EncapsulationKey MlKem768Params, EncapsulationKey.from_bytes S b = .ok ek ∧ EkReach S ek) := by
  constructor
  · obtain ⟨⟨dk, ek⟩, h⟩ := (C04_generate_outcome Toy.S supported_768 d z).2.2 (Toy.seedOk _ _)
    exact ⟨dk, ek, .generated h, .generated h⟩
  · obtain ⟨ek, h⟩ := (C04_parse_total (P := MlKem768Params) S b (Vector.replicate _ 0)).1
    exact ⟨ek, h, .parsed h⟩

/-! ### C13: canonicalisation -/

/-- **C13** Parsing and serialising an encapsulation key reduces every 12-bit field modulo 3329,
keeps the 32 bytes of the seed, is the identity exactly on canonical encodings, and is
idempotent. -/
theorem C13_ek_canonical (h : Supported P p) (b : P.EncodedEncryptionKey) :
    ∃ ek eb, EncapsulationKey.from_bytes S b = .ok ek ∧ ek.as_bytes = .ok eb ∧
      (∀ n, n < 256 * p.k → field12 eb.toList n = field12 b.toList n % 3329) ∧
      eb.toList.drop (384 * p.k) = b.toList.drop (384 * p.k) ∧
      (eb = b ↔ EkCanonical p b.toList) ∧
      EncapsulationKey.from_bytes S eb = .ok ek := by
  obtain rfl := h.eq
  obtain ⟨t, rho, ht, hr, hf⟩ := kem_ek_from_bytes S b
  have hlen : b.toList.length = 384 * P.K + 32 := by rw [Vector.length_toList]
  have hrho : rho.toList = b.toList.drop (384 * P.K) := by
    rw [hr, List.take_of_length_le (by rw [List.length_drop]; omega)]
  have l1 : (enc12 t).length = 384 * P.K := enc12_length t
  have hel : (bytesOf (ekBytes t rho) : P.EncodedEncryptionKey).toList = ekBytes t rho :=
    toList_bytesOf (ekBytes_length t rho)
  refine ⟨_, _, hf, kem_ek_as_bytes t rho _, ?_, ?_, ?_, ek_from_ekBytes S t rho⟩
  · intro n hn
    have hn : n < 256 * P.K := hn
    rw [hel, ekBytes, field12_append (by omega)]
    exact field12_enc12 ht hn
  · rw [hel, ekBytes]
    show List.drop (384 * P.K) _ = List.drop (384 * P.K) _
    rw [List.drop_left' l1, hrho]
  · have key := enc12_eq_iff (by omega) ht
    constructor
    · intro e
      apply key.1
      rw [← e, hel, ekBytes, List.take_left' l1]
    · intro hc
      have hc' := key.2 hc
      rw [ekBytes, hc', hrho, List.take_append_drop, bytesOf_toList]

/-- **C13** The same for decapsulation keys: both vectors are reduced field by field, and the seed,
`h` and `z` stay as they are. -/
theorem C13_dk_canonical (h : Supported P p) (b : P.EncodedDecapsulationKey) :
    ∃ dk db, DecapsulationKey.from_bytes b = .ok dk ∧ dk.as_bytes = .ok db ∧
      (∀ n, n < 256 * p.k → field12 db.toList n = field12 b.toList n % 3329) ∧
      (∀ n, n < 256 * p.k → field12 (db.toList.drop (384 * p.k)) n
        = field12 (b.toList.drop (384 * p.k)) n % 3329) ∧
      db.toList.drop (768 * p.k) = b.toList.drop (768 * p.k) ∧
      (db = b ↔ DkCanonical p b.toList) ∧
      DecapsulationKey.from_bytes db = .ok dk := by
  obtain rfl := h.eq
  obtain ⟨s, t, rho, hh, z, hs, ht, hr, eh, ez, hf⟩ := kem_dk_from_bytes b
  have hlen : b.toList.length = 768 * P.K + 96 := by
    rw [Vector.length_toList]
    show 12 * 32 * P.K + (12 * 32 * P.K + 32) + 32 + 32 = _; omega
  have l1 : (enc12 s).length = 384 * P.K := enc12_length s
  have l2 : (enc12 t).length = 384 * P.K := enc12_length t
  have lr : rho.toList.length = 32 := rho.length_toList
  have hel : (bytesOf (dkBytes s t rho hh z) : P.EncodedDecapsulationKey).toList
    = dkBytes s t rho hh z := toList_bytesOf dk_size
  -- the tail of the encoding
  have htail : rho.toList ++ (hh.toList ++ z.toList) = b.toList.drop (768 * P.K) := by
    have e1 : rho.toList = (b.toList.drop (768 * P.K)).take 32 := by
      have a1 : min 32 (384 * P.K + 32 - 384 * P.K) = 32 := by omega
      have a2 : 384 * P.K + 384 * P.K = 768 * P.K := by omega
      rw [hr, List.drop_take, List.drop_drop, List.take_take, a1, a2]
    have e2 : hh.toList = ((b.toList.drop (768 * P.K)).drop 32).take 32 := by
      rw [eh, List.drop_drop]
    have e3 : z.toList = ((b.toList.drop (768 * P.K)).drop 32).drop 32 := by
      rw [ez, List.drop_drop, List.drop_drop, List.take_of_length_le (by rw [List.length_drop]; omega)]
    rw [e2, e3, List.take_append_drop, e1, List.take_append_drop]
  have hsplit : dkBytes s t rho hh z = enc12 s ++ (enc12 t ++ (rho.toList ++ (hh.toList ++ z.toList))) := by
    simp only [dkBytes, ekBytes, List.append_assoc]
  have hblk : ∀ i, s i = ofNats (ByteDecode 12 (block 12 (b.toList.take (384 * P.K)) i.val)) := hs
  refine ⟨_, _, hf, kem_dk_as_bytes s t rho hh z, ?_, ?_, ?_, ?_, dk_from_dkBytes s t rho hh z⟩
  · intro n hn
    have hn : n < 256 * P.K := hn
    rw [hel, hsplit, field12_append (by omega), field12_enc12 hs hn,
      field12_take _ (by omega)]
  · intro n hn
    have hn : n < 256 * P.K := hn
    rw [hel, hsplit]
    show field12 (List.drop (384 * P.K) _) n = field12 (List.drop (384 * P.K) _) n % 3329
    rw [List.drop_left' l1, field12_append (by omega), field12_enc12 ht hn, field12_take _ (by omega)]
  · rw [hel, hsplit]
    show List.drop (768 * P.K) _ = List.drop (768 * P.K) _
    rw [← List.append_assoc, List.drop_left' (by rw [List.length_append]; omega), htail]
  · have key1 := enc12_eq_iff (B := b.toList.take (384 * P.K)) (by rw [List.length_take]; omega) hs
    have key2 := enc12_eq_iff (B := (b.toList.drop (384 * P.K)).take (384 * P.K + 32))
      (by rw [List.length_take, List.length_drop]; omega) ht
    rw [List.take_take, Nat.min_self] at key1
    rw [List.take_take, Nat.min_eq_left (by omega)] at key2
    have c1 : (∀ n, n < 256 * P.K → field12 (b.toList.take (384 * P.K)) n < 3329) ↔
        ∀ n, n < 256 * P.K → field12 b.toList n < 3329 := by
      constructor <;> intro hc n hn <;> have := hc n hn <;>
        rwa [field12_take _ (by omega)] at *
    have c2 : (∀ n, n < 256 * P.K →
          field12 ((b.toList.drop (384 * P.K)).take (384 * P.K + 32)) n < 3329) ↔
        ∀ n, n < 256 * P.K → field12 (b.toList.drop (384 * P.K)) n < 3329 := by
      constructor <;> intro hc n hn <;> have := hc n hn <;>
        rwa [field12_take _ (by omega)] at *
    rw [c1] at key1
    rw [c2] at key2
    have hdd : (b.toList.drop (384 * P.K)).drop (384 * P.K) = b.toList.drop (768 * P.K) := by
      rw [List.drop_drop]; congr 1; omega
    constructor
    · intro e
      have e' := congrArg Vector.toList e
      rw [hel, hsplit] at e'
      refine ⟨key1.1 ?_, key2.1 ?_⟩
      · rw [← e', List.take_left' l1]
      · rw [← e', List.drop_left' l1, List.take_left' l2]
    · rintro ⟨h1, h2⟩
      rw [hsplit, key1.2 h1, key2.2 h2, htail, ← hdd, List.take_append_drop, List.take_append_drop,
        bytesOf_toList]

/-- Both cases of C13 occur: the all-zero encoding is canonical, the all-ones encoding is not. -/
example : EkCanonical ML_KEM_512 (List.replicate 800 0) ∧ ¬ EkCanonical ML_KEM_512 (List.replicate 800 255) := by
  constructor
  · intro n _
    unfold field12
    rw [ofBits_congr (c := fun _ => false)]
    · decide
    · intro j _
      unfold bit
      rw [List.getD_eq_getElem?_getD, List.getElem?_replicate]
      split <;> simp
  · intro h
    have := h 0 (by decide)
    revert this
    decide

/-- **C14** The API accepts non-canonical keys; such a key encapsulates exactly as its canonical
re-encoding does. -/
theorem C14_noncanonical_behaves_canonical (h : Supported P p) (b : P.EncodedEncryptionKey) :
    ∃ ek b' ek', EncapsulationKey.from_bytes S b = .ok ek ∧
      EkCanonical p b'.toList ∧
      (∀ n, n < 256 * p.k → field12 b'.toList n = field12 b.toList n % 3329) ∧
      b'.toList.drop (384 * p.k) = b.toList.drop (384 * p.k) ∧
      EncapsulationKey.from_bytes S b' = .ok ek' ∧
      ∀ m, ek.encapsulate_deterministic S m = ek'.encapsulate_deterministic S m := by
  obtain ⟨ek, eb, h1, h2, h3, h4, -, h6⟩ := C13_ek_canonical S h b
  refine ⟨ek, eb, ek, h1, ?_, h3, h4, h6, fun _ => rfl⟩
  intro n hn
  rw [h3 n hn]
  exact Nat.mod_lt _ (by omega)

/-- **C15** Parsing keeps `h` and `z` as they are, whatever they are, and decapsulation uses that `h`
and that `z`. -/
theorem C15_stored_hash_used (h : Supported P p) (b : P.EncodedDecapsulationKey) :
    ∃ dk db, DecapsulationKey.from_bytes b = .ok dk ∧ dk.as_bytes = .ok db ∧
      dkH p db.toList = dkH p b.toList ∧ dkZ p db.toList = dkZ p b.toList ∧
      ∀ c K, dk.decapsulate S c = .ok K →
        ∃ m' r c', dk.dk_pke.decrypt c = .ok m' ∧
          r.toList = (Fips203.G S (m'.toList ++ dkH p b.toList)).2 ∧
          dk.encapsulation_key.ek_pke.encrypt S m' r = .ok c' ∧
          K.toList = if c = c' then (Fips203.G S (m'.toList ++ dkH p b.toList)).1
            else Fips203.J S (dkZ p b.toList ++ c.toList) := by
  obtain rfl := h.eq
  obtain ⟨s, t, rho, hh, z, hs, ht, hr, eh, ez, hf⟩ := kem_dk_from_bytes b
  have hel : (bytesOf (dkBytes s t rho hh z) : P.EncodedDecapsulationKey).toList
    = dkBytes s t rho hh z := toList_bytesOf dk_size
  have eh' : dkH P.toParams b.toList = hh.toList := eh.symm
  have ez' : dkZ P.toParams b.toList = z.toList := ez.symm
  refine ⟨_, _, hf, kem_dk_as_bytes s t rho hh z, ?_, ?_, ?_⟩
  · rw [hel, dkH_dkBytes, eh']
  · rw [hel, dkZ_dkBytes, ez']
  · intro c K hK
    rw [eh', ez']
    by_cases hseed : SeedOk S P.K rho.toList
    · rw [decaps_ok S h.valid s t rho hh z hseed c] at hK
      obtain rfl := Res.ok.inj hK
      refine ⟨_, bytesOf (Fips203.G S ((decT P.toParams s c.toList) ++ hh.toList)).2, _,
        decrypt_ok h.valid s c, ?_, encrypt_ok S h.valid t rho _ _ hseed, ?_⟩
      · rw [toList_bytesOf (G_length S _).2, toList_bytesOf (decT_length _ _ _)]
      · rw [toList_bytesOf (decapsT_length _ _ _ _ _ _ _ _), toList_bytesOf (decT_length _ _ _),
          toList_bytesOf (G_length S _).2]
        unfold decapsT
        dsimp only
        have hiff : (c = bytesOf (encT S P.toParams t rho.toList (decT P.toParams s c.toList)
              (Fips203.G S (decT P.toParams s c.toList ++ hh.toList)).2)) ↔
            (c.toList = encT S P.toParams t rho.toList (decT P.toParams s c.toList)
              (Fips203.G S (decT P.toParams s c.toList ++ hh.toList)).2) := by
          constructor
          · intro e
            have := congrArg Vector.toList e
            rwa [toList_bytesOf (encT_length S P.toParams _ _ _ _)] at this
          · intro e; rw [← e, bytesOf_toList]
        simp only [hiff]
    · rw [decaps_div S h.valid s t rho hh z hseed c] at hK
      nomatch hK

/-- **C16** A generated pair is consistent: the encapsulation key is the one in the decapsulation
key, and the encoding of the latter contains the encoding of the former, its hash, and `z`. -/
theorem C16_generated_consistent (h : Supported P p) {d z : B32} {dk : DecapsulationKey P} {ek}
    (hgen : Kem.generate_deterministic S P d z = .ok (dk, ek)) :
    ek = dk.encapsulation_key ∧ ∃ eb db, ek.as_bytes = .ok eb ∧ dk.as_bytes = .ok db ∧
      dkEk p db.toList = eb.toList ∧ dkH p db.toList = Fips203.H S eb.toList ∧
      dkZ p db.toList = z.toList := by
  obtain rfl := h.eq
  obtain ⟨hs, rfl, rfl⟩ := (generate_ok_iff S h.valid).1 hgen
  refine ⟨rfl, ?_⟩
  rw [genDk_eq]
  unfold genEk
  refine ⟨_, _, kem_ek_as_bytes _ _ _, kem_dk_as_bytes _ _ _ _ _, ?_, ?_, ?_⟩
  · rw [toList_bytesOf dk_size, dkEk_dkBytes, toList_bytesOf (ekBytes_length _ _)]
  · rw [toList_bytesOf dk_size, dkH_dkBytes, toList_bytesOf (ekBytes_length _ _), Hash_toList]
  · rw [toList_bytesOf dk_size, dkZ_dkBytes]

/-- **C17** Keys are equal exactly if their encodings are. -/
theorem C17_ek_eq_iff (h : Supported P p) {ek ek' : EncapsulationKey P} (hk : EkReach S ek)
    (hk' : EkReach S ek') : ek = ek' ↔ ek.as_bytes = ek'.as_bytes := by
  constructor
  · rintro rfl; rfl
  · intro e
    obtain ⟨b, h1, h2⟩ := C11_ek_roundtrip S h hk
    obtain ⟨b', h1', h2'⟩ := C11_ek_roundtrip S h hk'
    rw [h1, h1'] at e
    obtain rfl := Res.ok.inj e
    exact Res.ok.inj (h2.symm.trans h2')

/-- **C17** for decapsulation keys -/
theorem C17_dk_eq_iff (h : Supported P p) {dk dk' : DecapsulationKey P} (hk : DkReach S dk)
    (hk' : DkReach S dk') : dk = dk' ↔ dk.as_bytes = dk'.as_bytes := by
  constructor
  · rintro rfl; rfl
  · intro e
    obtain ⟨b, h1, h2⟩ := C12_dk_roundtrip S h hk
    obtain ⟨b', h1', h2'⟩ := C12_dk_roundtrip S h hk'
    rw [h1, h1'] at e
    obtain rfl := Res.ok.inj e
    exact Res.ok.inj (h2.symm.trans h2')

/-! ### C50: keys taken out of a parsed decapsulation key -/

/-- **C50** An encapsulation key taken out of a decapsulation key survives serialisation exactly if
the stored hash is the hash of the (re-encoded) encapsulation key. -/
theorem C50_extracted_roundtrip_iff (h : Supported P p) {dk : DecapsulationKey P} (hk : DkReach S dk) :
    ∃ db, dk.as_bytes = .ok db ∧
      (dk.encapsulation_key.reparse S = .ok dk.encapsulation_key ↔
        dkH p db.toList = Fips203.H S (dkEk p db.toList)) := by
  obtain rfl := h.eq
  obtain ⟨s, t, rho, hh, z, rfl⟩ := hk.shape S h.valid
  refine ⟨_, kem_dk_as_bytes s t rho hh z, ?_⟩
  rw [toList_bytesOf dk_size, dkH_dkBytes, dkEk_dkBytes]
  have e1 : (dkOf s t rho hh z).encapsulation_key = ekOf t rho hh := rfl
  rw [e1, EncapsulationKey.reparse, kem_ek_as_bytes, Res.ok_bind, ek_from_ekBytes, ← Hash_toList]
  constructor
  · intro e
    have := congrArg EncapsulationKey.h (Res.ok.inj e)
    exact congrArg Vector.toList this.symm
  · intro e
    rw [bytes_ext e]

/-- **C50** Encapsulation to such a key derives the shared key from the stored hash. -/
theorem C50_extracted_encaps (h : Supported P p) {dk : DecapsulationKey P} (hk : DkReach S dk)
    {db} (hdb : dk.as_bytes = .ok db) {m c K}
    (henc : dk.encapsulation_key.encapsulate_deterministic S m = .ok (c, K)) :
    K.toList = (Fips203.G S (m.toList ++ dkH p db.toList)).1 ∧
    c.toList = KPKE_Encrypt S p (dkEk p db.toList) m.toList
      (Fips203.G S (m.toList ++ dkH p db.toList)).2 := by
  obtain rfl := h.eq
  obtain ⟨s, t, rho, hh, z, rfl⟩ := hk.shape S h.valid
  rw [kem_dk_as_bytes] at hdb
  obtain rfl := Res.ok.inj hdb
  rw [toList_bytesOf dk_size, dkH_dkBytes, dkEk_dkBytes]
  have e1 : (dkOf s t rho hh z).encapsulation_key = ekOf t rho hh := rfl
  rw [e1] at henc
  by_cases hs : SeedOk S P.K rho.toList
  · rw [encaps_ok S h.valid t rho hh m hs] at henc
    obtain ⟨rfl, rfl⟩ := Prod.mk.inj (Res.ok.inj henc)
    refine ⟨toList_bytesOf (G_length S _).1, ?_⟩
    rw [toList_bytesOf (encT_length S P.toParams _ _ _ _)]
    exact (KPKE_Encrypt_enc12 S P.toParams t rho.toList _ _ rho.length_toList).symm
  · rw [encaps_div S h.valid t rho hh m hs] at henc
    nomatch henc

/-- **C50** The hash is not checked: for all hash functions there is a byte string whose parsed key
yields an encapsulation key that is not equal to the parse of its own encoding, though both have
the same encoding. So C11 and C17 do not extend to such keys. -/
theorem C50_extracted_counterexample (h : Supported P p) :
    ∃ (b : P.EncodedDecapsulationKey) (dk : DecapsulationKey P) (ek : EncapsulationKey P),
      DecapsulationKey.from_bytes b = .ok dk ∧ EkReach S ek ∧
      ek.as_bytes = dk.encapsulation_key.as_bytes ∧ ek ≠ dk.encapsulation_key := by
  obtain rfl := h.eq
  let t : Fin P.K → Poly := fun _ => 0
  let rho : B32 := Vector.replicate 32 0
  let g := Hash S (ekBytes t rho)
  let hh : B32 := g.set 0 (g[0] + 1)
  refine ⟨_, _, _, dk_from_dkBytes t t rho hh rho, .parsed (ek_from_ekBytes S t rho), ?_, ?_⟩
  · have e1 : (dkOf t t rho hh rho).encapsulation_key = ekOf t rho hh := rfl
    rw [e1, kem_ek_as_bytes, kem_ek_as_bytes]
  · intro e
    have e' : g = hh := congrArg EncapsulationKey.h e
    have e0 : g[0] = hh[0] := by rw [← e']
    have e2 : hh[0] = g[0] + 1 := by simp [hh]
    rw [e2] at e0
    have := congrArg UInt8.toNat e0
    rw [UInt8.toNat_add] at this
    have h1 := (g[0]).toNat_lt
    have h2 : (1 : UInt8).toNat = 1 := rfl
    omega

/-! ### C18: sizes -/

omit [Build] in
/-- **C18** Sizes of the encodings for any parameter set -/
theorem C18_sizes (P : ParameterSet) :
    P.EncapsulationKeySize = 384 * P.K + 32 ∧ P.DecapsulationKeySize = 768 * P.K + 96 ∧
    P.CiphertextSize = 32 * (P.Du * P.K + P.Dv) := by
  refine ⟨rfl, ?_, ?_⟩
  · show 12 * 32 * P.K + (12 * 32 * P.K + 32) + 32 + 32 = _; omega
  · show P.Du * 32 * P.K + P.Dv * 32 = _
    ring

omit [Build] in
/-- **C18** FIPS 203, table 3 -/
theorem C18_table3 :
    (MlKem512Params.EncapsulationKeySize, MlKem512Params.DecapsulationKeySize,
      MlKem512Params.CiphertextSize) = (800, 1632, 768) ∧
    (MlKem768Params.EncapsulationKeySize, MlKem768Params.DecapsulationKeySize,
      MlKem768Params.CiphertextSize) = (1184, 2400, 1088) ∧
    (MlKem1024Params.EncapsulationKeySize, MlKem1024Params.DecapsulationKeySize,
      MlKem1024Params.CiphertextSize) = (1568, 3168, 1568) := by decide

/-! ### C19, C20: randomness -/

/-- **C19** `generate` draws 32 bytes for `d`, then 32 bytes for `z`, and does what
`generate_deterministic` does; if a draw fails, it fails in the same way. -/
theorem C19_generate_randomness (P : ParameterSet) (rng : Rng) (s : rng.State) :
    (∀ d s1 z s2, rng.fill_bytes 32 s = .ok (d, s1) → rng.fill_bytes 32 s1 = .ok (z, s2) →
      (∀ r, Kem.generate S P rng s = .ok r ↔
        ∃ kp, Kem.generate_deterministic S P d z = .ok kp ∧ r = (kp, s2)) ∧
      (Kem.generate S P rng s = .panic ↔ Kem.generate_deterministic S P d z = .panic)) ∧
    (rng.fill_bytes 32 s = .panic → Kem.generate S P rng s = .panic) ∧
    (∀ d s1, rng.fill_bytes 32 s = .ok (d, s1) → rng.fill_bytes 32 s1 = .panic →
      Kem.generate S P rng s = .panic) := by
  rw [generate_rng_eq]
  refine ⟨?_, ?_, ?_⟩
  · intro d s1 z s2 h1 h2
    rw [h1, Res.ok_bind]
    dsimp only
    rw [h2, Res.ok_bind]
    dsimp only
    constructor
    · intro r
      rw [Res.bind_eq_ok]
      constructor
      · rintro ⟨kp, hk, e⟩; exact ⟨kp, hk, (Res.ok.inj e).symm⟩
      · rintro ⟨kp, hk, rfl⟩; exact ⟨kp, hk, rfl⟩
    · cases Kem.generate_deterministic S P d z <;> simp
  · intro h1; rw [h1]; rfl
  · intro d s1 h1 h2
    rw [h1, Res.ok_bind]
    dsimp only
    rw [h2]; rfl

/-- **C20** `encapsulate` draws 32 bytes for `m` and does what `encapsulate_deterministic` does. -/
theorem C20_encapsulate_randomness (ek : EncapsulationKey P) (rng : Rng) (s : rng.State) :
    (∀ m s', rng.fill_bytes 32 s = .ok (m, s') →
      (∀ r, ek.encapsulate S rng s = .ok r ↔
        ∃ ck, ek.encapsulate_deterministic S m = .ok ck ∧ r = (ck, s')) ∧
      (ek.encapsulate S rng s = .panic ↔ ek.encapsulate_deterministic S m = .panic)) ∧
    (rng.fill_bytes 32 s = .panic → ek.encapsulate S rng s = .panic) := by
  unfold EncapsulationKey.encapsulate EncapsulationKey.encapsulate_deterministic rand
  constructor
  · intro m s' h1
    rw [h1, Res.ok_bind]
    dsimp only
    constructor
    · intro r
      rw [Res.bind_eq_ok]
      constructor
      · rintro ⟨kp, hk, e⟩; exact ⟨kp, hk, (Res.ok.inj e).symm⟩
      · rintro ⟨kp, hk, rfl⟩; exact ⟨kp, hk, rfl⟩
    · cases EncapsulationKey.encapsulate_deterministic_inner S ek m <;> simp
  · intro h1; rw [h1]; rfl

/-- The toy generator hands out different bytes at each draw, so the order matters. -/
example : ∃ d s1 z s2, Toy.rng.fill_bytes 32 (5 : Nat) = .ok (d, s1) ∧
    Toy.rng.fill_bytes 32 s1 = .ok (z, s2) ∧ d ≠ z := by
  refine ⟨_, _, _, _, rfl, rfl, ?_⟩
  intro e
  have := congrArg (fun v : B32 => v[0]) e
  revert this
  simp

/-! ### C36: sequences of serialisation steps -/

/-- One serialise-and-parse step on one key of a pair: `true` for the decapsulation key -/
def reparseStep (kp : DecapsulationKey P × EncapsulationKey P) (which : Bool) :
    Res (DecapsulationKey P × EncapsulationKey P) :=
  if which then do .ok (← kp.1.reparse, kp.2) else do .ok (kp.1, ← kp.2.reparse S)

/-- **C36** Any sequence of serialise-and-parse steps on the keys of a generated pair yields the
same keys, hence the same behaviour. -/
theorem C36_reparse_sequence (h : Supported P p) {d z : B32} {kp}
    (hgen : Kem.generate_deterministic S P d z = .ok kp) (steps : List Bool) :
    steps.foldlM (reparseStep S) kp = .ok kp := by
  obtain ⟨dk, ek⟩ := kp
  have hd : dk.reparse = .ok dk := by
    obtain ⟨b, h1, h2⟩ := C12_dk_roundtrip S h (.generated hgen)
    rw [DecapsulationKey.reparse, h1, Res.ok_bind, h2]
  have he : ek.reparse S = .ok ek := by
    obtain ⟨b, h1, h2⟩ := C11_ek_roundtrip S h (.generated hgen)
    rw [EncapsulationKey.reparse, h1, Res.ok_bind, h2]
  induction steps with
  | nil => rfl
  | cons w ws ih =>
    rw [List.foldlM_cons]
    have : reparseStep S (dk, ek) w = .ok (dk, ek) := by
      cases w
      · show (do let e ← ek.reparse S; Res.ok (dk, e)) = _
        rw [he]; rfl
      · show (do let e ← dk.reparse; Res.ok (e, ek)) = _
        rw [hd]; rfl
    rw [this, Res.ok_bind, ih]

example (d z : B32) : ∃ kp, Kem.generate_deterministic Toy.S MlKem512Params d z = .ok kp :=
  (C04_generate_outcome Toy.S supported_512 d z).2.2 (Toy.seedOk _ _)

end MlKem
