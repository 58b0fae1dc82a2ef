import Verif.Spec.XWing
import Verif.Spec.Collision
import Verif.Model.XWing
import Verif.Props.KemKeys
/-! C37-C43: X-Wing. -/
namespace XWing
open Rust MlKem Fips203 XWingSpec
open MlKem (bytesOf toList_bytesOf bytes_ext)

variable [Build]

variable (S : Sha3) (X : X25519)

/-! ### Serialisation -/

omit [Build] in
theorem copy_two {N n m : Nat} (h : N = n + m) {a b : List UInt8} (ha : a.length = n)
    (hb : b.length = m) :
    (do let buf ← copyIntoRange (List.replicate N (0 : UInt8)) 0 n a
        let buf ← copyIntoRange buf n N b
        arrayOfList N buf) = .ok (bytesOf (a ++ b)) := by
  subst h
  have h1 : copyIntoRange (List.replicate (n + m) (0 : UInt8)) 0 n a
      = .ok (a ++ List.replicate m 0) := by
    unfold copyIntoRange
    rw [if_pos (by simp [ha])]
    simp
  rw [h1, Res.ok_bind]
  have h2 : copyIntoRange (a ++ List.replicate m (0 : UInt8)) n (n + m) b = .ok (a ++ b) := by
    unfold copyIntoRange
    rw [if_pos (by simp [ha, hb]), List.take_left' ha, List.drop_of_length_le (by simp [ha]),
      List.append_nil]
  rw [h2, Res.ok_bind]
  obtain ⟨v, hv, hl⟩ := arrayOfList_ok (n := n + m) (l := a ++ b) (by simp [ha, hb])
  rw [hv, eq_bytesOf hl]

omit [Build] in
theorem read_front {N n : Nat} {β : Type} (h : n ≤ N) (v : Bytes N) (f : Bytes n → Res β) :
    (do let a ← copyFromSlice (List.replicate n (0 : UInt8)) (← sliceRange v.toList 0 n)
        let a : Bytes n ← arrayOfList n a
        f a) = f (bytesOf (v.toList.take n)) := by
  have h1 : sliceRange v.toList 0 n = .ok (v.toList.take n) := by
    unfold sliceRange
    rw [if_pos (by simp [h])]
    simp
  rw [h1, Res.ok_bind]
  have h2 : copyFromSlice (List.replicate n (0 : UInt8)) (v.toList.take n) = .ok (v.toList.take n) := by
    unfold copyFromSlice
    rw [if_pos (by simp [h])]
  rw [h2, Res.ok_bind]
  obtain ⟨w, hw, hl⟩ := arrayOfList_ok (n := n) (l := v.toList.take n) (by simp [h])
  rw [hw, Res.ok_bind, eq_bytesOf hl]

omit [Build] in
theorem read_back {N n m : Nat} {β : Type} (h : N = n + m) (v : Bytes N) (f : Bytes m → Res β) :
    (do let a ← copyFromSlice (List.replicate m (0 : UInt8)) (← sliceRange v.toList n N)
        let a : Bytes m ← arrayOfList m a
        f a) = f (bytesOf (v.toList.drop n)) := by
  subst h
  have h1 : sliceRange v.toList n (n + m) = .ok (v.toList.drop n) := by
    unfold sliceRange
    rw [if_pos (by simp), List.take_of_length_le (by simp)]
  rw [h1, Res.ok_bind]
  have h2 : copyFromSlice (List.replicate m (0 : UInt8)) (v.toList.drop n) = .ok (v.toList.drop n) := by
    unfold copyFromSlice
    rw [if_pos (by simp)]
  rw [h2, Res.ok_bind]
  obtain ⟨w, hw, hl⟩ := arrayOfList_ok (n := m) (l := v.toList.drop n) (by simp)
  rw [hw, Res.ok_bind, eq_bytesOf hl]

/-- Two byte arrays one after the other -/
def cat {n m : Nat} (N : Nat) (a : Bytes n) (b : Bytes m) : Bytes N := bytesOf (a.toList ++ b.toList)
/-- The first `n` bytes -/
def front {N : Nat} (n : Nat) (v : Bytes N) : Bytes n := bytesOf (v.toList.take n)
/-- The `m` bytes after the first `n` -/
def back {N : Nat} (n m : Nat) (v : Bytes N) : Bytes m := bytesOf (v.toList.drop n)

section
variable {N n m : Nat} (h : N = n + m)
include h

omit [Build] in
theorem cat_toList (a : Bytes n) (b : Bytes m) : (cat N a b).toList = a.toList ++ b.toList := by
  apply toList_bytesOf
  rw [List.length_append, Vector.length_toList, Vector.length_toList, h]
omit [Build] in
theorem front_toList (v : Bytes N) : (front n v).toList = v.toList.take n := by
  apply toList_bytesOf
  rw [List.length_take, Vector.length_toList]; omega
omit [Build] in
theorem back_toList (v : Bytes N) : (back n m v).toList = v.toList.drop n := by
  apply toList_bytesOf
  rw [List.length_drop, Vector.length_toList]; omega
omit [Build] in
theorem front_cat (a : Bytes n) (b : Bytes m) : front n (cat N a b) = a := by
  apply bytes_ext
  rw [front_toList h, cat_toList h, List.take_left' a.length_toList]
omit [Build] in
theorem back_cat (a : Bytes n) (b : Bytes m) : back n m (cat N a b) = b := by
  apply bytes_ext
  rw [back_toList h, cat_toList h, List.drop_left' a.length_toList]
omit [Build] in
theorem cat_front_back (v : Bytes N) : cat N (front n v) (back n m v) = v := by
  apply bytes_ext
  rw [cat_toList h, front_toList h, back_toList h, List.take_append_drop]
end

omit [Build] in
theorem ct_size : CIPHERTEXT_SIZE = 1088 + 32 := rfl
omit [Build] in
theorem ek_size : ENCAPSULATION_KEY_SIZE = 1184 + 32 := rfl

omit [Build] in
theorem ct_as_bytes (ct : Ciphertext) :
    ct.as_bytes = .ok (cat CIPHERTEXT_SIZE ct.ct_m ct.ct_x) :=
  copy_two ct_size ct.ct_m.length_toList ct.ct_x.length_toList

omit [Build] in
theorem ct_from_bytes (b : Bytes CIPHERTEXT_SIZE) :
    Ciphertext.from_bytes b = .ok ⟨front 1088 b, back 1088 32 b⟩ := by
  unfold Ciphertext.from_bytes
  rw [read_front (by decide), read_back ct_size]
  rfl

theorem ek_as_bytes (ek : EncapsulationKey) {b : Bytes 1184} (h : ek.pk_m.as_bytes = .ok b) :
    ek.as_bytes = .ok (cat ENCAPSULATION_KEY_SIZE b ek.pk_x) := by
  have e : ek.as_bytes = (do
      let b : Bytes 1184 ← ek.pk_m.as_bytes
      let buf ← copyIntoRange (List.replicate ENCAPSULATION_KEY_SIZE 0) 0 1184 b.toList
      let buf ← copyIntoRange buf 1184 ENCAPSULATION_KEY_SIZE ek.pk_x.toList
      arrayOfList ENCAPSULATION_KEY_SIZE buf) := rfl
  have e' : ∀ r : Res (Bytes 1184), r = .ok b → (do
      let b : Bytes 1184 ← r
      let buf ← copyIntoRange (List.replicate ENCAPSULATION_KEY_SIZE 0) 0 1184 b.toList
      let buf ← copyIntoRange buf 1184 ENCAPSULATION_KEY_SIZE ek.pk_x.toList
      arrayOfList ENCAPSULATION_KEY_SIZE buf) = .ok (cat ENCAPSULATION_KEY_SIZE b ek.pk_x) := by
    rintro _ rfl
    rw [Res.ok_bind]
    exact copy_two ek_size b.length_toList ek.pk_x.length_toList
  exact e.trans (e' _ h)

theorem ek_from_bytes (b : Bytes ENCAPSULATION_KEY_SIZE) :
    EncapsulationKey.from_bytes S b = (do
      let pk_m ← MlKem.EncapsulationKey.from_bytes S (P := MlKem768Params) (front 1184 b)
      .ok ⟨pk_m, back 1184 32 b⟩) := by
  unfold EncapsulationKey.from_bytes
  rw [read_front (by decide)]
  congr 1
  funext pk_m
  exact read_back ek_size b fun pk_x => .ok (EncapsulationKey.mk pk_m pk_x)

omit [Build] in
/-- **C39** Ciphertexts: any 1120 bytes are the encoding of exactly one ciphertext; the ML-KEM part
comes first. -/
theorem C39_ciphertext_roundtrip (ct : Ciphertext) (b : Bytes CIPHERTEXT_SIZE) :
    (∃ e, ct.as_bytes = .ok e ∧ Ciphertext.from_bytes e = .ok ct ∧
      e.toList = ct.ct_m.toList ++ ct.ct_x.toList) ∧
    (∃ ct', Ciphertext.from_bytes b = .ok ct' ∧ ct'.as_bytes = .ok b) := by
  constructor
  · refine ⟨_, ct_as_bytes ct, ?_, cat_toList ct_size _ _⟩
    rw [ct_from_bytes, front_cat ct_size, back_cat ct_size]
  · refine ⟨_, ct_from_bytes b, ?_⟩
    rw [ct_as_bytes, cat_front_back ct_size]

omit [Build] in
/-- **C39** Secret keys. -/
theorem C39_secret_roundtrip (sk : DecapsulationKey) (b : Bytes DECAPSULATION_KEY_SIZE) :
    DecapsulationKey.from_bytes sk.as_bytes = sk ∧ (DecapsulationKey.from_bytes b).as_bytes = b :=
  ⟨rfl, rfl⟩

/-- Encapsulation keys a caller can obtain: parsed from bytes, or from a secret key -/
inductive PkReach : EncapsulationKey → Prop
  | parsed {b pk} (h : EncapsulationKey.from_bytes S b = .ok pk) : PkReach pk
  | derived {sk : DecapsulationKey} {pk} (h : sk.encapsulation_key S X = .ok pk) : PkReach pk
  | generated {rng : Rng} {s s' sk pk} (h : generate_key_pair S X rng s = .ok ((sk, pk), s')) :
      PkReach pk

omit [Build] in
theorem read_chunks (s : Nat → UInt8) (pos n : Nat) :
    XofReader.read n { stream := s, pos := pos } =
      (Vector.ofFn fun i => s (pos + i.val), { stream := s, pos := pos + n }) := rfl

omit [Build] in
theorem slice_expand (sk : List UInt8) {off : Nat} (h : off + 32 ≤ 96) :
    slice32 (expand S sk) off = Vector.ofFn fun i => S.shake128 sk (off + i.val) := by
  apply Vector.ext
  intro i hi
  simp only [slice32, expand, prefixBytes, Vector.getElem_ofFn, List.getD_eq_getElem?_getD]
  rw [List.getElem?_ofFn, dif_pos (by omega), Option.getD_some]

theorem expand_key_eq (sk : DecapsulationKey) :
    sk.expand_key S X = (do
      let (sk_m, pk_m) ← Kem.generate_deterministic S MlKem768Params (seedD S sk.sk.toList)
        (seedZ S sk.sk.toList)
      .ok (sk_m, secretX S sk.sk.toList, pk_m, X.publicKey (secretX S sk.sk.toList))) := by
  unfold seedD seedZ secretX
  rw [slice_expand S _ (by omega), slice_expand S _ (by omega), slice_expand S _ (by omega)]
  unfold DecapsulationKey.expand_key hashUpdate read_from
  simp only [read_chunks, List.nil_append, Nat.zero_add]

theorem key_pair_eq (rng : Rng) (s : rng.State) :
    generate_key_pair S X rng s = (do
      let (b, s') ← rng.fill_bytes 32 s
      let pk ← (DecapsulationKey.from_bytes b).encapsulation_key S X
      .ok ((DecapsulationKey.from_bytes b, pk), s')) := by
  unfold generate_key_pair DecapsulationKey.generate XWing.generate
  cases rng.fill_bytes 32 s <;> rfl

theorem derived_shape {sk : DecapsulationKey} {pk} (h : sk.encapsulation_key S X = .ok pk) :
    ∃ sk_m, Kem.generate_deterministic S MlKem768Params (seedD S sk.sk.toList) (seedZ S sk.sk.toList)
        = .ok (sk_m, pk.pk_m) ∧ pk.pk_x = X.publicKey (secretX S sk.sk.toList) := by
  unfold DecapsulationKey.encapsulation_key at h
  rw [expand_key_eq, bind_assoc, Res.bind_eq_ok] at h
  obtain ⟨⟨sk_m, pk_m⟩, h1, h2⟩ := h
  obtain rfl := Res.ok.inj h2
  exact ⟨sk_m, h1, rfl⟩

theorem generated_derived {rng : Rng} {s s' sk pk}
    (h : generate_key_pair S X rng s = .ok ((sk, pk), s')) :
    ∃ b, rng.fill_bytes 32 s = .ok (b, s') ∧ sk = DecapsulationKey.from_bytes b ∧
      sk.encapsulation_key S X = .ok pk := by
  rw [key_pair_eq, Res.bind_eq_ok] at h
  obtain ⟨⟨b, s1⟩, h1, h⟩ := h
  rw [Res.bind_eq_ok] at h
  obtain ⟨pk', h2, h3⟩ := h
  simp only [Res.ok.injEq, Prod.mk.injEq] at h3
  obtain ⟨⟨rfl, rfl⟩, rfl⟩ := h3
  exact ⟨b, h1, rfl, h2⟩

theorem PkReach.ek {pk : EncapsulationKey} (h : PkReach S X pk) : EkReach S pk.pk_m := by
  cases h with
  | @parsed b pk h =>
    rw [ek_from_bytes, Res.bind_eq_ok] at h
    obtain ⟨pk_m, h1, h2⟩ := h
    obtain rfl := Res.ok.inj h2
    exact .parsed h1
  | derived h =>
    obtain ⟨sk_m, h1, -⟩ := derived_shape S X h
    exact .generated h1
  | generated h =>
    obtain ⟨b, -, -, h⟩ := generated_derived S X h
    obtain ⟨sk_m, h1, -⟩ := derived_shape S X h
    exact .generated h1

/-- **C39** Encapsulation keys survive serialisation. -/
theorem C39_public_roundtrip {pk : EncapsulationKey} (hk : PkReach S X pk) :
    ∃ b, pk.as_bytes = .ok b ∧ EncapsulationKey.from_bytes S b = .ok pk := by
  obtain ⟨e, h1, h2⟩ : ∃ e : Bytes 1184, pk.pk_m.as_bytes = .ok e ∧
    MlKem.EncapsulationKey.from_bytes S (P := MlKem768Params) e = .ok pk.pk_m :=
    C11_ek_roundtrip S supported_768 (hk.ek S X)
  refine ⟨_, ek_as_bytes pk h1, ?_⟩
  rw [ek_from_bytes, front_cat ek_size, back_cat ek_size, h2]
  rfl

/-- **C39** Parsing arbitrary bytes always succeeds; serialising again gives the same bytes exactly if
the ML-KEM part is canonical. -/
theorem C39_public_canonical (b : Bytes ENCAPSULATION_KEY_SIZE) :
    ∃ pk b', EncapsulationKey.from_bytes S b = .ok pk ∧ pk.as_bytes = .ok b' ∧
      (b' = b ↔ EkCanonical ML_KEM_768 (b.toList.take 1184)) ∧
      b'.toList.drop 1184 = b.toList.drop 1184 := by
  obtain ⟨ek, eb, h1, h2, -, -, h5, -⟩ : ∃ ek, ∃ eb : Bytes 1184,
      MlKem.EncapsulationKey.from_bytes S (P := MlKem768Params) (front 1184 b) = .ok ek ∧
      ek.as_bytes = .ok eb ∧ _ ∧ _ ∧ (eb = front 1184 b ↔ EkCanonical ML_KEM_768 (front 1184 b).toList) ∧ _ :=
    C13_ek_canonical S supported_768 (front 1184 b)
  refine ⟨⟨ek, back 1184 32 b⟩, _, ?_, ek_as_bytes _ h2, ?_, ?_⟩
  · rw [ek_from_bytes, h1]; rfl
  · rw [front_toList ek_size] at h5
    rw [← h5]
    constructor
    · intro e
      have := congrArg (front 1184) e
      rwa [front_cat ek_size] at this
    · intro e
      rw [e]; exact cat_front_back ek_size b
  · rw [← back_toList ek_size b, cat_toList ek_size, List.drop_left' eb.length_toList]

/-! ### C40, C41 -/

/-- **C40** `generate_key_pair` draws 32 bytes, which are the secret key; `encapsulate` draws 32 bytes
`m` and then 32 bytes `e`, uses `m` as the ML-KEM message and `e` as the X25519 ephemeral secret.
Nothing else depends on the generator. -/
theorem C40_randomness (rng : Rng) (s : rng.State) :
    (∀ r, generate_key_pair S X rng s = .ok r ↔
      ∃ b s1 pk, rng.fill_bytes 32 s = .ok (b, s1) ∧
        (DecapsulationKey.from_bytes b).encapsulation_key S X = .ok pk ∧
        r = ((DecapsulationKey.from_bytes b, pk), s1)) ∧
    (∀ (pk : EncapsulationKey) r, pk.encapsulate S X rng s = .ok r ↔
      ∃ m s1 e s2 ct_m ss_m, rng.fill_bytes 32 s = .ok (m, s1) ∧ rng.fill_bytes 32 s1 = .ok (e, s2) ∧
        pk.pk_m.encapsulate_deterministic S m = .ok (ct_m, ss_m) ∧
        r = ((⟨ct_m, X.x25519 e basePoint⟩,
          Combiner S ss_m.toList (X.x25519 e pk.pk_x).toList (X.x25519 e basePoint).toList
            pk.pk_x.toList), s2)) := by
  constructor
  · intro r
    rw [key_pair_eq, Res.bind_eq_ok]
    constructor
    · rintro ⟨⟨b, s1⟩, h1, h⟩
      rw [Res.bind_eq_ok] at h
      obtain ⟨pk, h2, h3⟩ := h
      exact ⟨b, s1, pk, h1, h2, (Res.ok.inj h3).symm⟩
    · rintro ⟨b, s1, pk, h1, h2, rfl⟩
      refine ⟨_, h1, ?_⟩
      dsimp only
      rw [h2]; rfl
  · intro pk r
    unfold EncapsulationKey.encapsulate MlKem.EncapsulationKey.encapsulate rand XWing.generate
      MlKem.EncapsulationKey.encapsulate_deterministic
    constructor
    · intro h
      rw [Res.bind_eq_ok] at h
      obtain ⟨⟨⟨ct_m, ss_m⟩, s1⟩, h1, h⟩ := h
      rw [Res.bind_eq_ok] at h1
      obtain ⟨⟨m, s1'⟩, h0, h1⟩ := h1
      rw [Res.bind_eq_ok] at h1
      obtain ⟨ck, hc, h1⟩ := h1
      simp only [Res.ok.injEq, Prod.mk.injEq] at h1
      obtain ⟨rfl, rfl⟩ := h1
      rw [Res.bind_eq_ok] at h
      obtain ⟨⟨e, s2⟩, h2, h⟩ := h
      obtain rfl := Res.ok.inj h
      exact ⟨m, _, e, s2, ct_m, ss_m, h0, h2, hc, rfl⟩
    · rintro ⟨m, s1, e, s2, ct_m, ss_m, h1, h2, h3, rfl⟩
      rw [h1, Res.ok_bind]
      dsimp only
      rw [h3, Res.ok_bind, Res.ok_bind]
      dsimp only
      rw [h2, Res.ok_bind]
      rfl

/-- **C41** The secret key bytes determine the public key: the pair returned at generation consists of
32 random bytes and of what `encapsulation_key()` computes from them, also after parsing the
bytes again. -/
theorem C41_determined {rng : Rng} {s s' sk pk}
    (h : generate_key_pair S X rng s = .ok ((sk, pk), s')) :
    (DecapsulationKey.from_bytes sk.as_bytes).encapsulation_key S X = .ok pk ∧
    ∀ (sk' : DecapsulationKey), sk'.as_bytes = sk.as_bytes →
      sk'.encapsulation_key S X = .ok pk ∧ ∀ ct, sk'.decapsulate S X ct = sk.decapsulate S X ct := by
  obtain ⟨b, -, rfl, h2⟩ := generated_derived S X h
  refine ⟨h2, ?_⟩
  rintro ⟨sk'⟩ e
  obtain rfl : sk' = b := e
  exact ⟨h2, fun _ => rfl⟩

/-! ### C38 -/

omit [Build] in
theorem combiner_eq (ss_m : B32) (ss_x ct_x pk_x : Bytes 32) :
    combiner S ss_m ss_x ct_x pk_x
      = Combiner S ss_m.toList ss_x.toList ct_x.toList pk_x.toList := rfl

theorem decapsulate_eq (sk : DecapsulationKey) (ct : Ciphertext) {sk_m pk_m} {K : B32}
    (hg : Kem.generate_deterministic S MlKem768Params (seedD S sk.sk.toList) (seedZ S sk.sk.toList)
      = .ok (sk_m, pk_m))
    (hK : sk_m.decapsulate S ct.ct_m = .ok K) :
    sk.decapsulate S X ct = .ok (Combiner S K.toList
      (X.x25519 (secretX S sk.sk.toList) ct.ct_x).toList ct.ct_x.toList
      (X.publicKey (secretX S sk.sk.toList)).toList) := by
  unfold DecapsulationKey.decapsulate
  rw [expand_key_eq, hg, Res.ok_bind, Res.ok_bind]
  dsimp only
  rw [hK, Res.ok_bind, combiner_eq]

/-- What the crate `x25519-dalek` promises: the public key of a secret is the function applied to the
base point. -/
def PublicKeyIsBase : Prop := ∀ k, X.publicKey k = X.x25519 k basePoint

/-- **C38** The public key of a secret key is the one of the draft. -/
theorem C38_keygen (hX : PublicKeyIsBase X) (sk : DecapsulationKey) (hs : SkOk S sk.sk.toList) :
    ∃ pk b, sk.encapsulation_key S X = .ok pk ∧ pk.as_bytes = .ok b ∧
      b.toList = publicKey S X.x25519 sk.as_bytes.toList := by
  obtain ⟨dk, ek, eb, -, h1, h2, -, h4, -⟩ :
      ∃ (dk : MlKem.DecapsulationKey MlKem768Params) (ek : MlKem.EncapsulationKey MlKem768Params)
        (eb : Bytes 1184), ∃ _, _ ∧ ek.as_bytes = .ok eb ∧ _ ∧ eb.toList = _ ∧ _ :=
    C01_keygen_is_fips203 S supported_768 (seedD S sk.sk.toList) (seedZ S sk.sk.toList) hs
  refine ⟨⟨ek, X.publicKey (secretX S sk.sk.toList)⟩, _, ?_, ek_as_bytes _ h2, ?_⟩
  · unfold DecapsulationKey.encapsulation_key
    rw [expand_key_eq, h1]; rfl
  · rw [cat_toList ek_size, publicKey, hX, h4]
    rfl

omit [Build] in
theorem slice32_drop (l : List UInt8) (n : Nat) :
    slice32 l n = bytesOf (l.drop n) := by
  apply Vector.ext
  intro i hi
  simp [slice32, bytesOf, List.getD_eq_getElem?_getD]

omit [Build] in
theorem slice32_append {l : List UInt8} {n : Nat} (h : l.length = n) (b : Bytes 32) :
    slice32 (l ++ b.toList) n = b := by
  rw [slice32_drop, List.drop_left' h,
    bytesOf_toList]

/-- **C38** Encapsulation to any public key a caller can hold is the draft's `EncapsulateDerand` on
the key's encoding, the seed being the two blocks drawn. -/
theorem C38_encaps {pk : EncapsulationKey} (hk : PkReach S X pk) {rng : Rng} {s s1 s2 : rng.State}
    {m e : Bytes 32} (hm : rng.fill_bytes 32 s = .ok (m, s1)) (he : rng.fill_bytes 32 s1 = .ok (e, s2)) :
    ∃ pb, pk.as_bytes = .ok pb ∧ (SeedOk S 3 (ekRho ML_KEM_768 (pb.toList.take 1184)) →
      ∃ ct ss cb, pk.encapsulate S X rng s = .ok ((ct, ss), s2) ∧ ct.as_bytes = .ok cb ∧
        ss = (EncapsulateDerand S X.x25519 pb.toList (m.toList ++ e.toList)).1 ∧
        cb.toList = (EncapsulateDerand S X.x25519 pb.toList (m.toList ++ e.toList)).2) := by
  obtain ⟨eb, h1, h2⟩ : ∃ eb : Bytes 1184, pk.pk_m.as_bytes = .ok eb ∧
      (SeedOk S 3 (ekRho ML_KEM_768 eb.toList) →
      ∃ (c : Bytes 1088) (K : B32), pk.pk_m.encapsulate_deterministic S m = .ok (c, K) ∧
        K.toList = (Encaps_internal S ML_KEM_768 eb.toList m.toList).1 ∧
        c.toList = (Encaps_internal S ML_KEM_768 eb.toList m.toList).2) :=
    C02_encaps_is_fips203 S supported_768 (hk.ek S X) m
  refine ⟨_, ek_as_bytes pk h1, ?_⟩
  unfold EncapsulateDerand
  rw [cat_toList ek_size, List.take_left' eb.length_toList, slice32_append eb.length_toList,
    List.take_left' m.length_toList, slice32_append m.length_toList]
  intro hs
  obtain ⟨c, K, h3, h4, h5⟩ := h2 hs
  refine ⟨⟨c, X.x25519 e basePoint⟩, _, _,
    ((C40_randomness S X rng s).2 pk _).2 ⟨m, s1, e, s2, c, K, hm, he, h3, rfl⟩, ct_as_bytes _, ?_, ?_⟩
  · dsimp only
    rw [← h4]
  · dsimp only
    rw [cat_toList ct_size, ← h5]

/-- **C38** Decapsulation of any 1120 bytes with any 32-byte secret key is the draft's. -/
theorem C38_decaps (hX : PublicKeyIsBase X) (sk : DecapsulationKey) (hs : SkOk S sk.sk.toList)
    (cb : Bytes CIPHERTEXT_SIZE) :
    ∃ ct, Ciphertext.from_bytes cb = .ok ct ∧
      sk.decapsulate S X ct = .ok (Decapsulate S X.x25519 cb.toList sk.as_bytes.toList) := by
  refine ⟨_, ct_from_bytes cb, ?_⟩
  obtain ⟨dk, ek, eb, db, h1, h2, h3, h4, h5⟩ := C01_keygen_is_fips203 S supported_768
    (seedD S sk.sk.toList) (seedZ S sk.sk.toList) hs
  obtain ⟨db', h6, h7⟩ := C03_decaps_of_held S supported_768 (.generated h1)
    (front 1088 cb)
  obtain rfl := Res.ok.inj (h3.symm.trans h6)
  have hseed : SeedOk S ML_KEM_768.k (ekRho ML_KEM_768 (dkEk ML_KEM_768 db.toList)) := by
    obtain ⟨-, eb', db', g1, g2, g3, -⟩ := C16_generated_consistent S supported_768 h1
    obtain rfl := Res.ok.inj (h2.symm.trans g1)
    obtain rfl := Res.ok.inj (h3.symm.trans g2)
    obtain ⟨-, eb', g4, g5⟩ := C04_encaps_outcome S supported_768 (.reach (.generated h1))
      (Vector.replicate 32 0)
    obtain rfl := Res.ok.inj (h2.symm.trans g4)
    rw [g3, ← g5]
    obtain ⟨hs0, rfl, rfl⟩ := (generate_ok_iff S (Supported.valid supported_768)).1 h1
    unfold genEk
    exact ⟨_, encaps_ok S (Supported.valid supported_768) _ _ _ _
      (by rw [toList_bytesOf (seeds_length S _ _).1]; exact hs0)⟩
  obtain ⟨K, h8, h9⟩ := h7 hseed
  rw [decapsulate_eq S X sk ⟨front 1088 cb, back 1088 32 cb⟩ h1 h8,
    h9.trans (congrArg (Decaps_internal S ML_KEM_768 db.toList) (front_toList ct_size cb)), hX, h5]
  unfold Decapsulate
  dsimp only
  rw [slice32_drop]
  rfl

/-! ### C37 -/

/-- Diffie-Hellman agreement for X25519 -/
def Commutes : Prop := ∀ a b, X.x25519 a (X.x25519 b basePoint) = X.x25519 b (X.x25519 a basePoint)

/-- **C37** For a generated key pair and any encapsulation to its public key, decapsulation returns
the same shared secret whenever the ML-KEM noise of the values drawn is in its window. -/
theorem C37_agree (hX : PublicKeyIsBase X) (hcomm : Commutes X) {rng rng' : Rng}
    {s s' : rng.State} {t t' : rng'.State} {sk pk ct ss}
    (hgen : generate_key_pair S X rng s = .ok ((sk, pk), s'))
    (henc : pk.encapsulate S X rng' t = .ok ((ct, ss), t')) :
    ∃ m t1, rng'.fill_bytes 32 t = .ok (m, t1) ∧
      (NoiseOk S ML_KEM_768 (seedD S sk.sk.toList).toList m.toList
          (encapsRandomness S (pkM S sk.sk.toList) m.toList) →
        sk.decapsulate S X ct = .ok ss) := by
  obtain ⟨b, -, hb, hpk⟩ := generated_derived S X hgen
  obtain ⟨sk_m, hg, hx⟩ := derived_shape S X hpk
  obtain ⟨m, t1, e, t2, ct_m, ss_m, h1, h2, h3, h4⟩ := ((C40_randomness S X rng' t).2 pk _).1 henc
  simp only [Prod.mk.injEq] at h4
  obtain ⟨⟨rfl, rfl⟩, rfl⟩ := h4
  refine ⟨m, t1, h1, fun hn => ?_⟩
  have hdec := C05_decaps_encaps S supported_768 (by decide) (by decide) hg h3 hn
  rw [decapsulate_eq S X sk ⟨ct_m, X.x25519 e basePoint⟩ hg hdec, hx, hX, hcomm]

/-! ### C42 -/

omit [Build] in
/-- **C42** The combiner hashes the byte string `label ‖ ss_M ‖ ss_X ‖ ct_X ‖ pk_X`, which is the same
for two inputs only if the inputs agree. -/
theorem C42_unambiguous (ss_m ss_x ct_x pk_x ss_m' ss_x' ct_x' pk_x' : Bytes 32) :
    combiner S ss_m ss_x ct_x pk_x
      = S.sha3_256 (combinerInput ss_m.toList ss_x.toList ct_x.toList pk_x.toList) ∧
    (combinerInput ss_m.toList ss_x.toList ct_x.toList pk_x.toList).length = 134 ∧
    (combinerInput ss_m.toList ss_x.toList ct_x.toList pk_x.toList
        = combinerInput ss_m'.toList ss_x'.toList ct_x'.toList pk_x'.toList ↔
      ss_m = ss_m' ∧ ss_x = ss_x' ∧ ct_x = ct_x' ∧ pk_x = pk_x') := by
  refine ⟨?_, ?_, ?_⟩
  · simp [combiner, combinerInput, hashUpdate, X_WING_LABEL]
  · simp [combinerInput]
  · constructor
    · intro h
      simp only [combinerInput] at h
      obtain ⟨h, h4⟩ := List.append_inj h (by simp)
      obtain ⟨h, h3⟩ := List.append_inj h (by simp)
      obtain ⟨h, h2⟩ := List.append_inj h (by simp)
      obtain ⟨-, h1⟩ := List.append_inj h (by simp)
      exact ⟨bytes_ext h1, bytes_ext h2, bytes_ext h3, bytes_ext h4⟩
    · rintro ⟨rfl, rfl, rfl, rfl⟩; rfl

omit [Build] in
/-- **C42** Equal shared secrets with differing inputs exhibit a SHA3-256 collision: the two hashed
strings themselves. -/
theorem C42_collision {ss_m ss_x ct_x pk_x ss_m' ss_x' ct_x' pk_x' : Bytes 32}
    (hne : ¬ (ss_m = ss_m' ∧ ss_x = ss_x' ∧ ct_x = ct_x' ∧ pk_x = pk_x'))
    (heq : combiner S ss_m ss_x ct_x pk_x = combiner S ss_m' ss_x' ct_x' pk_x') :
    CollideH S (combinerInput ss_m.toList ss_x.toList ct_x.toList pk_x.toList)
      (combinerInput ss_m'.toList ss_x'.toList ct_x'.toList pk_x'.toList) := by
  obtain ⟨h1, -, h3⟩ := C42_unambiguous S ss_m ss_x ct_x pk_x ss_m' ss_x' ct_x' pk_x'
  obtain ⟨h2, -, -⟩ := C42_unambiguous S ss_m' ss_x' ct_x' pk_x' ss_m ss_x ct_x pk_x
  refine ⟨fun h => hne (h3.1 h), ?_⟩
  rw [h1, h2] at heq
  exact congrArg Vector.toList heq

/-! ### C43 -/

/-- **C43** Decapsulation never panics, and returns whenever the seed of the key can be expanded.
The X25519 part is computed on `ct_X` in any case; the ML-KEM part is the re-encapsulated
key if re-encapsulation reproduces `ct_M`, and `SHAKE256(z ‖ ct_M)` otherwise. -/
theorem C43_implicit_rejection (sk : DecapsulationKey) (ct : Ciphertext) :
    sk.decapsulate S X ct ≠ .panic ∧
    ((∃ ss, sk.decapsulate S X ct = .ok ss) ↔ SkOk S sk.sk.toList) ∧
    (SkOk S sk.sk.toList → ∃ (sk_m : MlKem.DecapsulationKey MlKem768Params)
        (pk_m : MlKem.EncapsulationKey MlKem768Params) (m' : B32) (c' : Bytes 1088) (K' ss_m : B32),
      Kem.generate_deterministic S MlKem768Params (seedD S sk.sk.toList) (seedZ S sk.sk.toList)
        = .ok (sk_m, pk_m) ∧
      sk_m.dk_pke.decrypt ct.ct_m = .ok m' ∧
      pk_m.encapsulate_deterministic S m' = .ok (c', K') ∧
      (ct.ct_m = c' → ss_m = K') ∧
      (ct.ct_m ≠ c' → ss_m.toList =
        Fips203.J S ((seedZ S sk.sk.toList).toList ++ ct.ct_m.toList)) ∧
      sk.decapsulate S X ct = .ok (Combiner S ss_m.toList
        (X.x25519 (secretX S sk.sk.toList) ct.ct_x).toList ct.ct_x.toList
        (X.publicKey (secretX S sk.sk.toList)).toList)) := by
  have hgo := C04_generate_outcome S supported_768 (seedD S sk.sk.toList) (seedZ S sk.sk.toList)
  by_cases hs : SkOk S sk.sk.toList
  · obtain ⟨⟨sk_m, pk_m⟩, hg⟩ := hgo.2.2 hs
    obtain ⟨hpk, eb, db, h2, h3, h4, h5, h6⟩ := C16_generated_consistent S supported_768 hg
    have hdec : ∃ K, sk_m.decapsulate S ct.ct_m = .ok K := by
      obtain ⟨-, db', g1, g2⟩ := C04_decaps_outcome S supported_768 (.generated hg) ct.ct_m
      obtain rfl := Res.ok.inj (h3.symm.trans g1)
      rw [g2, h4]
      obtain ⟨-, eb', g4, g5⟩ := C04_encaps_outcome S supported_768 (.reach (.generated hg))
        (Vector.replicate 32 0)
      obtain rfl := Res.ok.inj (h2.symm.trans g4)
      rw [← g5]
      obtain ⟨hs0, rfl, rfl⟩ := (generate_ok_iff S (Supported.valid supported_768)).1 hg
      unfold genEk
      exact ⟨_, encaps_ok S (Supported.valid supported_768) _ _ _ _
        (by rw [toList_bytesOf (seeds_length S _ _).1]; exact hs0)⟩
    obtain ⟨K, hK⟩ := hdec
    obtain ⟨db', m', c', K', g1, g2, g3, g4, g5⟩ := decaps_struct S supported_768 (.generated hg) hK
    obtain rfl := Res.ok.inj (h3.symm.trans g1)
    have hd := decapsulate_eq S X sk ct hg hK
    refine ⟨by rw [hd]; nofun, ⟨fun _ => hs, fun _ => ⟨_, hd⟩⟩, fun _ =>
      ⟨sk_m, pk_m, m', c', K', K, hg, g2, by rw [hpk]; exact g3, g4, ?_, hd⟩⟩
    rw [h6] at g5
    exact g5
  · have hdiv : sk.decapsulate S X ct = .div := by
      unfold DecapsulationKey.decapsulate
      rw [expand_key_eq, kem_generate_div S MlKem768Params _ _ hs]
      rfl
    refine ⟨by rw [hdiv]; nofun, ⟨fun ⟨_, h⟩ => ?_, fun h => absurd h hs⟩, fun h => absurd h hs⟩
    rw [hdiv] at h; nomatch h

/-! ### The hypotheses are satisfiable -/

/-- A toy Diffie-Hellman function: addition of bytes, `publicKey` accordingly. It commutes and depends
on both arguments. -/
def toyX : X25519 where
  x25519 k u := Vector.ofFn fun i => k[i] + u[i]
  publicKey k := Vector.ofFn fun i => k[i] + basePoint[i]

omit [Build] in
theorem toyX_base : PublicKeyIsBase toyX := fun _ => rfl

omit [Build] in
theorem toyX_comm : Commutes toyX := by
  intro a b
  apply Vector.ext
  intro i hi
  simp only [toyX, Vector.getElem_ofFn, Fin.getElem_fin]
  rw [← UInt8.add_assoc, ← UInt8.add_assoc, UInt8.add_comm a[i]]

example (sk : List UInt8) : SkOk Toy.S sk := Toy.seedOk _ _

/-- With the toy primitives the whole of C37 goes through, from any generator state. -/
example (s t : Nat) : ∃ sk pk s' ct ss t',
    generate_key_pair Toy.S toyX Toy.rng s = .ok ((sk, pk), s') ∧
    pk.encapsulate Toy.S toyX Toy.rng t = .ok ((ct, ss), t') ∧ sk.decapsulate Toy.S toyX ct = .ok ss := by
  obtain ⟨pk, b, h1, -⟩ := C38_keygen Toy.S toyX toyX_base
    (DecapsulationKey.from_bytes (Vector.ofFn fun i => UInt8.ofNat (s + i.val))) (Toy.seedOk _ _)
  have hgen := ((C40_randomness Toy.S toyX Toy.rng s).1 _).2 ⟨_, s + 1, pk, rfl, h1, rfl⟩
  obtain ⟨pb, -, h3⟩ := C38_encaps Toy.S toyX (.derived h1) (rng := Toy.rng) (s := t) rfl rfl
  obtain ⟨ct, ss, -, h4, -⟩ := h3 (Toy.seedOk _ _)
  obtain ⟨m, t1, -, h5⟩ := C37_agree Toy.S toyX toyX_base toyX_comm hgen h4
  exact ⟨_, pk, _, ct, ss, _, hgen, h4, h5 (Toy.noiseOk (by simp) _ _ _)⟩

end XWing
