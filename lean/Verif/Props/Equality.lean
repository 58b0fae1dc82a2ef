import Verif.Model.Equality
import Verif.Props.Compare
import Verif.Props.X25519All
/-! C17 and C46: what `==` means for X-Wing keys and ciphertexts and for the X25519 keys of dhkem. -/
open Rust MlKem

namespace Rfc7748

theorem leValue_sum (l : List UInt8) : leValue l = ∑ i : Fin l.length, l[i].toNat * 2 ^ (8 * i.val) := by
  induction l with
  | nil => rfl
  | cons b l ih =>
    rw [leValue, ih]
    refine Eq.trans ?_ (Fin.sum_univ_succ (n := l.length) fun i => (b :: l)[i].toNat * 2 ^ (8 * i.val)).symm
    rw [Finset.mul_sum]
    congr 1
    · simp
    · refine Finset.sum_congr rfl fun i _ => ?_
      simp only [Fin.getElem_fin, Fin.val_succ, List.getElem_cons_succ, Nat.mul_add, pow_add]
      ring

theorem leValue_toList (b : Bytes 32) : leValue b.toList = decodeLittleEndian b := by
  rw [leValue_sum, decodeLittleEndian]
  refine Fintype.sum_equiv (finCongr b.length_toList) _ _ fun i => ?_
  simp

theorem masked_mod (b : Bytes 32) : leValue b.toList % 2 ^ 255 = maskedInteger b := by
  have h7 : (b[31] &&& 0x7f).toNat = b[31].toNat % 128 := by
    rw [UInt8.toNat_and]
    exact Nat.and_two_pow_sub_one_eq_mod _ 7
  have key : ∀ (v : Bytes 32), decodeLittleEndian v =
      (∑ i : Fin 31, v[i.val].toNat * 2 ^ (8 * i.val)) + v[31].toNat * 2 ^ 248 := fun v => by
    rw [decodeLittleEndian, Fin.sum_univ_castSucc]
    rfl
  have e : decodeLittleEndian b = maskedInteger b + b[31].toNat / 128 * 2 ^ 255 := by
    rw [maskedInteger, key b, key]
    have hs : (∑ i : Fin 31, (b.set 31 (b[31] &&& 0x7f))[i.val].toNat * 2 ^ (8 * i.val)) =
        ∑ i : Fin 31, b[i.val].toNat * 2 ^ (8 * i.val) := by
      refine Finset.sum_congr rfl fun i _ => ?_
      rw [Vector.getElem_set_ne _ _ (by omega)]
    rw [hs, Vector.getElem_set_self, h7]
    have := Nat.div_add_mod b[31].toNat 128
    omega
  rw [leValue_toList, e, Nat.add_mul_mod_self_right, Nat.mod_eq_of_lt (masked_lt b)]

end Rfc7748

namespace XWing
open Fips203 XWingSpec Rfc7748

theorem publicKeyEq_iff (a b : Bytes 32) : publicKeyEq a b = true ↔ decodeUCoordinate a = decodeUCoordinate b := by
  unfold publicKeyEq
  rw [masked_mod, masked_mod, beq_iff_eq, masked_cast, masked_cast, ZMod.natCast_eq_natCast_iff']
  rfl

/-- The same string except for the bit that RFC 7748 ignores -/
def otherTop (b : Bytes 32) : Bytes 32 := b.set 31 (b[31] ^^^ 0x80)

theorem otherTop_ne (b : Bytes 32) : otherTop b ≠ b := by
  intro h
  have h1 := congrArg (fun v : Bytes 32 => v[31]) h
  have h2 : ∀ a : Fin 256, UInt8.ofBitVec ⟨a⟩ ^^^ 0x80 ≠ UInt8.ofBitVec ⟨a⟩ := by decide +kernel
  simp only [otherTop, Vector.getElem_set_self] at h1
  exact h2 b[31].toFin h1

theorem otherTop_decode (b : Bytes 32) : decodeUCoordinate (otherTop b) = decodeUCoordinate b := by
  have h2 : ∀ a : Fin 256, (UInt8.ofBitVec ⟨a⟩ ^^^ 0x80) &&& 0x7f = UInt8.ofBitVec ⟨a⟩ &&& 0x7f := by decide +kernel
  have h3 : (otherTop b)[31] = b[31] ^^^ 0x80 := Vector.getElem_set_self _
  unfold decodeUCoordinate
  rw [h3, show (b[31] ^^^ (0x80 : UInt8)) &&& (0x7f : UInt8) = b[31] &&& (0x7f : UInt8) from h2 b[31].toFin, otherTop,
    Vector.set_set]

theorem compare_ek {P : ParameterSet} (a b : MlKem.EncapsulationKey P) : (Compare.encapsulationKey a b).1 = true ↔ a = b := by
  have both_fst : ∀ (x : Compare.Cmp) (f : Unit → Compare.Cmp), (Compare.both x f).1 = (x.1 && (f ()).1) := fun x f => by
    unfold Compare.both
    cases h : x.1 <;> simp [h]
  have h := (Compare.C97_equal ⟨⟨a.ek_pke.t_hat⟩, a, a.h⟩ ⟨⟨a.ek_pke.t_hat⟩, b, a.h⟩).1
  have h' := (Compare.C97_equal ⟨⟨a.ek_pke.t_hat⟩, a, a.h⟩ ⟨⟨a.ek_pke.t_hat⟩, a, a.h⟩).1.2 rfl
  simp only [Compare.decapsulationKey, both_fst, Bool.and_eq_true, MlKem.DecapsulationKey.mk.injEq, true_and, and_true] at h h'
  rw [← h]
  exact ⟨fun e => ⟨h'.1, e, h'.2.2⟩, fun e => e.2.1⟩

variable [Build] (S : Sha3) (X : X25519)

/-- **C17** ML-KEM keys are equal for `==`, the derived comparison of their fields, exactly if their encodings are. -/
theorem C17_mlkem_derived {P : ParameterSet} {p : Params} (h : Supported P p) :
    (∀ {ek ek' : MlKem.EncapsulationKey P}, EkReach S ek → EkReach S ek' →
      ((Compare.encapsulationKey ek ek').1 = true ↔ ek.as_bytes = ek'.as_bytes)) ∧
    ∀ {dk dk' : MlKem.DecapsulationKey P}, DkReach S dk → DkReach S dk' →
      ((Compare.decapsulationKey dk dk').1 = true ↔ dk.as_bytes = dk'.as_bytes) :=
  ⟨fun hk hk' => (compare_ek _ _).trans (C17_ek_eq_iff S h hk hk'),
    fun hk hk' => (Compare.C97_equal _ _).1.trans (C17_dk_eq_iff S h hk hk')⟩

/-- **C17** X-Wing public keys are equal for `==` if their ML-KEM parts have the same encoding and their X25519 parts mean the
same u-coordinate. -/
theorem C17_xwing_public {pk pk' : EncapsulationKey} (hk : PkReach S X pk) (hk' : PkReach S X pk') :
    ∃ b b', pk.as_bytes = .ok b ∧ pk'.as_bytes = .ok b' ∧
      (pk.eq pk' = true ↔ b.toList.take 1184 = b'.toList.take 1184 ∧
        decodeUCoordinate (slice32 b.toList 1184) = decodeUCoordinate (slice32 b'.toList 1184)) := by
  obtain ⟨e, h1, -⟩ : ∃ e : Bytes 1184, pk.pk_m.as_bytes = .ok e ∧
    MlKem.EncapsulationKey.from_bytes S (P := MlKem768Params) e = .ok pk.pk_m := C11_ek_roundtrip S supported_768 (hk.ek S X)
  obtain ⟨e', h1', -⟩ : ∃ e : Bytes 1184, pk'.pk_m.as_bytes = .ok e ∧
    MlKem.EncapsulationKey.from_bytes S (P := MlKem768Params) e = .ok pk'.pk_m := C11_ek_roundtrip S supported_768 (hk'.ek S X)
  refine ⟨_, _, ek_as_bytes pk h1, ek_as_bytes pk' h1', ?_⟩
  rw [cat_toList ek_size, cat_toList ek_size, List.take_left' e.length_toList, List.take_left' e'.length_toList,
    slice32_append e.length_toList, slice32_append e'.length_toList, EncapsulationKey.eq, Bool.and_eq_true, publicKeyEq_iff,
    compare_ek, C17_ek_eq_iff S supported_768 (hk.ek S X) (hk'.ek S X), h1, h1']
  exact and_congr_left fun _ => ⟨fun h => congrArg Vector.toList (Res.ok.inj h), fun h => congrArg _ (bytes_ext h)⟩

/-- **C17** Public keys of secret keys are equal for `==` exactly if their encodings are. -/
theorem C17_xwing_derived {sk sk' : DecapsulationKey} {pk pk' : EncapsulationKey}
    (h : sk.encapsulation_key S rfc7748 = .ok pk) (h' : sk'.encapsulation_key S rfc7748 = .ok pk') :
    pk.eq pk' = true ↔ pk.as_bytes = pk'.as_bytes := by
  obtain ⟨b, b', h1, h2, h3⟩ := C17_xwing_public S rfc7748 (.derived h) (.derived h')
  obtain ⟨e, g1, -⟩ : ∃ e : Bytes 1184, pk.pk_m.as_bytes = .ok e ∧
    MlKem.EncapsulationKey.from_bytes S (P := MlKem768Params) e = .ok pk.pk_m :=
    C11_ek_roundtrip S supported_768 ((PkReach.derived h).ek S rfc7748)
  obtain ⟨e', g1', -⟩ : ∃ e : Bytes 1184, pk'.pk_m.as_bytes = .ok e ∧
    MlKem.EncapsulationKey.from_bytes S (P := MlKem768Params) e = .ok pk'.pk_m :=
    C11_ek_roundtrip S supported_768 ((PkReach.derived h').ek S rfc7748)
  obtain ⟨-, -, hx⟩ := derived_shape S rfc7748 h
  obtain ⟨-, -, hx'⟩ := derived_shape S rfc7748 h'
  obtain rfl := Res.ok.inj ((ek_as_bytes pk g1).symm.trans h1)
  obtain rfl := Res.ok.inj ((ek_as_bytes pk' g1').symm.trans h2)
  rw [h3, h1, h2, cat_toList ek_size, cat_toList ek_size, List.take_left' e.length_toList, List.take_left' e'.length_toList,
    slice32_append e.length_toList, slice32_append e'.length_toList, hx, hx']
  simp only [rfc7748, Rfc7748.X25519, decode_encode]
  constructor
  · rintro ⟨ha, hb⟩
    rw [bytes_ext ha, hb]
  · intro hc
    have hc := Res.ok.inj hc
    have ha := congrArg (front 1184) hc
    have hb := congrArg (back 1184 32) hc
    rw [front_cat ek_size, front_cat ek_size] at ha
    rw [back_cat ek_size, back_cat ek_size] at hb
    exact ⟨by rw [ha], encode_injective hb⟩

/-- **C17** Encapsulating to public keys that are equal for `==`, from the same generator state, gives the same ciphertext; the
shared secrets are hashes of two strings that differ unless the keys have the same encoding. -/
theorem C17_xwing_encapsulate {pk pk' : EncapsulationKey} (hk : PkReach S rfc7748 pk) (hk' : PkReach S rfc7748 pk')
    (he : pk.eq pk' = true) {rng : Rng} {s s' : rng.State} {ct ss} (h : pk.encapsulate S rfc7748 rng s = .ok ((ct, ss), s')) :
    ∃ ss' x x', pk'.encapsulate S rfc7748 rng s = .ok ((ct, ss'), s') ∧ ss = S.sha3_256 x ∧ ss' = S.sha3_256 x' ∧
      (x = x' ↔ pk.as_bytes = pk'.as_bytes) := by
  have he' := he
  rw [EncapsulationKey.eq, Bool.and_eq_true, publicKeyEq_iff, compare_ek] at he'
  obtain ⟨hm, hx⟩ := he'
  obtain ⟨m, s1, e, s2, ct_m, ss_m, h1, h2, h3, h4⟩ := ((C40_randomness S rfc7748 rng s).2 pk _).1 h
  simp only [Prod.mk.injEq] at h4
  obtain ⟨⟨hct, hss⟩, rfl⟩ := h4
  subst hct hss
  have hu : rfc7748.x25519 e pk.pk_x = rfc7748.x25519 e pk'.pk_x := by
    show Rfc7748.X25519 e pk.pk_x = Rfc7748.X25519 e pk'.pk_x
    rw [Rfc7748.X25519, hx, ← Rfc7748.X25519]
  refine ⟨_, _, _, ((C40_randomness S rfc7748 rng s).2 pk' _).2 ⟨m, s1, e, _, ct_m, ss_m, h1, h2, hm ▸ h3, rfl⟩, rfl, rfl, ?_⟩
  rw [(C42_unambiguous S _ _ _ _ _ _ _ _).2.2]
  obtain ⟨b, g1, -⟩ : ∃ e : Bytes 1184, pk.pk_m.as_bytes = .ok e ∧
    MlKem.EncapsulationKey.from_bytes S (P := MlKem768Params) e = .ok pk.pk_m := C11_ek_roundtrip S supported_768 (hk.ek S rfc7748)
  rw [ek_as_bytes pk g1, ek_as_bytes pk' (hm ▸ g1)]
  constructor
  · rintro ⟨-, -, -, h⟩
    rw [h]
  · intro hc
    have hb := congrArg (back 1184 32) (Res.ok.inj hc)
    rw [back_cat ek_size, back_cat ek_size] at hb
    exact ⟨rfl, hu, rfl, hb⟩

/-- **C17** For every public key there is another encoding of an equal key. So keys that are equal for `==` may have different
encodings and lead to different shared secrets for one ciphertext. -/
theorem C17_xwing_alias {pk : EncapsulationKey} (hk : PkReach S X pk) :
    ∃ b' pk', EncapsulationKey.from_bytes S b' = .ok pk' ∧ pk'.as_bytes = .ok b' ∧ pk.eq pk' = true ∧
      pk.as_bytes ≠ pk'.as_bytes := by
  obtain ⟨e, h1, h2⟩ : ∃ e : Bytes 1184, pk.pk_m.as_bytes = .ok e ∧
    MlKem.EncapsulationKey.from_bytes S (P := MlKem768Params) e = .ok pk.pk_m := C11_ek_roundtrip S supported_768 (hk.ek S X)
  refine ⟨cat ENCAPSULATION_KEY_SIZE e (otherTop pk.pk_x), ⟨pk.pk_m, otherTop pk.pk_x⟩, ?_, ek_as_bytes _ h1, ?_, ?_⟩
  · rw [ek_from_bytes, front_cat ek_size, back_cat ek_size, h2]
    rfl
  · rw [EncapsulationKey.eq, Bool.and_eq_true, publicKeyEq_iff, compare_ek]
    exact ⟨rfl, (otherTop_decode _).symm⟩
  · rw [ek_as_bytes pk h1, ek_as_bytes ⟨pk.pk_m, otherTop pk.pk_x⟩ h1]
    intro hc
    have hb := congrArg (back 1184 32) (Res.ok.inj hc)
    rw [back_cat ek_size, back_cat ek_size] at hb
    exact otherTop_ne _ hb.symm

omit [Build] in
/-- **C17** X-Wing ciphertexts are equal for `==` exactly if their encodings are. -/
theorem C17_xwing_ciphertext (ct ct' : Ciphertext) : ct.eq ct' = true ↔ ct.as_bytes = ct'.as_bytes := by
  obtain ⟨e, h1, h2, -⟩ := (C39_ciphertext_roundtrip ct (Vector.replicate _ 0)).1
  obtain ⟨e', h1', h2', -⟩ := (C39_ciphertext_roundtrip ct' (Vector.replicate _ 0)).1
  rw [Ciphertext.eq, Bool.and_eq_true, beq_iff_eq, beq_iff_eq, h1, h1']
  constructor
  · rintro ⟨ha, hb⟩
    obtain ⟨m, x⟩ := ct
    obtain ⟨m', x'⟩ := ct'
    obtain rfl : m = m' := ha
    obtain rfl : x = x' := hb
    exact h1.symm.trans h1'
  · intro hc
    obtain rfl := Res.ok.inj hc
    obtain rfl := Res.ok.inj (h2.symm.trans h2')
    exact ⟨rfl, rfl⟩

/-! ### The hypotheses are satisfiable -/

/-- With toy hashes, the public key of any secret key has another encoding, which is parsed to an equal key; encapsulating to
both goes through from any generator state and returns one ciphertext, with hashes of different strings. -/
example (sk : DecapsulationKey) (t : Nat) : ∃ pk pk' ct ss ss' t' x x',
    sk.encapsulation_key Toy.S rfc7748 = .ok pk ∧ PkReach Toy.S rfc7748 pk' ∧ pk.eq pk' = true ∧
    pk.encapsulate Toy.S rfc7748 Toy.rng t = .ok ((ct, ss), t') ∧ pk'.encapsulate Toy.S rfc7748 Toy.rng t = .ok ((ct, ss'), t') ∧
    ss = Toy.S.sha3_256 x ∧ ss' = Toy.S.sha3_256 x' ∧ x ≠ x' := by
  obtain ⟨pk, b, h1, -⟩ := C38_keygen Toy.S rfc7748 rfc7748_base sk (Toy.seedOk _ _)
  obtain ⟨pb, -, h3⟩ := C38_encaps Toy.S rfc7748 (.derived h1) (rng := Toy.rng) (s := t) rfl rfl
  obtain ⟨ct, ss, -, h4, -⟩ := h3 (Toy.seedOk _ _)
  obtain ⟨b', pk', h5, -, h6, h7⟩ := C17_xwing_alias Toy.S rfc7748 (.derived h1)
  obtain ⟨ss', x, x', h8, h9, h10, h11⟩ := C17_xwing_encapsulate Toy.S (.derived h1) (.parsed h5) h6 h4
  exact ⟨pk, pk', ct, ss, ss', _, x, x', h1, .parsed h5, h6, h4, h8, h9, h10, fun e => h7 (h11.1 e)⟩

/-- Zero and `2^255 - 19` are equal, zero and one are not. -/
example : publicKeyEq (Vector.replicate 32 0) ((Vector.replicate 32 0xff).set 0 0xed) = true ∧
    publicKeyEq (Vector.replicate 32 0) ((Vector.replicate 32 0).set 0 1) = false := by
  decide +kernel

end XWing

namespace Dhkem
open XWing Rfc7748

/-- **C46** `==` of the wrappers is the wrapped type's. -/
theorem C46_equality {X : Type} (eqX : X → X → Bool) (x y : X) :
    DhEncapsulator.eq eqX (.from_ x) (.from_ y) = eqX x y ∧ DhDecapsulator.eq eqX (.from_ x) (.from_ y) = eqX x y := ⟨rfl, rfl⟩

/-- **C46** X25519 keys are equal for `==` exactly if they mean the same u-coordinate, and then encapsulating to one is
encapsulating to the other, and decapsulating one is decapsulating the other. -/
theorem C46_x25519_equal (ek ek' : DhEncapsulator (Bytes 32)) :
    (ek.eq publicKeyEq ek' = true ↔ decodeUCoordinate ek.into_inner = decodeUCoordinate ek'.into_inner) ∧
    (ek.eq publicKeyEq ek' = true → (∀ (rng : Rng) (s : rng.State),
        X25519Kem.encapsulate x25519 ek rng s = X25519Kem.encapsulate x25519 ek' rng s) ∧
      ∀ dk : DhDecapsulator (Bytes 32),
        X25519Kem.decapsulate x25519 dk ek.into_inner = X25519Kem.decapsulate x25519 dk ek'.into_inner) := by
  have h0 : ek.eq publicKeyEq ek' = true ↔ decodeUCoordinate ek.into_inner = decodeUCoordinate ek'.into_inner :=
    publicKeyEq_iff _ _
  refine ⟨h0, fun h => ?_⟩
  have hu : ∀ k, Rfc7748.X25519 k ek.into_inner = Rfc7748.X25519 k ek'.into_inner := fun k => by
    rw [Rfc7748.X25519, h0.1 h, ← Rfc7748.X25519]
  constructor
  · intro rng s
    have : ∀ k, x25519.diffieHellman k ek.val = x25519.diffieHellman k ek'.val := hu
    simp only [X25519Kem.encapsulate, this]
  · intro dk
    have : ∀ k, x25519.diffieHellman k ek.into_inner = x25519.diffieHellman k ek'.into_inner := hu
    simp only [X25519Kem.decapsulate, this]

/-- Every key has another that is equal for `==`. -/
example (ek : DhEncapsulator (Bytes 32)) :
    ek.eq publicKeyEq (.from_ (otherTop ek.into_inner)) = true ∧ (DhEncapsulator.from_ (otherTop ek.into_inner)) ≠ ek :=
  ⟨(C46_x25519_equal _ _).1.2 (otherTop_decode _).symm, fun h => otherTop_ne _ (congrArg DhEncapsulator.into_inner h)⟩

end Dhkem
