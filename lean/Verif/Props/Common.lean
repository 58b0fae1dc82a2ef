import Verif.Proofs.Noise
import Verif.Spec.Layout
/-! Vocabulary of the property statements: supported parameter sets and keys a caller can hold. -/
namespace MlKem
open Rust Fips203

variable [Build]

/-- The parameter set `P` of the code has the parameters `p` of FIPS 203, and these are in the
range the code supports: the byte counter of the PRF reaches `2k`, the compression widths are
`1, …, 12`. User-defined parameter sets are covered as well. -/
structure Supported (P : ParameterSet) (p : Params) : Prop where
  k : p.k = P.K
  eta1 : p.eta1 = P.Eta1.toNat
  eta2 : p.eta2 = P.Eta2.toNat
  du : p.du = P.Du
  dv : p.dv = P.Dv
  k_le : 2 * p.k ≤ 255
  du_pos : 1 ≤ p.du
  du_le : p.du ≤ 12
  dv_pos : 1 ≤ p.dv
  dv_le : p.dv ≤ 12

omit [Build] in
/-- The three standardised parameter sets (FIPS 203 table 2) are supported. -/
theorem supported_512 : Supported MlKem512Params ML_KEM_512 := by constructor <;> decide
omit [Build] in
theorem supported_768 : Supported MlKem768Params ML_KEM_768 := by constructor <;> decide
omit [Build] in
theorem supported_1024 : Supported MlKem1024Params ML_KEM_1024 := by constructor <;> decide

omit [Build] in
theorem Supported.eq {P : ParameterSet} {p : Params} (h : Supported P p) : p = P.toParams := by
  obtain ⟨k, e1, e2, du, dv, -⟩ := h
  cases p
  simp only at k e1 e2 du dv
  subst k e1 e2 du dv
  rfl

omit [Build] in
theorem Supported.valid {P : ParameterSet} (h : Supported P P.toParams) : P.Valid :=
  ⟨h.k_le, h.du_pos, h.du_le, h.dv_pos, h.dv_le⟩

variable (S : Sha3) {P : ParameterSet}

/-- Decapsulation keys a caller can obtain: generated from seeds, from an rng, or parsed from an
arbitrary byte string. -/
inductive DkReach : DecapsulationKey P → Prop
  | generated {d z : B32} {dk ek} (h : Kem.generate_deterministic S P d z = .ok (dk, ek)) : DkReach dk
  | sampled {rng : Rng} {s s' : rng.State} {dk ek}
      (h : Kem.generate S P rng s = .ok ((dk, ek), s')) : DkReach dk
  | parsed {b : P.EncodedDecapsulationKey} {dk}
      (h : DecapsulationKey.from_bytes b = .ok dk) : DkReach dk

/-- Encapsulation keys a caller can obtain: generated from seeds, from an rng, or parsed from an
arbitrary byte string. (`encapsulation_key()` of a generated key pair gives the same key, see
`generate_consistent`; of a parsed decapsulation key, see `EkHeld`.) -/
inductive EkReach : EncapsulationKey P → Prop
  | generated {d z : B32} {dk ek} (h : Kem.generate_deterministic S P d z = .ok (dk, ek)) : EkReach ek
  | sampled {rng : Rng} {s s' : rng.State} {dk ek}
      (h : Kem.generate S P rng s = .ok ((dk, ek), s')) : EkReach ek
  | parsed {b : P.EncodedEncryptionKey} {ek}
      (h : EncapsulationKey.from_bytes S b = .ok ek) : EkReach ek

/-- All encapsulation keys a caller can hold, including those taken out of a decapsulation key -/
inductive EkHeld : EncapsulationKey P → Prop
  | reach {ek} (h : EkReach S ek) : EkHeld ek
  | ofDk {dk : DecapsulationKey P} (h : DkReach S dk) : EkHeld dk.encapsulation_key

/-! ### Shape of the keys -/

theorem generate_ok_iff (hP : P.Valid) {d z : B32} {dk ek} :
    Kem.generate_deterministic S P d z = .ok (dk, ek) ↔
      SeedOk S P.K (seeds S P.toParams d.toList).1 ∧ dk = genDk S P d z ∧ ek = genEk S P d := by
  by_cases hs : SeedOk S P.K (seeds S P.toParams d.toList).1
  · rw [kem_generate_ok S hP d z hs]
    simp only [Res.ok.injEq, Prod.mk.injEq, hs, true_and]
    constructor <;> rintro ⟨rfl, rfl⟩ <;> exact ⟨rfl, rfl⟩
  · rw [kem_generate_div S P d z hs]
    simp [hs]

theorem generate_rng_eq (P : ParameterSet) (rng : Rng) (s : rng.State) :
    Kem.generate S P rng s = (do
      let (d, s1) ← rng.fill_bytes 32 s
      let (z, s2) ← rng.fill_bytes 32 s1
      .ok (← Kem.generate_deterministic S P d z, s2)) := by
  unfold Kem.generate DecapsulationKey.generate rand
  cases h1 : rng.fill_bytes 32 s with
  | ok r =>
    obtain ⟨d, s1⟩ := r
    simp only [Res.ok_bind]
    cases h2 : rng.fill_bytes 32 s1 with
    | ok r =>
      obtain ⟨z, s2⟩ := r
      simp only [Res.ok_bind, Kem.generate_deterministic]
      cases DecapsulationKey.generate_deterministic S P d z <;> rfl
    | panic => rfl
    | div => rfl
  | panic => rfl
  | div => rfl

theorem sampled_generated {rng : Rng} {s s' : rng.State} {dk : DecapsulationKey P} {ek}
    (h : Kem.generate S P rng s = .ok ((dk, ek), s')) :
    ∃ d z s1, rng.fill_bytes 32 s = .ok (d, s1) ∧ rng.fill_bytes 32 s1 = .ok (z, s') ∧
      Kem.generate_deterministic S P d z = .ok (dk, ek) := by
  rw [generate_rng_eq, Res.bind_eq_ok] at h
  obtain ⟨⟨d, s1⟩, h1, h⟩ := h
  rw [Res.bind_eq_ok] at h
  obtain ⟨⟨z, s2⟩, h2, h⟩ := h
  rw [Res.bind_eq_ok] at h
  obtain ⟨⟨dk', ek'⟩, h3, h⟩ := h
  simp only [Res.ok.injEq, Prod.mk.injEq] at h
  obtain ⟨⟨rfl, rfl⟩, rfl⟩ := h
  exact ⟨d, z, s1, h1, h2, h3⟩

theorem EkReach.shape (hP : P.Valid) {ek : EncapsulationKey P} (h : EkReach S ek) :
    ∃ t rho, ek = ekOf t rho (Hash S (ekBytes t rho)) := by
  cases h with
  | generated h =>
    obtain ⟨-, -, rfl⟩ := (generate_ok_iff S hP).1 h
    exact ⟨_, _, rfl⟩
  | sampled h =>
    obtain ⟨d, z, s1, -, -, h⟩ := sampled_generated S h
    obtain ⟨-, -, rfl⟩ := (generate_ok_iff S hP).1 h
    exact ⟨_, _, rfl⟩
  | @parsed b _ h =>
    obtain ⟨t, rho, -, -, h'⟩ := kem_ek_from_bytes S b
    rw [h'] at h
    exact ⟨t, rho, (Res.ok.inj h).symm⟩

theorem DkReach.shape (hP : P.Valid) {dk : DecapsulationKey P} (h : DkReach S dk) :
    ∃ s t rho h z, dk = dkOf s t rho h z := by
  cases h with
  | generated h =>
    obtain ⟨-, rfl, -⟩ := (generate_ok_iff S hP).1 h
    exact ⟨_, _, _, _, _, rfl⟩
  | sampled h =>
    obtain ⟨d, z, s1, -, -, h⟩ := sampled_generated S h
    obtain ⟨-, rfl, -⟩ := (generate_ok_iff S hP).1 h
    exact ⟨_, _, _, _, _, rfl⟩
  | @parsed b _ h =>
    obtain ⟨s, t, rho, hh, z, -, -, -, -, -, h'⟩ := kem_dk_from_bytes b
    rw [h'] at h
    exact ⟨s, t, rho, hh, z, (Res.ok.inj h).symm⟩

theorem EkHeld.shape (hP : P.Valid) {ek : EncapsulationKey P} (h : EkHeld S ek) :
    ∃ t rho h, ek = ekOf t rho h := by
  cases h with
  | reach h => obtain ⟨t, rho, rfl⟩ := h.shape S hP; exact ⟨_, _, _, rfl⟩
  | ofDk h => obtain ⟨s, t, rho, h, z, rfl⟩ := h.shape S hP; exact ⟨_, _, _, rfl⟩

omit [Build] in
theorem ekBytes_take {t : Fin P.K → Poly} {rho : B32} :
    ((ekBytes t rho).drop (384 * P.K)).take 32 = rho.toList := by
  rw [ekBytes, List.drop_left' (enc12_length t), List.take_of_length_le (by rw [Vector.length_toList])]

omit [Build] in
theorem ekBytes_inj {t t' : Fin P.K → Poly} {rho rho' : B32} (h : ekBytes t rho = ekBytes t' rho') :
    t = t' ∧ rho = rho' := by
  constructor
  · funext i
    have h1 := decode_enc12 t rho.toList i
    have h2 := decode_enc12 t' rho'.toList i
    rw [← ekBytes, h, ekBytes, h2] at h1
    exact h1.symm
  · apply bytes_ext
    rw [← ekBytes_take (t := t), h, ekBytes_take]

omit [Build] in
theorem dkBytes_inj {s s' t t' : Fin P.K → Poly} {rho rho' h h' z z' : B32}
    (e : dkBytes s t rho h z = dkBytes s' t' rho' h' z') :
    s = s' ∧ t = t' ∧ rho = rho' ∧ h = h' ∧ z = z' := by
  unfold dkBytes at e
  have lz := Vector.length_toList (xs := z)
  have lz' := Vector.length_toList (xs := z')
  have lh := Vector.length_toList (xs := h)
  have lh' := Vector.length_toList (xs := h')
  have l1 := enc12_length s
  have l1' := enc12_length s'
  have l2 := ekBytes_length t rho
  have l2' := ekBytes_length t' rho'
  obtain ⟨e, ez⟩ := List.append_inj e (by simp only [List.length_append]; omega)
  obtain ⟨e, eh⟩ := List.append_inj e (by simp only [List.length_append]; omega)
  obtain ⟨e1, e2⟩ := List.append_inj e (by omega)
  obtain ⟨et, er⟩ := ekBytes_inj e2
  refine ⟨?_, et, er, bytes_ext eh, bytes_ext ez⟩
  funext i
  have h1 := decode_enc12 s [] i
  have h2 := decode_enc12 s' [] i
  rw [e1, h2] at h1
  exact h1.symm

omit [Build] in
theorem dk_size {s t : Fin P.K → Poly} {rho h z : B32} :
    (dkBytes s t rho h z).length = P.DecapsulationKeySize := by
  rw [dkBytes_length]; show _ = 12 * 32 * P.K + (12 * 32 * P.K + 32) + 32 + 32; omega

omit [Build] in
theorem dkEk_dkBytes (s t : Fin P.K → Poly) (rho h z : B32) :
    dkEk P.toParams (dkBytes s t rho h z) = ekBytes t rho := by
  unfold dkEk
  rw [dkBytes, List.append_assoc, List.append_assoc, List.drop_left' (enc12_length s),
    List.take_left' (ekBytes_length t rho)]

omit [Build] in
theorem dkH_dkBytes (s t : Fin P.K → Poly) (rho h z : B32) :
    dkH P.toParams (dkBytes s t rho h z) = h.toList := by
  have l1 : (enc12 s).length = 384 * P.K := enc12_length s
  have l2 := ekBytes_length t rho
  show ((dkBytes s t rho h z).drop (768 * P.K + 32)).take 32 = _
  rw [dkBytes, List.append_assoc (enc12 s ++ ekBytes t rho),
      List.drop_left' (by rw [List.length_append]; omega), List.take_left' h.length_toList]

omit [Build] in
theorem dkZ_dkBytes (s t : Fin P.K → Poly) (rho h z : B32) :
    dkZ P.toParams (dkBytes s t rho h z) = z.toList := by
  have l1 : (enc12 s).length = 384 * P.K := enc12_length s
  have l2 := ekBytes_length t rho
  have l3 : h.toList.length = 32 := h.length_toList
  show ((dkBytes s t rho h z).drop (768 * P.K + 64)).take 32 = _
  rw [dkBytes, List.drop_left' (by simp only [List.length_append]; omega),
      List.take_of_length_le (by rw [z.length_toList])]

/-- Parsing the encoding of a key object -/
theorem ek_from_ekBytes (t : Fin P.K → Poly) (rho : B32) :
    EncapsulationKey.from_bytes S (P := P) (bytesOf (ekBytes t rho))
      = .ok (ekOf t rho (Hash S (ekBytes t rho))) := by
  obtain ⟨t', rho', ht, hr, h⟩ := kem_ek_from_bytes S (P := P) (bytesOf (ekBytes t rho))
  rw [toList_bytesOf (ekBytes_length t rho)] at ht hr
  rw [ekBytes_take] at hr
  obtain rfl : t' = t := by
    funext i; rw [ht, ekBytes, decode_enc12]
  obtain rfl := bytes_ext hr
  exact h

theorem dk_from_dkBytes (s t : Fin P.K → Poly) (rho h z : B32) :
    DecapsulationKey.from_bytes (P := P) (bytesOf (dkBytes s t rho h z)) = .ok (dkOf s t rho h z) := by
  obtain ⟨s', t', rho', h', z', hs, ht, hr, hh, hz, hf⟩ :=
    kem_dk_from_bytes (P := P) (bytesOf (dkBytes s t rho h z))
  have hlen : (dkBytes s t rho h z).length = P.DecapsulationKeySize := by
    rw [dkBytes_length]; show _ = 12 * 32 * P.K + (12 * 32 * P.K + 32) + 32 + 32; omega
  rw [toList_bytesOf hlen] at hs ht hr hh hz
  have l1 : (enc12 s).length = 384 * P.K := enc12_length s
  have l2 := ekBytes_length t rho
  have l3 : h.toList.length = 32 := h.length_toList
  have l4 : z.toList.length = 32 := z.length_toList
  have e1 : (dkBytes s t rho h z).take (384 * P.K) = enc12 s := by
    rw [dkBytes, List.append_assoc, List.append_assoc, List.take_left' l1]
  have e2 : ((dkBytes s t rho h z).drop (384 * P.K)).take (384 * P.K + 32) = ekBytes t rho := by
    rw [dkBytes, List.append_assoc, List.append_assoc, List.drop_left' l1, List.take_left' l2]
  have e3 : ((dkBytes s t rho h z).drop (768 * P.K + 32)).take 32 = h.toList := by
    rw [dkBytes, List.append_assoc (enc12 s ++ ekBytes t rho),
      List.drop_left' (by rw [List.length_append]; omega), List.take_left' l3]
  have e4 : ((dkBytes s t rho h z).drop (768 * P.K + 64)).take 32 = z.toList := by
    rw [dkBytes, List.drop_left' (by simp only [List.length_append]; omega),
      List.take_of_length_le (by omega)]
  rw [e1] at hs
  rw [e2] at ht hr
  rw [e3] at hh
  rw [e4] at hz
  rw [ekBytes_take] at hr
  obtain rfl : s' = s := by
    funext i; rw [hs]; have := decode_enc12 s [] i; rwa [List.append_nil] at this
  obtain rfl : t' = t := by
    funext i; rw [ht, ekBytes, decode_enc12]
  obtain rfl := bytes_ext hr
  obtain rfl := bytes_ext hh
  obtain rfl := bytes_ext hz
  exact hf

end MlKem
