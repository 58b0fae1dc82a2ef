import Verif.Proofs.Vec
/-! K-PKE of the model computes K-PKE of FIPS 203. -/
namespace MlKem
open Rust MInt Fips203 FieldElement Finset

variable [Build]

/-- The parameters of FIPS 203 that a parameter set stands for -/
abbrev ParameterSet.toParams (P : ParameterSet) : Params :=
  { k := P.K, eta1 := P.Eta1.toNat, eta2 := P.Eta2.toNat, du := P.Du, dv := P.Dv }

/-- What the code needs of a parameter set: the PRF counter fits in a byte, and the compression
widths are those the codec supports. -/
structure ParameterSet.Valid (P : ParameterSet) : Prop where
  k : 2 * P.K ≤ 255
  du1 : 1 ≤ P.Du
  du2 : P.Du ≤ 12
  dv1 : 1 ≤ P.Dv
  dv2 : P.Dv ≤ 12

omit [Build] in
theorem valid512 : MlKem512Params.Valid := by constructor <;> decide
omit [Build] in
theorem valid768 : MlKem768Params.Valid := by constructor <;> decide
omit [Build] in
theorem valid1024 : MlKem1024Params.Valid := by constructor <;> decide

variable (S : Sha3) {P : ParameterSet}

/-! ### K-PKE on decoded keys -/

/-- `K-PKE.Encrypt` after the key has been decoded -/
noncomputable def encT (p : Params) (t : Fin p.k → Poly) (rho m r : List UInt8) : List UInt8 :=
  let y : Fin p.k → Poly := fun i => SamplePolyCBD p.eta1 (Fips203.PRF S p.eta1 r i.val)
  let e1 : Fin p.k → Poly := fun i => SamplePolyCBD p.eta2 (Fips203.PRF S p.eta2 r (p.k + i.val))
  let e2 : Poly := SamplePolyCBD p.eta2 (Fips203.PRF S p.eta2 r (2 * p.k))
  let u : Fin p.k → Poly := fun i =>
    NTTinv (∑ j : Fin p.k, MultiplyNTTs (matA S rho j.val i.val) (NTT (y j))) + e1 i
  let mu : Poly := fun i => Decompress 1 (ByteDecode 1 m i)
  let v : Poly := NTTinv (∑ i : Fin p.k, MultiplyNTTs (t i) (NTT (y i))) + e2 + mu
  encodeVec p.du (fun i => fun n => Compress p.du (u i n)) ++
    ByteEncode p.dv (fun n => Compress p.dv (v n))

omit [Build] in
theorem KPKE_Encrypt_eq (p : Params) (ek m r : List UInt8) :
    KPKE_Encrypt S p ek m r
      = encT S p (fun i => ofNats (ByteDecode 12 (block 12 ek i.val)))
          ((ek.drop (384 * p.k)).take 32) m r := rfl

/-- `K-PKE.Decrypt` after the key has been decoded -/
noncomputable def decT (p : Params) (s : Fin p.k → Poly) (c : List UInt8) : List UInt8 :=
  let u : Fin p.k → Poly := fun i n => Decompress p.du (ByteDecode p.du (block p.du c i.val) n)
  let v : Poly := fun n => Decompress p.dv (ByteDecode p.dv (c.drop (32 * p.du * p.k)) n)
  let w : Poly := v - NTTinv (∑ i : Fin p.k, MultiplyNTTs (s i) (NTT (u i)))
  ByteEncode 1 (fun n => Compress 1 (w n))

omit [Build] in
theorem KPKE_Decrypt_eq (p : Params) (dk c : List UInt8) :
    KPKE_Decrypt p dk c = decT p (fun i => ofNats (ByteDecode 12 (block 12 dk i.val))) c := rfl

/-! ### Encoded keys -/

/-- The encoding of a vector of NTT polynomials -/
def enc12 {K : Nat} (t : Fin K → Poly) : List UInt8 := encodeVec 12 fun i => rep (t i)

omit [Build] in
theorem enc12_length {K : Nat} (t : Fin K → Poly) : (enc12 t).length = 384 * K := by
  rw [enc12, encodeVec_length]

omit [Build] in
theorem ofNats_rep (f : Poly) : ofNats (rep f) = f := by
  funext i; simp [ofNats, rep]

omit [Build] in
theorem decode_enc12 {K : Nat} (t : Fin K → Poly) (rest : List UInt8) (i : Fin K) :
    ofNats (ByteDecode 12 (block 12 (enc12 t ++ rest) i.val)) = t i := by
  rw [enc12, block_encodeVec, ByteDecode_ByteEncode (by omega) _ (by omega), ofNats_rep]
  intro n
  exact zval_lt _

omit [Build] in
theorem KPKE_Encrypt_enc12 (p : Params) (t : Fin p.k → Poly) (rho m r : List UInt8)
    (hr : rho.length = 32) : KPKE_Encrypt S p (enc12 t ++ rho) m r = encT S p t rho m r := by
  rw [KPKE_Encrypt_eq]
  congr 1
  · funext i; rw [decode_enc12]
  · rw [List.drop_append_of_le_length (by rw [enc12_length]),
      List.drop_eq_nil_of_le (by rw [enc12_length]), List.nil_append, List.take_of_length_le (by omega)]

omit [Build] in
theorem KPKE_Decrypt_enc12 (p : Params) (s : Fin p.k → Poly) (c : List UInt8) :
    KPKE_Decrypt p (enc12 s) c = decT p s c := by
  rw [KPKE_Decrypt_eq]
  congr 1
  funext i
  have := decode_enc12 s [] i
  rwa [List.append_nil] at this

/-! ### Splitting and joining -/

omit [Build] in
theorem concat_toList {α : Type} {n m : Nat} (a : Vector α n) (b : Vector α m) :
    (concat a b).toList = a.toList ++ b.toList := by
  simp [concat]

omit [Build] in
theorem splitRef_fst {α : Type} {n m : Nat} (a : Vector α (n + m)) :
    (splitRef a).1.toList = a.toList.take n := by
  apply List.ext_getElem <;> simp [splitRef]

omit [Build] in
theorem splitRef_snd {α : Type} {n m : Nat} (a : Vector α (n + m)) :
    (splitRef a).2.toList = a.toList.drop n := by
  apply List.ext_getElem <;> simp [splitRef]

omit [Build] in
theorem concat_bytesOf {n m : Nat} {a b : List UInt8} (ha : a.length = n) (hb : b.length = m) :
    concat (bytesOf a : Bytes n) (bytesOf b : Bytes m) = bytesOf (a ++ b) := by
  apply eq_bytesOf
  rw [concat_toList, toList_bytesOf ha, toList_bytesOf hb]

/-! ### The model -/

omit [Build] in
theorem bytesOf_congr {n : Nat} {a b : List UInt8} (h : a = b) : (bytesOf a : Bytes n) = bytesOf b := by
  rw [h]

omit [Build] in
theorem encT_length (p : Params) (t : Fin p.k → Poly) (rho m r : List UInt8) :
    (encT S p t rho m r).length = p.du * 32 * p.k + p.dv * 32 := by
  unfold encT
  rw [List.length_append, encodeVec_length, ByteEncode_length, Nat.mul_comm 32]

omit [Build] in
theorem decT_length (p : Params) (s : Fin p.k → Poly) (c : List UInt8) :
    (decT p s c).length = 32 := by
  unfold decT
  rw [ByteEncode_length]

theorem encrypt_ok (hP : P.Valid) (t : Fin P.K → Poly) (rho m r : B32)
    (hseed : SeedOk S P.K rho.toList) :
    EncryptionKey.encrypt S (P := P) { t_hat := nv t, rho } m r
      = .ok (bytesOf (encT S P.toParams t rho.toList m.toList r.toList)) := by
  have hk := hP.k
  have tK : (UInt8.ofNat P.K).toNat = P.K := by
    rw [UInt8.toNat_ofNat']; exact Nat.mod_eq_of_lt (by omega)
  unfold EncryptionKey.encrypt
  rw [pv_sample_cbd S P.Eta1 r (n0 := 0) rfl (by omega), Res.ok_bind,
    pv_sample_cbd S P.Eta2 r (n0 := P.K) tK (by omega), Res.ok_bind]
  have t2 : toNat (2 : UInt8) * toNat (UInt8.ofNat P.K) = 2 * P.K := by
    rw [toNat_u8, toNat_u8, tK]; rfl
  have t3 : toNat (ofNat (2 * P.K) : UInt8) = 2 * P.K :=
    toNat_ofNat_lt (α := UInt8) (by simp only [bits_u8]; omega)
  rw [mul_ok (by rw [t2]; simp only [bits_u8]; omega), t2, Res.ok_bind]
  dsimp only
  rw [cbd_ok, PRF_toList, ← toNat_u8, t3, Res.ok_bind, matrix_sample S rho hseed true, Res.ok_bind,
    pv_ntt, Res.ok_bind]
  simp only [if_true]
  rw [mulVec_ok, Res.ok_bind, nv_ntt_inverse, Res.ok_bind, pv_add, Res.ok_bind]
  unfold Polynomial.decode
  rw [byte_decode_raw (by omega) (by omega), Res.ok_bind, Res.ok_bind,
    poly_decompress_ok (by omega) (by omega) (fun i => ByteDecode_lt_pow _ i), Res.ok_bind,
    nv_mul, Res.ok_bind, ntt_inverse_ok, Res.ok_bind, poly_add_ok, Res.ok_bind, poly_add_ok,
    Res.ok_bind, pv_compress hP.du2, Res.ok_bind,
    rv_encode hP.du1 hP.du2 (fun i n => Compress_lt _ _), Res.ok_bind,
    poly_compress_ok hP.dv2, Res.ok_bind]
  unfold Polynomial.encode
  rw [byte_encode_raw hP.dv1 hP.dv2 (fun n => Compress_lt _ _), Res.ok_bind, ParameterSet.concat_ct,
    concat_bytesOf (encodeVec_length _ _) (by rw [ByteEncode_length, Nat.mul_comm])]
  simp only [Nat.zero_add]
  rfl

theorem encrypt_div (hP : P.Valid) (t_hat : NttVector P.K) (rho m r : B32)
    (hseed : ¬ SeedOk S P.K rho.toList) :
    EncryptionKey.encrypt S (P := P) { t_hat, rho } m r = .div := by
  have hk := hP.k
  have tK : (UInt8.ofNat P.K).toNat = P.K := by
    rw [UInt8.toNat_ofNat']; exact Nat.mod_eq_of_lt (by omega)
  unfold EncryptionKey.encrypt
  rw [pv_sample_cbd S P.Eta1 r (n0 := 0) rfl (by omega), Res.ok_bind,
    pv_sample_cbd S P.Eta2 r (n0 := P.K) tK (by omega), Res.ok_bind]
  have t2 : toNat (2 : UInt8) * toNat (UInt8.ofNat P.K) = 2 * P.K := by
    rw [toNat_u8, toNat_u8, tK]; rfl
  rw [mul_ok (by rw [t2]; simp only [bits_u8]; omega), t2, Res.ok_bind]
  dsimp only
  rw [cbd_ok, Res.ok_bind, matrix_sample_div S rho hseed true, Res.div_bind]

theorem decrypt_ok (hP : P.Valid) (s : Fin P.K → Poly) (c : P.EncodedCiphertext) :
    DecryptionKey.decrypt (P := P) { s_hat := nv s } c
      = .ok (bytesOf (decT P.toParams s c.toList)) := by
  unfold DecryptionKey.decrypt ParameterSet.split_ct
  dsimp only
  have e1 : (splitRef c).1.toList = c.toList.take (P.Du * 32 * P.K) := splitRef_fst c
  have e2 : (splitRef c).2.toList = c.toList.drop (32 * P.Du * P.K) := by
    rw [splitRef_snd c, Nat.mul_comm 32]
  have hblk : ∀ i : Fin P.K, block P.Du (splitRef c).1.toList i.val = block P.Du c.toList i.val := by
    intro i
    have hle : 32 * P.Du * i.val + 32 * P.Du ≤ 32 * P.Du * P.K := by
      rw [← Nat.mul_succ]; exact Nat.mul_le_mul_left _ i.isLt
    rw [e1, block, block, List.drop_take, List.take_take, Nat.min_eq_left]
    rw [Nat.mul_comm P.Du 32]; omega
  rw [rv_decode hP.du1 hP.du2, Res.ok_bind,
    rv_decompress hP.du1 hP.du2 (fun i n => ByteDecode_lt_pow _ n), Res.ok_bind]
  simp only [hblk]
  unfold Polynomial.decode
  rw [byte_decode_raw hP.dv1 hP.dv2, Res.ok_bind, Res.ok_bind, e2,
    poly_decompress_ok hP.dv1 hP.dv2 (fun n => ByteDecode_lt_pow _ n), Res.ok_bind, pv_ntt,
    Res.ok_bind, nv_mul, Res.ok_bind, ntt_inverse_ok, Res.ok_bind, poly_sub_ok, Res.ok_bind,
    poly_compress_ok (by omega), Res.ok_bind]
  unfold Polynomial.encode
  rw [byte_encode_raw (by omega) (by omega) (fun n => Compress_lt _ _)]
  rfl

theorem dk_as_bytes_ok (s : Fin P.K → Poly) :
    DecryptionKey.as_bytes (P := P) { s_hat := nv s } = .ok (bytesOf (enc12 s)) :=
  nv_encode s

theorem ek_as_bytes_ok (t : Fin P.K → Poly) (rho : B32) :
    EncryptionKey.as_bytes (P := P) { t_hat := nv t, rho } = .ok (bytesOf (enc12 t ++ rho.toList)) := by
  unfold EncryptionKey.as_bytes encode_u12
  rw [nv_encode, Res.ok_bind, ParameterSet.concat_ek]
  congr 1
  apply eq_bytesOf
  rw [concat_toList, toList_bytesOf (encodeVec_length _ _)]
  rfl

theorem dk_from_bytes_ok (b : P.EncodedDecryptionKey) :
    DecryptionKey.from_bytes b
      = .ok { s_hat := nv fun i => ofNats (ByteDecode 12 (block 12 b.toList i.val)) } := by
  unfold DecryptionKey.from_bytes decode_u12
  rw [nv_decode, Res.ok_bind]

theorem ek_from_bytes_ok (b : P.EncodedEncryptionKey) :
    EncryptionKey.from_bytes b
      = .ok { t_hat := nv fun i => ofNats (ByteDecode 12 (block 12 b.toList i.val)),
              rho := bytesOf ((b.toList.drop (384 * P.K)).take 32) } := by
  unfold EncryptionKey.from_bytes decode_u12 ParameterSet.split_ek
  dsimp only
  have e1 : (splitRef b).1.toList = b.toList.take (384 * P.K) := splitRef_fst b
  have e2 : (splitRef b).2.toList = b.toList.drop (384 * P.K) := splitRef_snd b
  have hblk : ∀ i : Fin P.K, block 12 (splitRef b).1.toList i.val = block 12 b.toList i.val := by
    intro i
    have hle : 384 * i.val + 384 ≤ 384 * P.K := by
      rw [← Nat.mul_succ]; exact Nat.mul_le_mul_left _ i.isLt
    rw [e1, block, block, List.drop_take, List.take_take, Nat.min_eq_left]
    omega
  rw [nv_decode, Res.ok_bind]
  have hrho : (splitRef b).2 = bytesOf ((b.toList.drop (384 * P.K)).take 32) := by
    apply eq_bytesOf
    rw [e2, List.take_of_length_le]
    rw [List.length_drop, Vector.length_toList]
    show 12 * 32 * P.K + 32 - 384 * P.K ≤ 32
    omega
  simp only [hblk, hrho]

/-! ### Key generation -/

/-- The secret vector, in the NTT domain -/
noncomputable def genS (p : Params) (sigma : List UInt8) : Fin p.k → Poly := fun i =>
  NTT (SamplePolyCBD p.eta1 (Fips203.PRF S p.eta1 sigma i.val))

/-- The public vector, in the NTT domain -/
noncomputable def genT (p : Params) (rho sigma : List UInt8) : Fin p.k → Poly := fun i =>
  (∑ j : Fin p.k, MultiplyNTTs (matA S rho i.val j.val) (genS S p sigma j)) +
    NTT (SamplePolyCBD p.eta1 (Fips203.PRF S p.eta1 sigma (p.k + i.val)))

omit [Build] in
theorem KPKE_KeyGen_eq (p : Params) (d : List UInt8) :
    KPKE_KeyGen S p d = (enc12 (genT S p (seeds S p d).1 (seeds S p d).2) ++ (seeds S p d).1,
      enc12 (genS S p (seeds S p d).2)) := rfl

omit [Build] in
theorem seeds_length (p : Params) (d : List UInt8) :
    (seeds S p d).1.length = 32 ∧ (seeds S p d).2.length = 32 := by
  simp [seeds, Fips203.G]

theorem generate_ok (hP : P.Valid) (d : B32)
    (hseed : SeedOk S P.K (seeds S P.toParams d.toList).1) :
    DecryptionKey.generate S P d = .ok
      ({ s_hat := nv (genS S P.toParams (seeds S P.toParams d.toList).2) },
       { t_hat := nv (genT S P.toParams (seeds S P.toParams d.toList).1
            (seeds S P.toParams d.toList).2),
         rho := bytesOf (seeds S P.toParams d.toList).1 }) := by
  have hk := hP.k
  have tK : (UInt8.ofNat P.K).toNat = P.K := by
    rw [UInt8.toNat_ofNat']; exact Nat.mod_eq_of_lt (by omega)
  unfold DecryptionKey.generate
  dsimp only
  have g1 := G_fst S [d.toList, [UInt8.ofNat P.K]]
  have g2 := G_snd S [d.toList, [UInt8.ofNat P.K]]
  have hfl : [d.toList, [UInt8.ofNat P.K]].flatten = d.toList ++ [UInt8.ofNat P.K] := by simp
  rw [hfl] at g1 g2
  change _ = (seeds S P.toParams d.toList).1 at g1
  change _ = (seeds S P.toParams d.toList).2 at g2
  generalize hG : MlKem.G S [d.toList, [UInt8.ofNat P.K]] = Gv at *
  obtain ⟨rho, sigma⟩ := Gv
  dsimp only at g1 g2 ⊢
  rw [← g1] at hseed
  rw [matrix_sample S rho hseed false, Res.ok_bind,
    pv_sample_cbd S P.Eta1 sigma (n0 := 0) rfl (by omega), Res.ok_bind,
    pv_sample_cbd S P.Eta1 sigma (n0 := P.K) tK (by omega), Res.ok_bind, pv_ntt, Res.ok_bind, pv_ntt,
    Res.ok_bind]
  simp only [Bool.false_eq_true, if_false]
  rw [mulVec_ok, Res.ok_bind, nv_add, Res.ok_bind]
  simp only [Nat.zero_add, ← g1, ← g2, bytesOf_toList]
  rfl

theorem generate_div (P : ParameterSet) (d : B32)
    (hseed : ¬ SeedOk S P.K (seeds S P.toParams d.toList).1) :
    DecryptionKey.generate S P d = .div := by
  unfold DecryptionKey.generate
  dsimp only
  have g1 := G_fst S [d.toList, [UInt8.ofNat P.K]]
  have hfl : [d.toList, [UInt8.ofNat P.K]].flatten = d.toList ++ [UInt8.ofNat P.K] := by simp
  rw [hfl] at g1
  change _ = (seeds S P.toParams d.toList).1 at g1
  generalize hG : MlKem.G S [d.toList, [UInt8.ofNat P.K]] = Gv at *
  obtain ⟨rho, sigma⟩ := Gv
  dsimp only at g1 ⊢
  rw [← g1] at hseed
  rw [matrix_sample_div S rho hseed false, Res.div_bind]

end MlKem
