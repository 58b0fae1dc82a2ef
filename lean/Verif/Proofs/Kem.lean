import Verif.Model.Kem
import Verif.Proofs.Pke
/-! ML-KEM of the model computes ML-KEM of FIPS 203. -/
namespace MlKem
open Rust MInt Fips203 FieldElement Finset

variable [Build]

/-! ### Branch-free selection -/

theorem ct_eq_table : ∀ d : Fin 256,
    (Rust.shr (Rust.and (Rust.not (UInt8.ofNat d.val)) (Rust.wrappingSub (UInt8.ofNat d.val) 1)) 7
      >>= fun b => Res.ok (Rust.wrappingSub (0 : UInt8) b))
    = .ok (if d.val = 0 then (0xff : UInt8) else 0) := by
  have h : ∀ d : Fin 256, Rust.wrappingSub (0 : UInt8) (ofNat (toNat (Rust.and (Rust.not (UInt8.ofNat d.val))
      (Rust.wrappingSub (UInt8.ofNat d.val) 1)) / 2 ^ 7)) = if d.val = 0 then (0xff : UInt8) else 0 := by
    decide +kernel
  intro d
  rw [shr_ok (by decide), Res.ok_bind, h d]

theorem constant_time_eq_ok (x y : UInt8) :
    constant_time_eq x y = .ok (if x = y then 0xff else 0) := by
  have hx : (Rust.xor x y) = UInt8.ofNat (x.toNat ^^^ y.toNat) := rfl
  have hlt : x.toNat ^^^ y.toNat < 256 := Nat.xor_lt_two_pow (n := 8) x.toNat_lt y.toNat_lt
  have h := ct_eq_table ⟨_, hlt⟩
  unfold constant_time_eq
  rw [hx]
  dsimp only at h ⊢
  rw [h]
  congr 1
  have : x.toNat ^^^ y.toNat = 0 ↔ x = y := by
    rw [Nat.xor_eq_zero_iff]
    exact UInt8.toNat_inj
  simp only [this]

omit [Build] in
theorem and_ff (x : UInt8) : Rust.and (0xff : UInt8) x = x := by
  have : ∀ d : Fin 256, Rust.and (0xff : UInt8) (UInt8.ofNat d.val) = UInt8.ofNat d.val := by
    decide +kernel
  have h := this ⟨x.toNat, x.toNat_lt⟩
  simpa using h

omit [Build] in
theorem and_zero (x : UInt8) : Rust.and (0 : UInt8) x = 0 := by
  simp [Rust.and, toNat, MInt.ofNat]

omit [Build] in
theorem or_zero (x : UInt8) : Rust.or x (0 : UInt8) = x := by
  simp [Rust.or, toNat, MInt.ofNat]

omit [Build] in
theorem zero_or (x : UInt8) : Rust.or (0 : UInt8) x = x := by
  simp [Rust.or, toNat, MInt.ofNat]

omit [Build] in
theorem foldl_and_mask (l : List Bool) (b : Bool) :
    (l.map fun e => if e then (0xff : UInt8) else 0).foldl (fun x y => Rust.and x y)
      (if b then 0xff else 0) = if b && l.all id then 0xff else 0 := by
  induction l generalizing b with
  | nil => simp
  | cons e l ih =>
    have : Rust.and (if b then (0xff : UInt8) else 0) (if e then (0xff : UInt8) else 0)
        = if b && e then 0xff else 0 := by
      cases b <;> cases e <;> decide
    rw [List.map_cons, List.foldl_cons, this, ih]
    simp [Bool.and_assoc]

theorem ctEqualMask_ok {n : Nat} (a b : Bytes n) :
    ctEqualMask a b = .ok (if a = b then 0xff else 0) := by
  unfold ctEqualMask
  rw [zipVec_ok (g := fun i => if a[i] = b[i] then 0xff else 0) (fun i => constant_time_eq_ok _ _),
    Res.ok_bind]
  congr 1
  have h : (Vector.ofFn fun i : Fin n => if a[i] = b[i] then (0xff : UInt8) else 0).toList
      = (List.ofFn fun i : Fin n => decide (a[i] = b[i])).map (fun e => if e then (0xff : UInt8) else 0) := by
    rw [Vector.toList_ofFn, List.map_ofFn]
    congr 1
    funext i
    simp
  rw [h]
  have := foldl_and_mask (List.ofFn fun i : Fin n => decide (a[i] = b[i])) true
  simp only [if_true, Bool.true_and] at this
  rw [this]
  congr 1
  simp only [List.all_eq_true, List.forall_mem_ofFn_iff, id, decide_eq_true_eq, eq_iff_iff]
  constructor
  · intro hi; apply Vector.ext; intro i hi'; exact hi ⟨i, hi'⟩
  · rintro rfl; simp

omit [Build] in
theorem ctSelect_ff (a b : B32) : ctSelect 0xff a b = a := by
  have hn : Rust.not (0xff : UInt8) = 0 := by decide
  ext i hi
  simp only [ctSelect, Vector.getElem_ofFn, hn, and_ff, and_zero, or_zero]
  simp

omit [Build] in
theorem ctSelect_zero (a b : B32) : ctSelect 0 a b = b := by
  have hn : Rust.not (0 : UInt8) = 0xff := by decide
  ext i hi
  simp only [ctSelect, Vector.getElem_ofFn, hn, and_ff, and_zero, zero_or]
  simp

omit [Build] in
theorem ctSelect_if (c : Prop) [Decidable c] (a b : B32) :
    ctSelect (if c then 0xff else 0) a b = if c then a else b := by
  split
  · exact ctSelect_ff a b
  · exact ctSelect_zero a b

/-! ### Keys -/
variable (S : Sha3) {P : ParameterSet}

/-- The encapsulation key object with given fields -/
noncomputable def ekOf (t : Fin P.K → Poly) (rho h : B32) : EncapsulationKey P :=
  { ek_pke := { t_hat := nv t, rho }, h }

/-- The decapsulation key object with given fields -/
noncomputable def dkOf (s t : Fin P.K → Poly) (rho h z : B32) : DecapsulationKey P :=
  { dk_pke := { s_hat := nv s }, ek := ekOf t rho h, z }

/-- The encoding of an encapsulation key -/
def ekBytes (t : Fin P.K → Poly) (rho : B32) : List UInt8 := enc12 t ++ rho.toList

/-- The encoding of a decapsulation key -/
def dkBytes (s t : Fin P.K → Poly) (rho h z : B32) : List UInt8 :=
  enc12 s ++ ekBytes t rho ++ h.toList ++ z.toList

omit [Build] in
theorem ekBytes_length (t : Fin P.K → Poly) (rho : B32) :
    (ekBytes t rho).length = 384 * P.K + 32 := by
  rw [ekBytes, List.length_append, enc12_length, Vector.length_toList]

omit [Build] in
theorem dkBytes_length (s t : Fin P.K → Poly) (rho h z : B32) :
    (dkBytes s t rho h z).length = 768 * P.K + 96 := by
  rw [dkBytes, List.length_append, List.length_append, List.length_append, enc12_length,
    ekBytes_length, Vector.length_toList, Vector.length_toList]
  omega

theorem kem_ek_as_bytes (t : Fin P.K → Poly) (rho h : B32) :
    (ekOf t rho h).as_bytes = .ok (bytesOf (ekBytes t rho)) :=
  ek_as_bytes_ok t rho

theorem kem_dk_as_bytes (s t : Fin P.K → Poly) (rho h z : B32) :
    (dkOf s t rho h z).as_bytes = .ok (bytesOf (dkBytes s t rho h z)) := by
  unfold DecapsulationKey.as_bytes dkOf
  dsimp only
  rw [dk_as_bytes_ok, Res.ok_bind, kem_ek_as_bytes, Res.ok_bind, ParameterSet.concat_dk]
  congr 1
  apply eq_bytesOf
  rw [concat_toList, concat_toList, concat_toList, toList_bytesOf (enc12_length _),
    toList_bytesOf (ekBytes_length _ _)]
  rfl

theorem new_ok (t : Fin P.K → Poly) (rho : B32) :
    EncapsulationKey.new S (P := P) { t_hat := nv t, rho }
      = .ok (ekOf t rho (Hash S (ekBytes t rho))) := by
  unfold EncapsulationKey.new
  rw [ek_as_bytes_ok, Res.ok_bind, ← ekBytes, toList_bytesOf (ekBytes_length t rho)]
  rfl

theorem kem_ek_from_bytes (b : P.EncodedEncryptionKey) :
    ∃ (t : Fin P.K → Poly) (rho : B32),
      (∀ i, t i = ofNats (ByteDecode 12 (block 12 b.toList i.val))) ∧
      rho.toList = (b.toList.drop (384 * P.K)).take 32 ∧
      EncapsulationKey.from_bytes S b = .ok (ekOf t rho (Hash S (ekBytes t rho))) := by
  refine ⟨_, bytesOf ((b.toList.drop (384 * P.K)).take 32), fun i => rfl, ?_, ?_⟩
  · apply toList_bytesOf
    rw [List.length_take, List.length_drop, Vector.length_toList]
    show min 32 (12 * 32 * P.K + 32 - 384 * P.K) = 32
    omega
  · unfold EncapsulationKey.from_bytes
    rw [ek_from_bytes_ok, Res.ok_bind, new_ok]

theorem kem_dk_from_bytes (b : P.EncodedDecapsulationKey) :
    ∃ (s t : Fin P.K → Poly) (rho h z : B32),
      (∀ i, s i = ofNats (ByteDecode 12 (block 12 (b.toList.take (384 * P.K)) i.val))) ∧
      (∀ i, t i = ofNats (ByteDecode 12
        (block 12 ((b.toList.drop (384 * P.K)).take (384 * P.K + 32)) i.val))) ∧
      rho.toList = (((b.toList.drop (384 * P.K)).take (384 * P.K + 32)).drop (384 * P.K)).take 32 ∧
      h.toList = (b.toList.drop (768 * P.K + 32)).take 32 ∧
      z.toList = (b.toList.drop (768 * P.K + 64)).take 32 ∧
      DecapsulationKey.from_bytes b = .ok (dkOf s t rho h z) := by
  have hlen : b.toList.length = 768 * P.K + 96 := by
    rw [Vector.length_toList]; show 12 * 32 * P.K + (12 * 32 * P.K + 32) + 32 + 32 = _; omega
  unfold DecapsulationKey.from_bytes ParameterSet.split_dk
  dsimp only
  generalize hz : (splitRef b).2 = z
  generalize h1 : (splitRef b).1 = b1
  generalize hh : (splitRef b1).2 = h
  generalize h2 : (splitRef b1).1 = b2
  generalize hek : (splitRef b2).2 = ek
  generalize hdk : (splitRef b2).1 = dk
  have n12 : ∀ n, EncodedPolynomialVectorSize 12 n = 384 * n := fun n => by
    show 12 * 32 * n = _; omega
  have ez : z.toList = (b.toList.drop (768 * P.K + 64)).take 32 := by
    rw [← hz, splitRef_snd, List.take_of_length_le (by rw [List.length_drop]; omega)]
    congr 1
    show 12 * 32 * P.K + (12 * 32 * P.K + 32) + 32 = _; omega
  have e1 : b1.toList = b.toList.take (768 * P.K + 64) := by
    rw [← h1, splitRef_fst]
    congr 1
    show 12 * 32 * P.K + (12 * 32 * P.K + 32) + 32 = _; omega
  have eh : h.toList = (b.toList.drop (768 * P.K + 32)).take 32 := by
    rw [← hh, splitRef_snd, e1, List.drop_take]
    have : 12 * 32 * P.K + (12 * 32 * P.K + 32) = 768 * P.K + 32 := by omega
    show ((b.toList.drop (12 * 32 * P.K + (12 * 32 * P.K + 32))).take
      (768 * P.K + 64 - (12 * 32 * P.K + (12 * 32 * P.K + 32)))) = _
    rw [this]
    congr 1
    omega
  have e2 : b2.toList = b.toList.take (768 * P.K + 32) := by
    rw [← h2, splitRef_fst, e1, List.take_take]
    congr 1
    show min (12 * 32 * P.K + (12 * 32 * P.K + 32)) _ = _
    omega
  have eek : ek.toList = (b.toList.drop (384 * P.K)).take (384 * P.K + 32) := by
    rw [← hek, splitRef_snd, e2, List.drop_take, show P.NttVectorSize = 384 * P.K from n12 _]
    congr 1
    omega
  have edk : dk.toList = b.toList.take (384 * P.K) := by
    rw [← hdk, splitRef_fst, e2, List.take_take]
    congr 1
    show min (12 * 32 * P.K) _ = _
    omega
  rw [ek_from_bytes_ok, Res.ok_bind, dk_from_bytes_ok, Res.ok_bind, edk, eek]
  refine ⟨_, _, _, h, z, fun i => rfl, fun i => rfl, ?_, eh, ez, rfl⟩
  apply toList_bytesOf
  rw [List.length_take, List.length_drop, List.length_take, List.length_drop, hlen]
  omega

/-! ### Operations -/

omit [Build] in
theorem G2 (a b : B32) : MlKem.G S [a.toList, b.toList]
    = (bytesOf (Fips203.G S (a.toList ++ b.toList)).1, bytesOf (Fips203.G S (a.toList ++ b.toList)).2) := by
  have g1 := G_fst S [a.toList, b.toList]
  have g2 := G_snd S [a.toList, b.toList]
  have hfl : [a.toList, b.toList].flatten = a.toList ++ b.toList := by simp
  rw [hfl] at g1 g2
  rw [← eq_bytesOf g1, ← eq_bytesOf g2]

omit [Build] in
theorem G_length (c : List UInt8) : (Fips203.G S c).1.length = 32 ∧ (Fips203.G S c).2.length = 32 := by
  simp [Fips203.G]

omit [Build] in
theorem J_length (c : List UInt8) : (Fips203.J S c).length = 32 := by
  simp [Fips203.J, prefixBytes]

theorem encaps_ok (hP : P.Valid) (t : Fin P.K → Poly) (rho h m : B32)
    (hseed : SeedOk S P.K rho.toList) :
    (ekOf t rho h).encapsulate_deterministic S m
      = .ok (bytesOf (encT S P.toParams t rho.toList m.toList (Fips203.G S (m.toList ++ h.toList)).2),
          bytesOf (Fips203.G S (m.toList ++ h.toList)).1) := by
  unfold EncapsulationKey.encapsulate_deterministic EncapsulationKey.encapsulate_deterministic_inner
    ekOf
  dsimp only
  rw [G2]
  dsimp only
  rw [encrypt_ok S hP t rho m _ hseed, Res.ok_bind, toList_bytesOf (G_length S _).2]

theorem encaps_div (hP : P.Valid) (t : Fin P.K → Poly) (rho h m : B32)
    (hseed : ¬ SeedOk S P.K rho.toList) :
    (ekOf t rho h).encapsulate_deterministic S m = .div := by
  unfold EncapsulationKey.encapsulate_deterministic EncapsulationKey.encapsulate_deterministic_inner
    ekOf
  dsimp only
  rw [G2]
  dsimp only
  rw [encrypt_div S hP _ rho m _ hseed, Res.div_bind]

/-- Decapsulation on decoded keys -/
noncomputable def decapsT (p : Params) (s t : Fin p.k → Poly) (rho h z c : List UInt8) : List UInt8 :=
  let m' := decT p s c
  let Kr := Fips203.G S (m' ++ h)
  if c = encT S p t rho m' Kr.2 then Kr.1 else Fips203.J S (z ++ c)

omit [Build] in
theorem decapsT_length (p : Params) (s t : Fin p.k → Poly) (rho h z c : List UInt8) :
    (decapsT S p s t rho h z c).length = 32 := by
  unfold decapsT
  dsimp only
  split
  · exact (G_length S _).1
  · exact J_length S _

omit [Build] in
theorem ct_size (P : ParameterSet) : P.CiphertextSize = P.toParams.du * 32 * P.toParams.k + P.toParams.dv * 32 :=
  rfl

theorem decaps_ok (hP : P.Valid) (s t : Fin P.K → Poly) (rho h z : B32)
    (hseed : SeedOk S P.K rho.toList) (c : P.EncodedCiphertext) :
    (dkOf s t rho h z).decapsulate S c
      = .ok (bytesOf (decapsT S P.toParams s t rho.toList h.toList z.toList c.toList)) := by
  unfold DecapsulationKey.decapsulate dkOf ekOf
  dsimp only
  rw [decrypt_ok hP, Res.ok_bind, G2]
  dsimp only
  rw [encrypt_ok S hP t rho _ _ hseed, Res.ok_bind, ctEqualMask_ok, Res.ok_bind, ctSelect_if,
    toList_bytesOf (G_length S _).2, toList_bytesOf (decT_length _ _ _)]
  unfold decapsT
  dsimp only
  have hJ : MlKem.J S [z.toList, c.toList] = bytesOf (Fips203.J S (z.toList ++ c.toList)) := by
    apply eq_bytesOf
    rw [J_toList]
    simp
  rw [hJ]
  have hiff : ∀ l : List UInt8, l.length = P.CiphertextSize →
      ((bytesOf l : P.EncodedCiphertext) = c ↔ c.toList = l) := by
    intro l hl
    constructor
    · rintro rfl; rw [toList_bytesOf hl]
    · intro h; rw [← h, bytesOf_toList]
  simp only [hiff _ (encT_length S P.toParams t _ _ _)]
  split <;> rfl

theorem decaps_div (hP : P.Valid) (s t : Fin P.K → Poly) (rho h z : B32)
    (hseed : ¬ SeedOk S P.K rho.toList) (c : P.EncodedCiphertext) :
    (dkOf s t rho h z).decapsulate S c = .div := by
  unfold DecapsulationKey.decapsulate dkOf ekOf
  dsimp only
  rw [decrypt_ok hP, Res.ok_bind, G2]
  dsimp only
  rw [encrypt_div S hP _ rho _ _ hseed, Res.div_bind]

/-- The key pair `generate_deterministic` returns -/
noncomputable def genEk (P : ParameterSet) (d : B32) : EncapsulationKey P :=
  let sd := seeds S P.toParams d.toList
  let rho : B32 := bytesOf sd.1
  let t := genT S P.toParams sd.1 sd.2
  ekOf t rho (Hash S (ekBytes (P := P) t rho))

/-- The key pair `generate_deterministic` returns -/
noncomputable def genDk (P : ParameterSet) (d z : B32) : DecapsulationKey P :=
  { dk_pke := { s_hat := nv (genS S P.toParams (seeds S P.toParams d.toList).2) }
    ek := genEk S P d, z }

omit [Build] in
theorem genDk_eq (P : ParameterSet) (d z : B32) : genDk S P d z
    = dkOf (genS S P.toParams (seeds S P.toParams d.toList).2)
        (genT S P.toParams (seeds S P.toParams d.toList).1 (seeds S P.toParams d.toList).2)
        (bytesOf (seeds S P.toParams d.toList).1)
        (Hash S (ekBytes (P := P) (genT S P.toParams (seeds S P.toParams d.toList).1
          (seeds S P.toParams d.toList).2) (bytesOf (seeds S P.toParams d.toList).1))) z := rfl

theorem kem_generate_ok (hP : P.Valid) (d z : B32)
    (hseed : SeedOk S P.K (seeds S P.toParams d.toList).1) :
    Kem.generate_deterministic S P d z = .ok (genDk S P d z, genEk S P d) := by
  unfold Kem.generate_deterministic DecapsulationKey.generate_deterministic
  rw [generate_ok S hP d hseed, Res.ok_bind]
  dsimp only
  rw [new_ok, Res.ok_bind, Res.ok_bind]
  rfl

theorem kem_generate_div (P : ParameterSet) (d z : B32)
    (hseed : ¬ SeedOk S P.K (seeds S P.toParams d.toList).1) :
    Kem.generate_deterministic S P d z = .div := by
  unfold Kem.generate_deterministic DecapsulationKey.generate_deterministic
  rw [generate_div S P d hseed, Res.div_bind, Res.div_bind]

/-! ### Bytes of the specification -/

omit [Build] in
theorem ekBytes_gen (d : B32) :
    ekBytes (P := P) (genT S P.toParams (seeds S P.toParams d.toList).1 (seeds S P.toParams d.toList).2)
      (bytesOf (seeds S P.toParams d.toList).1) = (KPKE_KeyGen S P.toParams d.toList).1 := by
  rw [ekBytes, KPKE_KeyGen_eq, toList_bytesOf (seeds_length S _ _).1]

theorem genEk_as_bytes (d : B32) :
    (genEk S P d).as_bytes = .ok (bytesOf (KeyGen_internal S P.toParams d.toList []).1) := by
  unfold genEk
  dsimp only
  rw [kem_ek_as_bytes, ekBytes_gen]
  rfl

theorem genDk_as_bytes (d z : B32) :
    (genDk S P d z).as_bytes = .ok (bytesOf (KeyGen_internal S P.toParams d.toList z.toList).2) := by
  rw [genDk_eq, kem_dk_as_bytes, dkBytes, ekBytes_gen, Hash_toList]
  rfl

omit [Build] in
/-- Decapsulation of FIPS 203 on the encoding of a key object -/
theorem Decaps_dkBytes (s t : Fin P.K → Poly) (rho h z : B32) (c : List UInt8) :
    Decaps_internal S P.toParams (dkBytes s t rho h z) c
      = decapsT S P.toParams s t rho.toList h.toList z.toList c := by
  have l1 : (enc12 s).length = 384 * P.K := enc12_length s
  have l2 := ekBytes_length t rho
  have l3 : h.toList.length = 32 := h.length_toList
  have l4 : z.toList.length = 32 := z.length_toList
  unfold Decaps_internal decapsT
  dsimp only
  have e1 : (dkBytes s t rho h z).take (384 * P.K) = enc12 s := by
    rw [dkBytes, List.append_assoc, List.append_assoc, List.take_left' l1]
  have e2 : ((dkBytes s t rho h z).drop (384 * P.K)).take (384 * P.K + 32) = ekBytes t rho := by
    rw [dkBytes, List.append_assoc, List.append_assoc, List.drop_left' l1, List.take_left' l2]
  have e3 : ((dkBytes s t rho h z).drop (768 * P.K + 32)).take 32 = h.toList := by
    rw [dkBytes, List.append_assoc (enc12 s ++ ekBytes t rho),
      List.drop_left' (by rw [List.length_append]; omega), List.take_left' l3]
  have e4 : ((dkBytes s t rho h z).drop (768 * P.K + 64)).take 32 = z.toList := by
    rw [dkBytes, List.drop_left' (by simp only [List.length_append]; omega),
      List.take_of_length_le (by omega)]
  rw [e1, e2, e3, e4]
  have hd := KPKE_Decrypt_enc12 P.toParams s c
  rw [hd]
  have he : ∀ m r, KPKE_Encrypt S P.toParams (ekBytes t rho) m r = encT S P.toParams t rho.toList m r :=
    fun m r => KPKE_Encrypt_enc12 S P.toParams t rho.toList m r rho.length_toList
  simp only [he]

omit [Build] in
/-- Decapsulation of FIPS 203 on any byte string -/
theorem Decaps_parsed {b : P.EncodedDecapsulationKey} {s t : Fin P.K → Poly} {rho h z : B32}
    (hs : ∀ i, s i = ofNats (ByteDecode 12 (block 12 (b.toList.take (384 * P.K)) i.val)))
    (ht : ∀ i, t i = ofNats (ByteDecode 12
        (block 12 ((b.toList.drop (384 * P.K)).take (384 * P.K + 32)) i.val)))
    (hr : rho.toList = (((b.toList.drop (384 * P.K)).take (384 * P.K + 32)).drop (384 * P.K)).take 32)
    (hh : h.toList = (b.toList.drop (768 * P.K + 32)).take 32)
    (hz : z.toList = (b.toList.drop (768 * P.K + 64)).take 32) (c : List UInt8) :
    Decaps_internal S P.toParams b.toList c
      = decapsT S P.toParams s t rho.toList h.toList z.toList c := by
  obtain rfl : s = _ := funext hs
  obtain rfl : t = _ := funext ht
  rw [hr, hh, hz]
  rfl

end MlKem
