import Mathlib.Algebra.Field.ZMod
import Mathlib.Tactic.NormNum.Prime
import Verif.Props.Locals
/-! C95: what decapsulations leave of the secret vector. -/
open Rust Rust.Locals Fips203

namespace MlKem.Locals
open FieldElement
variable [Build]

omit [Build] in
theorem assign_bind {α β : Type} [Stored α] (z : Bool) (n : String) (v : α) (f : α → Run β) (m : Memory) :
    (assign z n v >>= f) m = f v ⟨update n (fun s =>
      { s with bits := Stored.bits v, dropped := Stored.dropped z v }) m.frame, m.dead⟩ := rfl

/-! ### Reading a polynomial from memory -/

/-- The polynomial whose coefficients are in memory, two bytes each, the low one first -/
def readPoly (b : List UInt8) : Poly := fun n => ((b.getD (2 * n.val) 0).toNat + 256 * (b.getD (2 * n.val + 1) 0).toNat : Nat)

omit [Build] in
theorem getD_bits (l : List FieldElement) (n : Nat) (h : n < l.length) :
    (l.flatMap FieldElement.bits).getD (2 * n) 0 = UInt8.ofNat (l[n].val.toNat % 256) ∧
    (l.flatMap FieldElement.bits).getD (2 * n + 1) 0 = UInt8.ofNat (l[n].val.toNat / 256) := by
  induction l generalizing n with
  | nil => simp at h
  | cons x l ih =>
    cases n with
    | zero => exact ⟨rfl, rfl⟩
    | succ n => exact ih n (by simpa using h)

omit [Build] in
theorem readPoly_bits (F : Poly) : readPoly (Polynomial.bits ⟨polyVec F⟩) = F := by
  funext n
  obtain ⟨h1, h2⟩ := getD_bits (polyVec F).toList n.val (by simp)
  have hx : (polyVec F).toList[n.val]'(by simp) = ofZ (F n) := by
    rw [← ofFn_eq_polyVec]; simp
  have hlt : (F n).val < 3329 := ZMod.val_lt _
  have hv : (ofZ (F n)).val.toNat = (F n).val := ofN_val (by omega)
  unfold readPoly Polynomial.bits
  rw [h1, h2, hx, hv]
  have e1 : (UInt8.ofNat ((F n).val % 256)).toNat = (F n).val % 256 := by
    rw [UInt8.toNat_ofNat']; omega
  have e2 : (UInt8.ofNat ((F n).val / 256)).toNat = (F n).val / 256 := by
    rw [UInt8.toNat_ofNat']; omega
  rw [e1, e2, Nat.mod_add_div, ZMod.natCast_zmod_val]

/-! ### Multiplying by a constant -/

/-- A constant polynomial -/
def constPoly (b : Zq) : Poly := fun n => if n = 0 then b else 0

omit [Build] in
theorem mul_const (s : Poly) (b : Zq) : MultiplyNTTs s (NTT (constPoly b)) = b • s := by
  apply toT_injective
  rw [toT_mul]
  funext i
  rw [Pi.mul_apply, toT_NTT]
  have : evalOmega (constPoly b) i = QuadraticAlgebra.C b := by
    unfold evalOmega
    rw [Finset.sum_eq_single 0]
    · ext
      · simp [constPoly]; exact mul_one b
      · simp [constPoly]; exact mul_zero b
    · intro n _ hn
      simp [constPoly, hn]
    · simp
  rw [this]
  ext <;> simp [toT, mul_comm]

/-! ### The ciphertexts -/

variable {P : ParameterSet}

/-- The numbers whose compressed form has a single one, in the constant coefficient of polynomial `i` -/
def probeNats (i : Fin P.K) : Fin P.K → Fin 256 → Nat := fun j n => if j = i ∧ n = 0 then 1 else 0

/-- The ciphertext that encodes them, with zeros for its second part -/
def probe (i : Fin P.K) : P.EncodedCiphertext :=
  bytesOf (encodeVec P.Du (probeNats i) ++ List.replicate (32 * P.Dv) 0)

omit [Build] in
theorem probeNats_lt (hP : P.Valid) (i j : Fin P.K) (n : Fin 256) : probeNats i j n < decMod P.Du := by
  have h2 : 2 ^ 1 ≤ 2 ^ P.Du := Nat.pow_le_pow_right (by omega) hP.du1
  unfold probeNats decMod
  split <;> split <;> omega

/-- Decoding and decompressing the first part of the ciphertext -/
theorem probe_decode (hP : P.Valid) (i : Fin P.K) :
    (PolynomialVector.decode P.Du (P.split_ct (probe i)).1 >>= fun u => u.decompress P.Du)
      = .ok (pv fun j => constPoly (if j = i then Decompress P.Du 1 else 0)) := by
  have hl : (encodeVec P.Du (probeNats i) ++ List.replicate (32 * P.Dv) 0).length = P.CiphertextSize := by
    rw [List.length_append, encodeVec_length, List.length_replicate]
    show _ = P.Du * 32 * P.K + P.Dv * 32
    ring
  have hs : (P.split_ct (probe i)).1.toList = encodeVec P.Du (probeNats i) := by
    have : (P.split_ct (probe i)).1.toList = (probe i).toList.take (P.Du * 32 * P.K) := splitRef_fst _
    rw [this, probe, toList_bytesOf hl, List.take_left' (by rw [encodeVec_length])]
  have hb : ∀ j : Fin P.K, ByteDecode P.Du (block P.Du (P.split_ct (probe i)).1.toList j.val) = probeNats i j := by
    intro j
    have := block_encodeVec P.Du (probeNats i) [] j
    rw [List.append_nil] at this
    rw [hs, this, ByteDecode_ByteEncode hP.du1 (probeNats_lt hP i j) hP.du2]
  rw [rv_decode hP.du1 hP.du2, Res.ok_bind, rv_decompress hP.du1 hP.du2 (fun j n => ByteDecode_lt_pow _ n)]
  simp only [hb]
  congr 2
  funext j n
  have h0 : Decompress P.Du 0 = 0 := by
    have : (2 ^ (P.Du - 1)) / 2 ^ P.Du = 0 := Nat.div_eq_of_lt (Nat.pow_lt_pow_right (by omega) (by have := hP.du1; omega))
    rw [Decompress_eq hP.du1, Nat.mul_zero, Nat.zero_add, this]
    rfl
  unfold probeNats constPoly
  by_cases hj : j = i <;> by_cases hn : n = 0 <;> simp [hj, hn, h0]

omit [Build] in
theorem decompress_one_ne (hP : P.Valid) : Decompress P.Du 1 ≠ 0 := by
  obtain ⟨-, h1, h2, -, -⟩ := hP
  intro h
  have := congrArg ZMod.val h
  rw [Decompress_val h1 h2 (Nat.one_lt_two_pow (by omega))] at this
  generalize P.Du = d at *
  interval_cases d <;> simp at this

/-! ### What is left -/

variable (H : Sha3) (zeroize : Bool)

/-- Decrypting leaves the product of the secret vector with that of the ciphertext. -/
theorem pke_decrypt_leaves {dk : DecryptionKey P} {c : P.EncodedCiphertext} {msg : B32} {m m' : Memory}
    (h : pke_decrypt zeroize dk c m = .ok (msg, m')) :
    ∃ (u : PolynomialVector P.K) (u_hat : NttVector P.K) (v sTu w : Polynomial),
      (PolynomialVector.decode P.Du (P.split_ct c).1 >>= fun u => u.decompress P.Du) = .ok u ∧ u.ntt = .ok u_hat ∧
      (dk.s_hat.mul u_hat >>= fun f => f.ntt_inverse) = .ok sTu ∧
      m' = ⟨m.frame, [⟨"DecryptionKey::decrypt", "w", w.bits⟩, ⟨"DecryptionKey::decrypt", "sTu", sTu.bits⟩,
        ⟨"DecryptionKey::decrypt", "u_hat", u_hat.bits⟩, ⟨"DecryptionKey::decrypt", "v", v.bits⟩,
        ⟨"DecryptionKey::decrypt", "u", u.bits⟩] ++ m.dead⟩ := by
  obtain ⟨m1, h1, rfl⟩ := call_ok h
  obtain ⟨u0, hu0, h2⟩ := lift_ok h1
  simp only [var_bind] at h2
  obtain ⟨u, hu, h3⟩ := lift_ok h2
  simp only [assign_bind] at h3
  obtain ⟨v0, hv0, h4⟩ := lift_ok h3
  simp only [var_bind] at h4
  obtain ⟨v, hv, h5⟩ := lift_ok h4
  simp only [assign_bind] at h5
  obtain ⟨u_hat, huh, h6⟩ := lift_ok h5
  simp only [var_bind] at h6
  obtain ⟨sTu, hs, h7⟩ := lift_ok h6
  simp only [var_bind] at h7
  obtain ⟨w0, hw0, h8⟩ := lift_ok h7
  simp only [var_bind] at h8
  obtain ⟨w, hw, h9⟩ := lift_ok h8
  simp only [assign_bind] at h9
  obtain ⟨a, -, h10⟩ := Res.bind_eq_ok.1 h9
  obtain ⟨rfl, rfl⟩ := Prod.mk.inj (Res.ok.inj h10)
  refine ⟨u, u_hat, v, sTu, w, ?_, huh, hs, ?_⟩
  · rw [show PolynomialVector.decode P.Du (P.split_ct c).1 = .ok u0 from hu0, Res.ok_bind, hu]
  · simp [update, Stored.dropped, Stored.bits]

/-- What the latest decryption has left in `sTu` -/
def productLeft (dead : List Rest) : List UInt8 :=
  ((dead.find? fun r => r.fn = "DecryptionKey::decrypt" && r.name = "sTu").map Rest.bits).getD []

theorem decapsulate_product {dk : DecapsulationKey P} {c : P.EncodedCiphertext} {K : SharedKey} {m m' : Memory}
    (h : decapsulate H zeroize dk c m = .ok (K, m')) :
    ∃ (u : PolynomialVector P.K) (u_hat : NttVector P.K) (sTu : Polynomial),
      (PolynomialVector.decode P.Du (P.split_ct c).1 >>= fun u => u.decompress P.Du) = .ok u ∧ u.ntt = .ok u_hat ∧
      (dk.dk_pke.s_hat.mul u_hat >>= fun f => f.ntt_inverse) = .ok sTu ∧ productLeft m'.dead = sTu.bits := by
  obtain ⟨m1, h1, rfl⟩ := call_ok h
  obtain ⟨mp, m2, h2, h3⟩ := bind_ok h1
  obtain ⟨u, u_hat, v, sTu, w, hu, huh, hsu, rfl⟩ := pke_decrypt_leaves zeroize h2
  simp only [var_bind] at h3
  obtain ⟨cp, m3, h4, h5⟩ := bind_ok h3
  obtain ⟨L', rfl, hL'⟩ := inside_encrypt H zeroize _ _ _ _ _ _ h4
  simp only [var_bind] at h5
  obtain ⟨equal, h6, h7⟩ := lift_ok h5
  simp only [var_bind, run_pure] at h7
  obtain ⟨-, rfl⟩ := Prod.mk.inj (Res.ok.inj h7)
  have hn : L'.find? (fun r => decide (r.fn = "DecryptionKey::decrypt") && decide (r.name = "sTu")) = none := by
    rw [List.find?_eq_none]
    intro r hr
    have : r.fn = "EncryptionKey::encrypt" := by simpa using hL' r hr
    simp [this]
  exact ⟨u, u_hat, sTu, hu, huh, hsu, by simp [productLeft, List.find?_append, hn]⟩

theorem probe_product (hV : P.Valid) (s : Fin P.K → Poly) (i : Fin P.K) {sTu : Polynomial}
    (h : ((nv s).mul (nv fun j => NTT (constPoly (if j = i then Decompress P.Du 1 else 0))) >>=
      fun f => f.ntt_inverse) = .ok sTu) :
    (Decompress P.Du 1)⁻¹ • NTT (readPoly sTu.bits) = s i := by
  rw [nv_mul, Res.ok_bind, ntt_inverse_ok] at h
  obtain rfl := Res.ok.inj h
  rw [readPoly_bits, NTT_NTTinv]
  simp only [mul_const, ite_smul, zero_smul, Finset.sum_ite_eq', Finset.mem_univ, if_true]
  have : Fact (Nat.Prime 3329) := ⟨by norm_num⟩
  rw [smul_smul, ZMod.inv_mul_of_unit _ (decompress_one_ne hV).isUnit, one_smul]

/-- **C95** With the feature `zeroize` and without, the secret vector of every ML-KEM key can be computed from what the key's
decapsulations of a few ciphertexts leave in memory: as many as the parameter set has polynomials in a vector, and the same
ciphertexts for all keys. With the vector one decrypts everything that is sent to the key. -/
theorem C95_ml_kem_recover {p : Params} (hP : Supported P p) :
    ∃ (c : Fin P.K → P.EncodedCiphertext) (recover : (Fin P.K → List Rest) → DecryptionKey P),
      ∀ (dk : DecapsulationKey P) (K : Fin P.K → SharedKey) (m m' : Fin P.K → Memory), DkReach H dk →
        (∀ i, decapsulate H zeroize dk (c i) (m i) = .ok (K i, m' i)) →
        recover (fun i => (m' i).dead) = dk.dk_pke ∧
          ∀ ct, (recover fun i => (m' i).dead).decrypt ct = dk.dk_pke.decrypt ct := by
  obtain rfl := hP.eq
  have hV := hP.valid
  refine ⟨probe, fun dead => ⟨nv fun i => (Decompress P.Du 1)⁻¹ • NTT (readPoly (productLeft (dead i)))⟩, ?_⟩
  intro dk K m m' hk h
  have key : (⟨nv fun i => (Decompress P.Du 1)⁻¹ • NTT (readPoly (productLeft (m' i).dead))⟩ : DecryptionKey P)
      = dk.dk_pke := by
    obtain ⟨s, t, rho, hh, z, hdk⟩ := hk.shape H hV
    have hs : dk.dk_pke = ⟨nv s⟩ := by rw [hdk]; rfl
    have hi : ∀ i, (Decompress P.Du 1)⁻¹ • NTT (readPoly (productLeft (m' i).dead)) = s i := by
      intro i
      obtain ⟨u, u_hat, sTu, hu, huh, hsu, hg⟩ := decapsulate_product H zeroize (h i)
      rw [probe_decode hV] at hu
      obtain rfl := Res.ok.inj hu
      rw [pv_ntt] at huh
      obtain rfl := Res.ok.inj huh
      rw [hs] at hsu
      rw [hg]
      exact probe_product hV s i hsu
    simp only [hi, hs]
  exact ⟨key, fun ct => congrArg (fun k : DecryptionKey P => k.decrypt ct) key⟩

/-- Keys and such decapsulations exist: with the toy primitives every generated key decapsulates everything. -/
example (d z : B32) : ∃ dk : DecapsulationKey MlKem512Params, DkReach Toy.S dk ∧ ∀ (c : MlKem512Params.EncodedCiphertext)
    (m : Memory), ∃ K m', decapsulate Toy.S true dk c m = .ok (K, m') := by
  obtain ⟨dk, ek, -, -, h1, -⟩ := C01_keygen_is_fips203 Toy.S supported_512 d z (Toy.seedOk _ _)
  refine ⟨dk, .generated h1, fun c m => ?_⟩
  obtain ⟨-, db, -, h2⟩ := C04_decaps_outcome Toy.S supported_512 (.generated h1) c
  obtain ⟨K, h3⟩ := h2.2 (Toy.seedOk _ _)
  exact ⟨K, XWing.Locals.of_same (h3 ▸ same_decapsulate Toy.S true dk c) m⟩

end MlKem.Locals
