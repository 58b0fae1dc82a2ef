import Verif.Model.Leak
/-! Forgetting the events of `Model/Leak.lean` gives the functions of the model. -/
namespace Rust.Leak

theorem res_congr {α β : Type} {x : Leak α} {f : α → Leak β} {y : Res α} {g : α → Res β} (h : x.res = y)
    (h' : ∀ a, (f a).res = g a) : (x >>= f).res = y >>= g := by
  rw [res_bind, h]
  congr 1
  exact funext h'

theorem res_emit_bind {β : Type} {e : Event} {f : Unit → Leak β} {r : Res β} (h : (f ()).res = r) :
    (emit e >>= f).res = r := by
  rw [res_bind, res_emit, Res.ok_bind, h]

end Rust.Leak

namespace MlKem.Leaky
open Rust Rust.Leak

/-- Step through two computations in parallel. -/
syntax "erase" "[" term,* "]" : tactic
macro_rules
  | `(tactic| erase [$ts,*]) => do
    let alts ← ts.getElems.mapM fun t => `(tactic| with_reducible exact $t)
    `(tactic| repeat' (first | (intro _) | (with_reducible refine res_emit_bind ?_) | (with_reducible refine res_congr ?_ ?_) | (first $[| $alts:tactic]* | fail) | (with_reducible exact res_op _) | (with_reducible rfl) | (dsimp only)))

variable [Build]

theorem small_reduce_res (x : UInt16) : (small_reduce x).res = FieldElement.small_reduce x := rfl
theorem barrett_reduce_res (x : UInt32) : (barrett_reduce x).res = FieldElement.barrett_reduce x := by
  unfold barrett_reduce FieldElement.barrett_reduce
  erase [small_reduce_res _]
theorem add_res (x y : FieldElement) : (add x y).res = x.add y := by
  unfold add FieldElement.add
  erase [small_reduce_res _]
theorem sub_res (x y : FieldElement) : (sub x y).res = x.sub y := by
  unfold sub FieldElement.sub
  erase [small_reduce_res _]
theorem mul_res (x y : FieldElement) : (mul x y).res = x.mul y := by
  unfold mul FieldElement.mul
  erase [barrett_reduce_res _]
theorem base_case_multiply_res (a0 a1 b0 b1 : FieldElement) (i : Nat) :
    (base_case_multiply a0 a1 b0 b1 i).res = FieldElement.base_case_multiply a0 a1 b0 b1 i := by
  unfold base_case_multiply FieldElement.base_case_multiply
  erase [barrett_reduce_res _, res_idx _ _]
theorem polyAdd_res (x y : Polynomial) : (polyAdd x y).res = x.add y := by
  unfold polyAdd Polynomial.add
  erase [res_zipVec add_res _ _]
theorem polySub_res (x y : Polynomial) : (polySub x y).res = x.sub y := by
  unfold polySub Polynomial.sub
  erase [res_zipVec sub_res _ _]
theorem smul_res (x : FieldElement) (y : Polynomial) : (smul x y).res = Polynomial.smul x y := by
  unfold smul Polynomial.smul
  erase [res_mapVec (mul_res x) _]
theorem nttInner_res (zeta : FieldElement) (len : Nat) (f : Vector FieldElement 256) (j : Nat) :
    (nttInner zeta len f j).res = Polynomial.nttInner zeta len f j := by
  unfold nttInner Polynomial.nttInner
  erase [mul_res _ _, sub_res _ _, add_res _ _, res_idx _ _, res_setIdx _ _ _]
theorem nttBlock_res (len : Nat) (st : Vector FieldElement 256 × Nat) (start : Nat) :
    (nttBlock len st start).res = Polynomial.nttBlock len st start := by
  unfold nttBlock Polynomial.nttBlock
  erase [res_forEach (nttInner_res _ _), res_idx _ _]
theorem nttLayer_res (st : Vector FieldElement 256 × Nat) (len : Nat) :
    (nttLayer st len).res = Polynomial.nttLayer st len := by
  unfold nttLayer Polynomial.nttLayer
  erase [res_forEach (nttBlock_res len)]
theorem ntt_res (x : Polynomial) : (ntt x).res = x.ntt := by
  unfold ntt Polynomial.ntt
  erase [res_forEach nttLayer_res]
theorem nttAdd_res (x y : NttPolynomial) : (nttAdd x y).res = x.add y := by
  unfold nttAdd NttPolynomial.add
  erase [res_zipVec add_res _ _]
theorem mulStep_res (x y : NttPolynomial) (out : Vector FieldElement 256) (i : Nat) :
    (mulStep x y out i).res = x.mulStep y out i := by
  unfold mulStep NttPolynomial.mulStep
  erase [base_case_multiply_res _ _ _ _ _, res_idx _ _, res_setIdx _ _ _]
theorem nttMul_res (x y : NttPolynomial) : (nttMul x y).res = x.mul y := by
  unfold nttMul NttPolynomial.mul
  erase [res_forEach (mulStep_res x y)]
theorem invInner_res (zeta : FieldElement) (len : Nat) (f : Vector FieldElement 256) (j : Nat) :
    (invInner zeta len f j).res = NttPolynomial.invInner zeta len f j := by
  unfold invInner NttPolynomial.invInner
  erase [mul_res _ _, sub_res _ _, add_res _ _, res_idx _ _, res_setIdx _ _ _]
theorem invBlock_res (len : Nat) (st : Vector FieldElement 256 × Nat) (start : Nat) :
    (invBlock len st start).res = NttPolynomial.invBlock len st start := by
  unfold invBlock NttPolynomial.invBlock
  erase [res_forEach (invInner_res _ _), res_idx _ _]
theorem invLayer_res (st : Vector FieldElement 256 × Nat) (len : Nat) :
    (invLayer st len).res = NttPolynomial.invLayer st len := by
  unfold invLayer NttPolynomial.invLayer
  erase [res_forEach (invBlock_res len)]
theorem ntt_inverse_res (x : NttPolynomial) : (ntt_inverse x).res = x.ntt_inverse := by
  unfold ntt_inverse NttPolynomial.ntt_inverse
  erase [res_forEach invLayer_res, smul_res _ _]

/-! ### encode.rs, compress.rs -/

theorem packChunk_res (D : Nat) (v : List FieldElement) : (packChunk D v).res = MlKem.packChunk D v :=
  res_forEach fun _ _ => res_congr rfl fun _ => res_congr rfl fun _ => rfl
theorem encodeChunk_res (D : Nat) (v : List FieldElement) (b : List UInt8) :
    (encodeChunk D v b).res = MlKem.encodeChunk D v b := by
  unfold encodeChunk MlKem.encodeChunk
  refine res_congr (packChunk_res _ _) fun x => ?_
  dsimp only
  split <;> rfl
theorem byte_encode_res (D : Nat) (x : DecodedValue) : (byte_encode D x).res = MlKem.byte_encode D x := by
  unfold byte_encode MlKem.byte_encode
  erase [res_mapList (fun _ => encodeChunk_res _ _ _) _]
theorem unpackValue_res (D : Nat) (x : U128) (j : Nat) : (unpackValue D x j).res = MlKem.unpackValue D x j := by
  unfold unpackValue MlKem.unpackValue
  refine res_congr rfl fun _ => res_congr rfl fun _ => res_congr rfl fun _ => res_congr rfl fun _ =>
    res_congr rfl fun _ => ?_
  dsimp only
  split
  · rfl
  · rfl
theorem decodeChunk_res (D : Nat) (v : List FieldElement) (b : List UInt8) :
    (decodeChunk D v b).res = MlKem.decodeChunk D v b := by
  unfold decodeChunk MlKem.decodeChunk
  dsimp only
  split
  · exact res_congr rfl fun _ => res_congr rfl fun _ => res_mapList (fun ⟨_, _⟩ => unpackValue_res _ _ _) _
  · rfl
theorem byte_decode_res (D : Nat) (x : EncodedPolynomial D) : (byte_decode D x).res = MlKem.byte_decode D x := by
  unfold byte_decode MlKem.byte_decode
  erase [res_mapList (fun _ => decodeChunk_res _ _ _) _]
theorem encode_res (D : Nat) (x : Polynomial) : (encode D x).res = x.encode D := byte_encode_res D _
theorem decode_res (D : Nat) (x : EncodedPolynomial D) : (decode D x).res = Polynomial.decode D x := by
  unfold decode Polynomial.decode
  erase [byte_decode_res _ _]
theorem nttEncode_res (D : Nat) (x : NttPolynomial) : (nttEncode D x).res = x.encode D := byte_encode_res D _
theorem nttDecode_res (D : Nat) (x : EncodedPolynomial D) : (nttDecode D x).res = NttPolynomial.decode D x := by
  unfold nttDecode NttPolynomial.decode
  erase [byte_decode_res _ _]
omit [Build] in
theorem unflatten_res {D K : Nat} (x : EncodedPolynomialVector D K) :
    (unflatten x).res = VectorEncodingSize.unflatten x := rfl
theorem vecEncode_res (D : Nat) {K : Nat} (x : PolynomialVector K) : (vecEncode D x).res = x.encode D := by
  unfold vecEncode PolynomialVector.encode
  erase [res_mapVec (encode_res D) _]
theorem vecDecode_res (D : Nat) {K : Nat} (x : EncodedPolynomialVector D K) :
    (vecDecode D x).res = PolynomialVector.decode D x := by
  unfold vecDecode PolynomialVector.decode
  erase [unflatten_res _, res_mapVec (decode_res D) _]
theorem nttVecEncode_res (D : Nat) {K : Nat} (x : NttVector K) : (nttVecEncode D x).res = x.encode D := by
  unfold nttVecEncode NttVector.encode
  erase [res_mapVec (nttEncode_res D) _]
theorem nttVecDecode_res (D : Nat) {K : Nat} (x : EncodedPolynomialVector D K) :
    (nttVecDecode D x).res = NttVector.decode D x := by
  unfold nttVecDecode NttVector.decode
  erase [unflatten_res _, res_mapVec (nttDecode_res D) _]
theorem polyCompress_res (D : Nat) (x : Polynomial) : (polyCompress D x).res = x.compress D := by
  unfold polyCompress Polynomial.compress
  exact res_congr (res_mapVec (fun _ => rfl) _) fun _ => rfl
theorem polyDecompress_res (D : Nat) (x : Polynomial) : (polyDecompress D x).res = x.decompress D := by
  unfold polyDecompress Polynomial.decompress
  exact res_congr (res_mapVec (fun _ => rfl) _) fun _ => rfl
theorem vecCompress_res (D : Nat) {K : Nat} (x : PolynomialVector K) : (vecCompress D x).res = x.compress D := by
  unfold vecCompress PolynomialVector.compress
  erase [res_mapVec (polyCompress_res D) _]
theorem vecDecompress_res (D : Nat) {K : Nat} (x : PolynomialVector K) : (vecDecompress D x).res = x.decompress D := by
  unfold vecDecompress PolynomialVector.decompress
  erase [res_mapVec (polyDecompress_res D) _]

/-! ### Sampling, vectors -/

section
variable (H : Sha3)

omit [Build] in
theorem G_res (l : List (List UInt8)) : (G H l).res = .ok (MlKem.G H l) := rfl
omit [Build] in
theorem J_res (l : List (List UInt8)) : (J H l).res = .ok (MlKem.J H l) := rfl
omit [Build] in
theorem Hash_res (l : List UInt8) : (Hash H l).res = .ok (MlKem.Hash H l) := rfl
omit [Build] in
theorem PRF_res (Eta : CbdSize) (s : B32) (b : UInt8) : (PRF H Eta s b).res = .ok (MlKem.PRF H Eta s b) := rfl

theorem sample_cbd_res (Eta : CbdSize) (B : EncodedPolynomial Eta.SampleSize) :
    (sample_cbd Eta B).res = Polynomial.sample_cbd Eta B := by
  unfold sample_cbd Polynomial.sample_cbd
  exact res_congr (decode_res _ _) fun _ => res_congr (res_mapVec (fun _ => rfl) _) fun _ => rfl
theorem vecSampleCbd_res (K : Nat) (Eta : CbdSize) (sigma : B32) (n : UInt8) :
    (vecSampleCbd H K Eta sigma n).res = PolynomialVector.sample_cbd H K Eta sigma n := by
  unfold vecSampleCbd PolynomialVector.sample_cbd
  refine res_congr (res_tabulate fun i => ?_) fun _ => rfl
  refine res_congr rfl fun _ => res_congr rfl fun N => ?_
  rw [res_bind, PRF_res, Res.ok_bind]
  exact sample_cbd_res _ _
theorem sample_matrix_res (K : Nat) (rho : B32) (t : Bool) :
    (sample_matrix H K rho t).res = NttMatrix.sample_uniform H K rho t := rfl
theorem vecAdd_res {K : Nat} (x y : PolynomialVector K) : (vecAdd x y).res = x.add y := by
  unfold vecAdd PolynomialVector.add
  erase [res_zipVec polyAdd_res _ _]
theorem nttVecAdd_res {K : Nat} (x y : NttVector K) : (nttVecAdd x y).res = x.add y := by
  unfold nttVecAdd NttVector.add
  erase [res_zipVec nttAdd_res _ _]
theorem dot_res {K : Nat} (x y : NttVector K) : (dot x y).res = x.mul y := by
  unfold dot NttVector.mul
  refine res_forEach fun acc p => ?_
  exact res_congr (nttMul_res _ _) fun _ => nttAdd_res _ _
theorem vecNttInverse_res {K : Nat} (x : NttVector K) : (vecNttInverse x).res = x.ntt_inverse := by
  unfold vecNttInverse NttVector.ntt_inverse
  erase [res_mapVec ntt_inverse_res _]
theorem vecNtt_res {K : Nat} (x : PolynomialVector K) : (vecNtt x).res = x.ntt := by
  unfold vecNtt PolynomialVector.ntt
  erase [res_mapVec ntt_res _]
theorem mulVec_res {K : Nat} (A : NttMatrix K) (x : NttVector K) : (mulVec A x).res = A.mulVec x := by
  unfold mulVec NttMatrix.mulVec
  erase [res_mapVec (fun _ => dot_res _ _) _]

/-! ### pke.rs, kem.rs -/

variable {P : ParameterSet}

theorem generate_res (d : B32) : (generate H P d).res = DecryptionKey.generate H P d := by
  unfold generate DecryptionKey.generate
  rw [res_bind, G_res, Res.ok_bind]
  erase [sample_matrix_res _ _ _ _, vecSampleCbd_res _ _ _ _ _, vecNtt_res _, mulVec_res _ _, nttVecAdd_res _ _]
theorem decrypt_res (dk : DecryptionKey P) (c : P.EncodedCiphertext) : (decrypt dk c).res = dk.decrypt c := by
  unfold decrypt DecryptionKey.decrypt
  erase [vecDecode_res _ _, vecDecompress_res _ _, decode_res _ _, polyDecompress_res _ _, vecNtt_res _, dot_res _ _,
    ntt_inverse_res _, polySub_res _ _, polyCompress_res _ _, encode_res _ _]
theorem encrypt_res (ek : EncryptionKey P) (m r : B32) : (encrypt H ek m r).res = ek.encrypt H m r := by
  unfold encrypt EncryptionKey.encrypt
  refine res_congr (vecSampleCbd_res _ _ _ _ _) fun _ => res_congr (vecSampleCbd_res _ _ _ _ _) fun _ =>
    res_congr rfl fun _ => ?_
  rw [res_bind, PRF_res, Res.ok_bind]
  erase [sample_cbd_res _ _, sample_matrix_res _ _ _ _, vecNtt_res _, mulVec_res _ _, vecNttInverse_res _, vecAdd_res _ _,
    decode_res _ _, polyDecompress_res _ _, dot_res _ _, ntt_inverse_res _, polyAdd_res _ _, vecCompress_res _ _,
    vecEncode_res _ _, polyCompress_res _ _, encode_res _ _]
theorem decryptionKeyFromBytes_res (b : P.EncodedDecryptionKey) :
    (decryptionKeyFromBytes b).res = DecryptionKey.from_bytes b := by
  unfold decryptionKeyFromBytes DecryptionKey.from_bytes decode_u12
  erase [nttVecDecode_res _ _]
theorem encryptionKeyFromBytes_res (b : P.EncodedEncryptionKey) :
    (encryptionKeyFromBytes b).res = EncryptionKey.from_bytes b := by
  unfold encryptionKeyFromBytes EncryptionKey.from_bytes decode_u12
  erase [nttVecDecode_res _ _]
theorem encryptionKeyAsBytes_res (ek : EncryptionKey P) : (encryptionKeyAsBytes ek).res = ek.as_bytes := by
  unfold encryptionKeyAsBytes EncryptionKey.as_bytes encode_u12
  erase [nttVecEncode_res _ _]
theorem decryptionKeyAsBytes_res (dk : DecryptionKey P) : (decryptionKeyAsBytes dk).res = dk.as_bytes :=
  nttVecEncode_res _ _
theorem newKey_res (ek : EncryptionKey P) : (newKey H ek).res = EncapsulationKey.new H ek := by
  unfold newKey EncapsulationKey.new
  refine res_congr (encryptionKeyAsBytes_res ek) fun b => ?_
  rw [res_bind, Hash_res, Res.ok_bind]
  rfl

/-- Forgetting the events of encapsulation gives encapsulation. -/
theorem encapsulate_deterministic_res (ek : EncapsulationKey P) (m : B32) :
    (encapsulate_deterministic H ek m).res = ek.encapsulate_deterministic H m := by
  unfold encapsulate_deterministic EncapsulationKey.encapsulate_deterministic
    EncapsulationKey.encapsulate_deterministic_inner
  rw [res_bind, G_res, Res.ok_bind]
  erase [encrypt_res _ _ _ _]
theorem encapsulate_res (ek : EncapsulationKey P) (rng : Rng) (s : rng.State) :
    (encapsulate H ek rng s).res = ek.encapsulate H rng s := by
  unfold encapsulate EncapsulationKey.encapsulate
  refine res_congr rfl fun r => ?_
  exact res_congr (encapsulate_deterministic_res H ek _) fun _ => rfl
theorem ctEqualMask_res {n : Nat} (x y : Bytes n) : (ctEqualMask x y).res = MlKem.ctEqualMask x y := by
  unfold ctEqualMask MlKem.ctEqualMask
  exact res_congr (res_zipVec (fun _ _ => rfl) _ _) fun _ => rfl

/-- Forgetting the events of decapsulation gives decapsulation. -/
theorem decapsulate_res (dk : DecapsulationKey P) (c : P.EncodedCiphertext) :
    (decapsulate H dk c).res = dk.decapsulate H c := by
  unfold decapsulate DecapsulationKey.decapsulate
  refine res_congr (decrypt_res _ _) fun mp => ?_
  rw [res_bind, G_res, Res.ok_bind]
  dsimp only
  rw [res_bind, J_res, Res.ok_bind]
  refine res_congr (encrypt_res H _ _ _) fun cp => res_congr (ctEqualMask_res _ _) fun _ => rfl
theorem decapsulationKeyFromBytes_res (b : P.EncodedDecapsulationKey) :
    (decapsulationKeyFromBytes b).res = DecapsulationKey.from_bytes b := by
  unfold decapsulationKeyFromBytes DecapsulationKey.from_bytes
  refine res_congr (encryptionKeyFromBytes_res _) fun _ => res_congr (decryptionKeyFromBytes_res _) fun _ => rfl
theorem decapsulationKeyAsBytes_res (dk : DecapsulationKey P) : (decapsulationKeyAsBytes dk).res = dk.as_bytes := by
  unfold decapsulationKeyAsBytes DecapsulationKey.as_bytes
  refine res_congr (decryptionKeyAsBytes_res _) fun _ => res_congr (encryptionKeyAsBytes_res _) fun _ => rfl

/-- Forgetting the events of key generation gives key generation. -/
theorem generate_deterministic_res (d z : B32) :
    (generate_deterministic H P d z).res = Kem.generate_deterministic H P d z := by
  unfold generate_deterministic Kem.generate_deterministic DecapsulationKey.generate_deterministic
  rw [bind_assoc]
  refine res_congr (generate_res H d) fun r => ?_
  dsimp only
  rw [bind_assoc]
  refine res_congr (newKey_res H _) fun _ => rfl

end
end MlKem.Leaky

namespace XWing.Leaky
open Rust Rust.Leak MlKem

variable [Build] (H : Sha3) (X : X25519)

theorem encapsulate_res (pk : EncapsulationKey) (rng : Rng) (s : rng.State) :
    (encapsulate H X pk rng s).res = pk.encapsulate H X rng s := by
  unfold encapsulate EncapsulationKey.encapsulate
  refine res_congr (MlKem.Leaky.encapsulate_res H _ _ _) fun r => ?_
  refine res_congr rfl fun r => ?_
  rfl
theorem expand_key_res (sk : DecapsulationKey) : (expand_key H X sk).res = sk.expand_key H X := by
  unfold expand_key DecapsulationKey.expand_key
  refine res_emit_bind ?_
  refine res_congr (MlKem.Leaky.generate_deterministic_res H _ _) fun r => ?_
  rfl
theorem decapsulate_res (sk : DecapsulationKey) (ct : Ciphertext) :
    (decapsulate H X sk ct).res = sk.decapsulate H X ct := by
  unfold decapsulate DecapsulationKey.decapsulate
  refine res_congr (expand_key_res H X sk) fun r => ?_
  exact res_congr (MlKem.Leaky.decapsulate_res H _ _) fun r => rfl

end XWing.Leaky
