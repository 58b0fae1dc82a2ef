import Verif.Proofs.Vectors1024
/-!
The NIST vectors again, through the calls of the model: with SHA-3 and SHAKE as FIPS 202 defines them
(Spec/Fips202.lean), `generate_deterministic`, `encapsulate_deterministic` and `decapsulate` return the bytes that
/repo/ml-kem/tests/key-gen.rs and encap-decap.rs assert. These are tests, not properties. They also show that the
hypotheses of C01 to C03 and C80 are met with the real hash functions.
-/
namespace MlKem
open Rust Fips203 Fips202 Fips203.Vectors

variable [Build]

/-- /repo/ml-kem/tests/key-gen.rs, `verify`, on ML-KEM-512 test case 1 -/
theorem vector_generate (d z : B32) (hd : d.toList = hex 32 Kem512.g_d) (hz : z.toList = hex 32 Kem512.g_z) :
    ∃ dk ek eb db, Kem.generate_deterministic sha3 MlKem512Params d z = .ok (dk, ek) ∧
      ek.as_bytes = .ok eb ∧ dk.as_bytes = .ok db ∧ eb.toList = hex 800 Kem512.g_ek ∧ db.toList = hex 1632 Kem512.g_dk := by
  have h := C80_keygen sha3 supported_512 d z
  rw [hd, hz, Kem512.keygen] at h
  exact h

example : ∃ d : B32, d.toList = hex 32 Kem512.g_d := ⟨⟨(hex 32 Kem512.g_d).toArray, by simp [hex]⟩, by simp⟩

omit [Build] in
theorem canonical_of_check {p : Params} {n N : Nat}
    (h : ((Eval.chunks Eval.val 12 (256 * p.k) (Eval.bits 8 (hexN n N))).all fun x => Nat.blt x 3329) = true) :
    EkCanonical p (hex n N) := by
  intro i hi
  rw [List.all_eq_true] at h
  have h1 : i < (Eval.chunks Eval.val 12 (256 * p.k) (Eval.bits 8 (hexN n N))).length := by rwa [Eval.chunks_length]
  have h2 := h _ (List.getElem_mem h1)
  rw [← List.getD_eq_getElem _ 0 h1, Eval.chunks_get _ _ _ hi, Eval.val_take] at h2
  have h3 := Nat.blt_eq.mp h2
  rw [← hexN_eq, field12, ofBits]
  simp only [Eval.bit_toB]
  simp only [Eval.drop_get, Nat.mul_comm i] at h3
  exact h3

/-- /repo/ml-kem/tests/encap-decap.rs, `verify_encap`, on ML-KEM-768 test case 26 -/
theorem vector_encapsulate (b : MlKem768Params.EncodedEncryptionKey) (hb : b.toList = hex 1184 Kem768.e_ek) (m : B32)
    (hm : m.toList = hex 32 Kem768.e_m) :
    ∃ ek c K, EncapsulationKey.from_bytes sha3 b = .ok ek ∧ ek.as_bytes = .ok b ∧
      ek.encapsulate_deterministic sha3 m = .ok (c, K) ∧ K.toList = hex 32 Kem768.e_k ∧ c.toList = hex 1088 Kem768.e_c := by
  obtain ⟨ek, eb, h1, h2, -, -, h3, -⟩ := C13_ek_canonical sha3 supported_768 b
  obtain rfl := h3.2 (hb ▸ canonical_of_check (by decide +kernel))
  obtain ⟨eb', he', h⟩ := C80_encaps sha3 supported_768 (.parsed h1) m
  rw [h2] at he'
  obtain rfl := Res.ok.inj he'
  rw [hb, hm, Kem768.encaps] at h
  obtain ⟨c, K, h⟩ := h
  exact ⟨ek, c, K, h1, h2, h⟩

/-- /repo/ml-kem/tests/encap-decap.rs, `verify_decap`, on ML-KEM-512 test cases 76 and 77: the second ciphertext is
one that nobody encapsulated, and the key is the implicit rejection -/
theorem vector_decapsulate (b : MlKem512Params.EncodedDecapsulationKey) (hb : b.toList = hex 1632 Kem512.d_dk) :
    ∃ dk, DecapsulationKey.from_bytes b = .ok dk ∧
      (∀ c : MlKem512Params.EncodedCiphertext, c.toList = hex 768 Kem512.accept_c →
        ∃ K, dk.decapsulate sha3 c = .ok K ∧ K.toList = hex 32 Kem512.accept_k) ∧
      (∀ c : MlKem512Params.EncodedCiphertext, c.toList = hex 768 Kem512.reject_c →
        ∃ K, dk.decapsulate sha3 c = .ok K ∧ K.toList = hex 32 Kem512.reject_k) := by
  obtain ⟨dk, hd, -⟩ := C03_decaps_is_fips203 sha3 supported_512 b (Vector.replicate _ 0)
  refine ⟨dk, hd, fun c hc => ?_, fun c hc => ?_⟩
  · obtain ⟨dk', hd', h⟩ := C80_decaps_parsed sha3 supported_512 b c
    rw [hd] at hd'
    obtain rfl := Res.ok.inj hd'
    rw [hb, hc, Kem512.accept] at h
    exact h
  · obtain ⟨dk', hd', h⟩ := C80_decaps_parsed sha3 supported_512 b c
    rw [hd] at hd'
    obtain rfl := Res.ok.inj hd'
    rw [hb, hc, Kem512.reject] at h
    exact h

end MlKem
