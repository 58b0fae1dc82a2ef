import Verif.Spec.Fips203Algorithms
import Verif.Proofs.AlgorithmsKem
import Verif.Props.KemSpec
import Verif.Props.KemKeys
/-!
C80: the public operations of ml-kem compute what the algorithms of FIPS 203, written down line by line
(Spec/Fips203Algorithms.lean), compute. If the algorithm returns bytes then the call returns those bytes; if the loop
of Algorithm 7 never ends then the call never returns.
-/
namespace MlKem
open Rust Fips203

variable [Build] (S : Sha3) {P : ParameterSet} {p : Params}

/-- A call that generates a key pair behaves like an algorithm that returns the encodings of the two keys. -/
def GeneratesAs (r : Res (DecapsulationKey P × EncapsulationKey P)) : Option (List UInt8 × List UInt8) → Prop
  | some (ekb, dkb) => ∃ dk ek eb db, r = .ok (dk, ek) ∧ ek.as_bytes = .ok eb ∧ dk.as_bytes = .ok db ∧
      eb.toList = ekb ∧ db.toList = dkb
  | none => r = .div

/-- A call that encapsulates behaves like an algorithm that returns a key and a ciphertext. -/
def EncapsulatesAs (r : Res (P.EncodedCiphertext × B32)) : Option (List UInt8 × List UInt8) → Prop
  | some (K, c) => ∃ c' K', r = .ok (c', K') ∧ K'.toList = K ∧ c'.toList = c
  | none => r = .div

/-- A call that decapsulates behaves like an algorithm that returns a key. -/
def DecapsulatesAs (r : Res B32) : Option (List UInt8) → Prop
  | some K => ∃ K', r = .ok K' ∧ K'.toList = K
  | none => r = .div

omit [Build] in
theorem Res.eq_div {α : Type} {r : Res α} (h1 : r ≠ .panic) (h2 : ¬ ∃ a, r = .ok a) : r = .div := by
  cases r with
  | ok a => exact absurd ⟨a, rfl⟩ h2
  | panic => exact absurd rfl h1
  | div => rfl

/-- **C80** `generate_deterministic(d, z)` is Algorithm 16. -/
theorem C80_keygen (h : Supported P p) (d z : B32) :
    GeneratesAs (Kem.generate_deterministic S P d z) (Alg.KeyGen_internal S p d.toList z.toList) := by
  by_cases hs : SeedOk S p.k (seeds S p d.toList).1
  · rw [Alg.keygen_some S p _ hs]
    exact C01_keygen_is_fips203 S h d z hs
  · rw [Alg.keygen_none S p _ hs]
    obtain ⟨h1, h2⟩ := C04_generate_outcome S h d z
    exact Res.eq_div h1 fun h3 => hs (h2.1 h3)

/-- **C80** `encapsulate_deterministic(m)` with a key that was generated or parsed is Algorithm 17 on the encoding of
the key. -/
theorem C80_encaps (h : Supported P p) {ek : EncapsulationKey P} (hk : EkReach S ek) (m : B32) :
    ∃ eb, ek.as_bytes = .ok eb ∧
      EncapsulatesAs (ek.encapsulate_deterministic S m) (Alg.Encaps_internal S p eb.toList m.toList) := by
  obtain ⟨eb, he, h2⟩ := C02_encaps_is_fips203 S h hk m
  refine ⟨eb, he, ?_⟩
  by_cases hs : SeedOk S p.k (ekRho p eb.toList)
  · rw [Alg.encaps_some S p _ hs]
    exact h2 hs
  · rw [Alg.encaps_none S p _ hs]
    obtain ⟨h1, eb', he', h3⟩ := C04_encaps_outcome S h (.reach hk) m
    rw [he] at he'
    obtain rfl := Res.ok.inj he'
    exact Res.eq_div h1 fun h4 => hs (h3.1 h4)

/-- **C80** Decapsulation with a key parsed from any bytes is Algorithm 18 on these bytes. -/
theorem C80_decaps_parsed (h : Supported P p) (b : P.EncodedDecapsulationKey) (c : P.EncodedCiphertext) :
    ∃ dk, DecapsulationKey.from_bytes b = .ok dk ∧
      DecapsulatesAs (dk.decapsulate S c) (Alg.Decaps_internal S p b.toList c.toList) := by
  have hu := h.du_le
  have hv := h.dv_le
  obtain ⟨dk, hd, h2⟩ := C03_decaps_is_fips203 S h b c
  refine ⟨dk, hd, ?_⟩
  have hr : ekRho p (dkEk p b.toList) = (b.toList.drop (768 * p.k)).take 32 := Alg.rho_of_dk p _
  by_cases hs : SeedOk S p.k (ekRho p (dkEk p b.toList))
  · rw [Alg.decaps_some S p hu hv _ (hr ▸ hs)]
    exact h2 hs
  · rw [Alg.decaps_none S p _ (hr ▸ hs)]
    obtain rfl := h.eq
    obtain ⟨s, t, rho, hh, z, -, -, hrho, -, -, hf⟩ := kem_dk_from_bytes b
    rw [hd] at hf
    obtain rfl := Res.ok.inj hf
    refine MlKem.decaps_div S h.valid s t rho hh z (fun h' => hs ?_) c
    rw [hrho] at h'
    exact h'

/-- **C80** Decapsulation with any key a caller can hold is Algorithm 18 on the encoding of the key. -/
theorem C80_decaps (h : Supported P p) {dk : DecapsulationKey P} (hk : DkReach S dk) (c : P.EncodedCiphertext) :
    ∃ db, dk.as_bytes = .ok db ∧ DecapsulatesAs (dk.decapsulate S c) (Alg.Decaps_internal S p db.toList c.toList) := by
  obtain ⟨db, hd, h2⟩ := C03_decaps_of_held S h hk c
  refine ⟨db, hd, ?_⟩
  have hr : ekRho p (dkEk p db.toList) = (db.toList.drop (768 * p.k)).take 32 := Alg.rho_of_dk p _
  by_cases hs : SeedOk S p.k (ekRho p (dkEk p db.toList))
  · rw [Alg.decaps_some S p h.du_le h.dv_le _ (hr ▸ hs)]
    exact h2 hs
  · rw [Alg.decaps_none S p _ (hr ▸ hs)]
    obtain ⟨h1, db', hd', h3⟩ := C04_decaps_outcome S h hk c
    rw [hd] at hd'
    obtain rfl := Res.ok.inj hd'
    exact Res.eq_div h1 fun h4 => hs (h3.1 h4)

/-- **C80** `generate` is Algorithm 19: `d` and `z` are drawn, in this order, and Algorithm 16 is run on them. -/
theorem C80_generate (h : Supported P p) (rng : Rng) {s s1 s2 : rng.State} {d z : B32}
    (h1 : rng.fill_bytes 32 s = .ok (d, s1)) (h2 : rng.fill_bytes 32 s1 = .ok (z, s2)) :
    ∃ r, GeneratesAs r (Alg.KeyGen_internal S p d.toList z.toList) ∧
      Kem.generate S P rng s = r.bind fun keys => .ok (keys, s2) := by
  refine ⟨_, C80_keygen S h d z, ?_⟩
  rw [generate_rng_eq, h1, Res.ok_bind]
  dsimp only
  rw [h2]
  rfl

/-- **C80** `encapsulate` is Algorithm 20: `m` is drawn and Algorithm 17 is run on it. -/
theorem C80_encapsulate (h : Supported P p) {ek : EncapsulationKey P} (hk : EkReach S ek) (rng : Rng)
    {s s' : rng.State} {m : B32} (h1 : rng.fill_bytes 32 s = .ok (m, s')) :
    ∃ eb r, ek.as_bytes = .ok eb ∧ EncapsulatesAs r (Alg.Encaps_internal S p eb.toList m.toList) ∧
      ek.encapsulate S rng s = r.bind fun ck => .ok (ck, s') := by
  obtain ⟨eb, he, hr⟩ := C80_encaps S h hk m
  refine ⟨eb, _, he, hr, ?_⟩
  unfold EncapsulationKey.encapsulate EncapsulationKey.encapsulate_deterministic rand
  rw [h1]
  rfl

omit [Build] in
/-- **C80** The parts: what Spec/Fips203.lean says each algorithm computes is what the algorithm computes. A list of 256
integers is `List.ofFn f`. -/
theorem C80_parts :
    (∀ (d : Nat) (F : Fin 256 → Nat), Alg.ByteEncode d (List.ofFn F) = ByteEncode d F) ∧
    (∀ d, d ≤ 12 → ∀ B, Alg.ByteDecode d B = List.ofFn (ByteDecode d B)) ∧
    (∀ B, Alg.SampleNTT S B = some (List.ofFn (SampleNTT (S.shake128 B))) ∧ Accepts (S.shake128 B) ∨
      Alg.SampleNTT S B = none ∧ ¬ Accepts (S.shake128 B)) ∧
    (∀ eta B, Alg.SamplePolyCBD eta B = List.ofFn (SamplePolyCBD eta B)) ∧
    (∀ f : Poly, Alg.NTT (List.ofFn f) = List.ofFn (NTT f)) ∧
    (∀ f : Poly, Alg.NTTinv (List.ofFn f) = List.ofFn (NTTinv f)) ∧
    (∀ f g : Poly, Alg.MultiplyNTTs (List.ofFn f) (List.ofFn g) = List.ofFn (MultiplyNTTs f g)) := by
  refine ⟨Alg.byteEncode_ofFn, fun d hd B => Alg.byteDecode_eq hd B, fun B => ?_, Alg.samplePolyCBD_eq,
    fun f => ?_, fun f => ?_, fun f g => ?_⟩
  · by_cases h : Accepts (S.shake128 B)
    · refine .inl ⟨?_, h⟩
      rw [← Alg.ofPoly_eq]
      exact Alg.sampleNTT_eq S B h
    · exact .inr ⟨Alg.sampleNTT_none S B h, h⟩
  · rw [← Alg.ofPoly_eq, ← Alg.ofPoly_eq]; exact Alg.NTT_eq f
  · rw [← Alg.ofPoly_eq, ← Alg.ofPoly_eq]; exact Alg.NTTinv_eq f
  · rw [← Alg.ofPoly_eq, ← Alg.ofPoly_eq, ← Alg.ofPoly_eq]; exact Alg.multiplyNTTs_eq f g

/-- Algorithm 16 returns keys with the toy primitives and does not return if SHAKE128 yields only `0xff`; the call does
the same. -/
example (d z : B32) :
    (∃ ek dk, Alg.KeyGen_internal Toy.S ML_KEM_768 d.toList z.toList = some (ek, dk)) ∧
    Alg.KeyGen_internal { Toy.S with shake128 := fun _ _ => 255 } ML_KEM_768 d.toList z.toList = none := by
  constructor
  · exact ⟨_, _, Alg.keygen_some Toy.S _ _ (Toy.seedOk _ _)⟩
  · apply Alg.keygen_none
    intro hs
    obtain ⟨N, hN⟩ := hs 0 0 (by decide) (by decide)
    have h0 : Nat.count (fun n => candidate (fun _ => (255 : UInt8)) n < 3329) N = 0 := by
      rw [Nat.count_eq_card_filter_range, Finset.card_eq_zero, Finset.filter_eq_empty_iff]
      intro n _
      unfold candidate
      split <;> simp
    have hN' : 256 ≤ Nat.count (fun n => candidate (fun _ => (255 : UInt8)) n < 3329) N := hN
    omega

/-- The hypotheses of the theorems hold: a generated key pair, an encapsulation to it and the decapsulation, all as the
algorithms of the standard say. -/
example (d z m : B32) : ∃ (dk : DecapsulationKey MlKem512Params) (ek : EncapsulationKey MlKem512Params) (c : _) (K K' : B32),
    EkReach Toy.S ek ∧ DkReach Toy.S dk ∧ ek.encapsulate_deterministic Toy.S m = .ok (c, K) ∧
      dk.decapsulate Toy.S c = .ok K' := by
  have h1 := C80_keygen Toy.S supported_512 d z
  rw [Alg.keygen_some Toy.S _ _ (Toy.seedOk _ _)] at h1
  obtain ⟨dk, ek, eb, db, h1, -⟩ := h1
  obtain ⟨eb, -, h2⟩ := C80_encaps Toy.S supported_512 (.generated h1) m
  rw [Alg.encaps_some Toy.S _ _ (Toy.seedOk _ _)] at h2
  obtain ⟨c, K, h2, -⟩ := h2
  obtain ⟨db, -, h3⟩ := C80_decaps Toy.S supported_512 (.generated h1) c
  rw [Alg.decaps_some Toy.S _ (by decide) (by decide) _ (Toy.seedOk _ _)] at h3
  obtain ⟨K', h3, -⟩ := h3
  exact ⟨dk, ek, c, K, K', .generated h1, .generated h1, h2, h3⟩

/-- and the draws of C80_generate and C80_encapsulate succeed with the toy generator -/
example : ∃ d s1 z s2, Toy.rng.fill_bytes 32 (5 : Nat) = .ok (d, s1) ∧ Toy.rng.fill_bytes 32 s1 = .ok (z, s2) :=
  ⟨_, _, _, _, rfl, rfl⟩

end MlKem
