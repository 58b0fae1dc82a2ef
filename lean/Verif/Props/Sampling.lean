import Verif.Props.Codec
import Verif.Props.Toy
/-! C29-C32: sampling. -/
namespace MlKem
open Rust Fips203
open FieldElement (ofN ofZ ofN_val zval_lt)

variable [Build]

/-! ### C29 -/

/-- Number of ones among bits `from_, …, from_ + n - 1` of the bytes -/
def onesIn {m : Nat} (b : Bytes m) (from_ n : Nat) : Nat :=
  ((Finset.range n).filter fun j => bitOf b (from_ + j)).card

omit [Build] in
theorem onesIn_le {m : Nat} (b : Bytes m) (from_ n : Nat) : onesIn b from_ n ≤ n := by
  have := Finset.card_filter_le (Finset.range n) fun j => bitOf b (from_ + j)
  simpa [onesIn] using this

omit [Build] in
theorem sum_bits {m : Nat} (b : Bytes m) (from_ n : Nat) :
    (∑ j ∈ Finset.range n, ((bit b.toList (from_ + j)).toNat : Zq)) = (onesIn b from_ n : Zq) := by
  rw [onesIn, Finset.card_filter]
  push_cast
  apply Finset.sum_congr rfl
  intro j _
  rw [bitOf_eq]
  cases bit b.toList (from_ + j) <;> simp

/-- **C29** Coefficient `i` is the number of ones in bits `[2iη, 2iη+η)` minus the number in the next
`η` bits, stored modulo 3329. Sampling never panics, whatever the bytes. -/
theorem C29_cbd (Eta : CbdSize) (B : EncodedPolynomial Eta.SampleSize) :
    ∃ f, Polynomial.sample_cbd Eta B = .ok f ∧ ∀ i : Fin 256,
      (f.coeffs[i].val.toNat : ℤ) =
        ((onesIn B (2 * i.val * Eta.toNat) Eta.toNat : ℤ)
          - onesIn B (2 * i.val * Eta.toNat + Eta.toNat) Eta.toNat) % 3329 := by
  refine ⟨_, cbd_ok Eta B, fun i => ?_⟩
  have h := holds_polyVec (SamplePolyCBD Eta.toNat B.toList) i
  simp only [h]
  unfold SamplePolyCBD
  rw [sum_bits, sum_bits]
  generalize onesIn B (2 * i.val * Eta.toNat) Eta.toNat = x
  generalize onesIn B (2 * i.val * Eta.toNat + Eta.toNat) Eta.toNat = y
  have : ((x : Zq) - (y : Zq)) = (((x : ℤ) - y : ℤ) : Zq) := by push_cast; rfl
  rw [this, ZMod.val_intCast]
  rfl

/-- **C29** Hence every coefficient represents an integer in `[-η, η]`. -/
theorem C29_range (Eta : CbdSize) (B : EncodedPolynomial Eta.SampleSize) :
    ∃ f, Polynomial.sample_cbd Eta B = .ok f ∧ ∀ i : Fin 256,
      f.coeffs[i].val.toNat ≤ Eta.toNat ∨
        (3329 - Eta.toNat ≤ f.coeffs[i].val.toNat ∧ f.coeffs[i].val.toNat < 3329) := by
  obtain ⟨f, hf, h⟩ := C29_cbd Eta B
  refine ⟨f, hf, fun i => ?_⟩
  have h1 := onesIn_le B (2 * i.val * Eta.toNat) Eta.toNat
  have h2 := onesIn_le B (2 * i.val * Eta.toNat + Eta.toNat) Eta.toNat
  have h3 := h i
  have h4 : Eta.toNat ≤ 3 := by cases Eta <;> decide
  omega

/-- **C29** for vectors: polynomial `c` is sampled from `SHAKE256(σ ‖ start + c)`. -/
theorem C29_vec (S : Sha3) (K : Nat) (Eta : CbdSize) (sigma : B32) (start : UInt8)
    (hK : start.toNat + K ≤ 256) :
    ∃ v, PolynomialVector.sample_cbd S K Eta sigma start = .ok v ∧ ∀ c : Fin K,
      ∃ B : EncodedPolynomial Eta.SampleSize,
        (∀ t : Fin (Eta.SampleSize * 32),
          B[t] = S.shake256 (sigma.toList ++ [UInt8.ofNat (start.toNat + c.val)]) t.val) ∧
        Polynomial.sample_cbd Eta B = .ok v.polys[c] := by
  refine ⟨_, pv_sample_cbd S Eta sigma rfl hK, fun c => ?_⟩
  refine ⟨Vector.ofFn fun t => S.shake256 (sigma.toList ++ [UInt8.ofNat (start.toNat + c.val)]) t.val,
    fun t => by simp, ?_⟩
  rw [cbd_ok]
  have hs : Eta.SampleSize * 32 = 64 * Eta.toNat := by cases Eta <;> rfl
  have : (Vector.ofFn fun t : Fin (Eta.SampleSize * 32) =>
      S.shake256 (sigma.toList ++ [UInt8.ofNat (start.toNat + c.val)]) t.val).toList
      = Fips203.PRF S Eta.toNat sigma.toList (start.toNat + c.val) := by
    unfold Fips203.PRF prefixBytes
    rw [Vector.toList_ofFn]
    apply List.ext_getElem
    · simp [hs]
    · intro t h1 h2
      simp
  rw [this]
  simp [pv]

/-- Bits 1, 0 then 1, 1 (byte 0x0d) give 1 - 2 = -1 for η = 2. -/
example : ∃ f, Polynomial.sample_cbd .U2 (Vector.replicate 128 0x0d) = .ok f ∧
    f.coeffs[0].val.toNat = 3328 := by
  obtain ⟨f, hf, h⟩ := C29_cbd .U2 (Vector.replicate 128 0x0d)
  refine ⟨f, hf, ?_⟩
  have h0 := h 0
  have : ((onesIn (Vector.replicate 128 0x0d : EncodedPolynomial CbdSize.U2.SampleSize) 0 2 : ℤ)
    - onesIn (Vector.replicate 128 0x0d : EncodedPolynomial CbdSize.U2.SampleSize) 2 2) % 3329 = 3328 := by
    decide +kernel
  have h0' : (f.coeffs[(0 : Fin 256)].val.toNat : ℤ) = 3328 := h0.trans this
  exact_mod_cast h0'

/-! ### C30, C31 -/

/-- **C30** The sampled polynomial consists of the first 256 candidates below 3329, in order: its
entry `i` is the acceptable candidate that has exactly `i` acceptable candidates before it. -/
theorem C30_sample {s : Nat → UInt8} (h : Accepts s) :
    ∃ f, NttPolynomial.sample_uniform { stream := s, pos := 0 } = .ok f ∧ ∀ i : Fin 256,
      ∃ n, candidate s n < 3329 ∧
        ((Finset.range n).filter fun m => candidate s m < 3329).card = i.val ∧
        f.coeffs[i].val.toNat = candidate s n := by
  refine ⟨_, sample_uniform_ok h, fun i => ?_⟩
  obtain ⟨N, hN⟩ := h
  obtain ⟨m, hm, hc⟩ := exists_of_count (p := fun n => candidate s n < 3329) (k := i.val) (N := N)
    (by omega)
  refine ⟨m, hm, by rw [← Nat.count_eq_card_filter_range]; exact hc, ?_⟩
  have hh := holds_polyVec (SampleNTT s) i
  simp only [hh]
  unfold SampleNTT
  rw [← hc, Nat.nth_count (p := fun n => candidate s n < 3329) hm, ZMod.val_natCast, Nat.mod_eq_of_lt hm]

/-- **C31** `sample_uniform` returns exactly when the stream holds 256 acceptable candidates, and
otherwise runs forever; it never panics. -/
theorem C31_terminates_iff (s : Nat → UInt8) :
    ((∃ f, NttPolynomial.sample_uniform { stream := s, pos := 0 } = .ok f) ↔
      ∃ T : Finset Nat, T.card = 256 ∧ ∀ n ∈ T, candidate s n < 3329) ∧
    (NttPolynomial.sample_uniform { stream := s, pos := 0 } = .div ↔
      ¬ ∃ T : Finset Nat, T.card = 256 ∧ ∀ n ∈ T, candidate s n < 3329) ∧
    NttPolynomial.sample_uniform { stream := s, pos := 0 } ≠ .panic := by
  have hiff : Accepts s ↔ ∃ T : Finset Nat, T.card = 256 ∧ ∀ n ∈ T, candidate s n < 3329 := by
    constructor
    · rintro ⟨N, hN⟩
      rw [Nat.count_eq_card_filter_range] at hN
      obtain ⟨T, hT, hc⟩ := Finset.exists_subset_card_eq hN
      exact ⟨T, hc, fun n hn => (Finset.mem_filter.1 (hT hn)).2⟩
    · rintro ⟨T, hc, hT⟩
      refine ⟨T.sup id + 1, ?_⟩
      rw [Nat.count_eq_card_filter_range, ← hc]
      apply Finset.card_le_card
      intro n hn
      rw [Finset.mem_filter, Finset.mem_range]
      exact ⟨Nat.lt_succ_of_le (Finset.le_sup (f := id) hn), hT n hn⟩
  by_cases h : Accepts s
  · rw [sample_uniform_ok h]
    have := hiff.1 h
    simp only [Res.ok.injEq, exists_eq', true_iff, reduceCtorEq, false_iff, not_not, ne_eq,
      not_false_eq_true, and_true]
    exact ⟨this, this⟩
  · rw [sample_uniform_div h]
    have := fun hh => h (hiff.2 hh)
    exact ⟨⟨fun ⟨_, hf⟩ => (nomatch hf), fun hh => (this hh).elim⟩, ⟨fun _ => this, fun _ => rfl⟩,
      fun hp => nomatch hp⟩

/-- A stream on which the sampler has to skip candidates: every other one is 4095. -/
example : Accepts fun n => if n % 3 = 0 then 0xff else if n % 3 = 1 then 0x1f else 0 := by
  refine ⟨2 * 256, ?_⟩
  have h : ∀ k, Nat.count (fun n => candidate
      (fun n => if n % 3 = 0 then 0xff else if n % 3 = 1 then 0x1f else 0) n < 3329) (2 * k) = k := by
    intro k
    induction k with
    | zero => simp
    | succ k ih =>
      rw [show 2 * (k + 1) = 2 * k + 1 + 1 by ring, Nat.count_succ, Nat.count_succ, ih]
      have e1 : (2 * k) / 2 = k := by omega
      have e2 : (2 * k + 1) / 2 = k := by omega
      have e3 : (2 * k) % 2 = 0 := by omega
      have e4 : (2 * k + 1) % 2 = 1 := by omega
      have m0 : (3 * k) % 3 = 0 := by omega
      have m1 : (3 * k + 1) % 3 = 1 := by omega
      have m2 : (3 * k + 2) % 3 = 2 := by omega
      simp only [candidate, e1, e2, e3, e4, m0, m1, m2]
      rw [if_neg (by decide), if_pos (by decide)]
  rw [h]

/-- A stream on which it never returns: all bytes 0xff -/
example : NttPolynomial.sample_uniform { stream := fun _ => 0xff, pos := 0 } = .div := by
  refine (C31_terminates_iff _).2.1.2 ?_
  rintro ⟨T, hc, hT⟩
  obtain ⟨n, hn⟩ : T.Nonempty := Finset.card_pos.1 (by omega)
  have := hT n hn
  unfold candidate at this
  dsimp only at this
  split at this <;> revert this <;> decide

/-! ### C32 -/

/-- **C32** Entry `(i, j)` of the key-generation matrix is sampled from `SHAKE128(ρ ‖ j ‖ i)`, and
the encapsulation matrix is its transpose; the two are defined for the same seeds, namely those for
which all the `K²` streams hold 256 acceptable candidates. -/
theorem C32_matrix (S : Sha3) (K : Nat) (rho : B32) :
    (∀ A, NttMatrix.sample_uniform S K rho false = .ok A →
      NttMatrix.sample_uniform S K rho true = .ok A.transpose ∧
      ∀ i j : Fin K, NttPolynomial.sample_uniform
          { stream := S.shake128 (rho.toList ++ [UInt8.ofNat j.val, UInt8.ofNat i.val]), pos := 0 }
        = .ok A.rows[i].polys[j]) ∧
    ((∃ A, NttMatrix.sample_uniform S K rho false = .ok A) ↔
      ∀ i j : Fin K, Accepts (S.shake128 (rho.toList ++ [UInt8.ofNat j.val, UInt8.ofNat i.val]))) ∧
    ((∃ A, NttMatrix.sample_uniform S K rho true = .ok A) ↔
      ∀ i j : Fin K, Accepts (S.shake128 (rho.toList ++ [UInt8.ofNat j.val, UInt8.ofNat i.val]))) ∧
    ∀ tr, NttMatrix.sample_uniform S K rho tr ≠ .panic := by
  have hiff : SeedOk S K rho.toList ↔
      ∀ i j : Fin K, Accepts (S.shake128 (rho.toList ++ [UInt8.ofNat j.val, UInt8.ofNat i.val])) :=
    ⟨fun h i j => h i.val j.val i.isLt j.isLt, fun h i j hi hj => h ⟨i, hi⟩ ⟨j, hj⟩⟩
  by_cases h : SeedOk S K rho.toList
  · rw [matrix_sample S rho h false, matrix_sample S rho h true]
    refine ⟨?_, ?_, ?_, ?_⟩
    · rintro A hA
      obtain rfl := (Res.ok.inj hA).symm
      refine ⟨?_, fun i j => ?_⟩
      · congr 2
        apply Vector.ext
        intro i hi
        simp [nv]
      · have := sample_uniform_ok (h i.val j.val i.isLt j.isLt)
        rw [streamA] at this
        rw [this]
        simp [nv, matA, streamA]
    · simp only [Res.ok.injEq, exists_eq', true_iff]; exact hiff.1 h
    · simp only [Res.ok.injEq, exists_eq', true_iff]; exact hiff.1 h
    · intro tr; rw [matrix_sample S rho h tr]; simp
  · rw [matrix_sample_div S rho h false, matrix_sample_div S rho h true]
    have hn := fun hh => h (hiff.2 hh)
    refine ⟨fun A hA => (nomatch hA), ?_, ?_, ?_⟩
    · exact ⟨fun ⟨_, hf⟩ => (nomatch hf), fun hh => (hn hh).elim⟩
    · exact ⟨fun ⟨_, hf⟩ => (nomatch hf), fun hh => (hn hh).elim⟩
    · intro tr; rw [matrix_sample_div S rho h tr]; simp

/-- The toy primitives satisfy the condition for every seed. -/
example (rho : B32) : ∀ i j : Fin 3,
    Accepts (Toy.S.shake128 (rho.toList ++ [UInt8.ofNat j.val, UInt8.ofNat i.val])) :=
  fun _ _ => Toy.accepts _

end MlKem
