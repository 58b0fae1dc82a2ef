import Verif.Proofs.Dist
import Verif.Props.Sampling
import Mathlib.Data.Int.Interval
/-! C52, C53: the samplers have exactly the distributions they are meant to have. -/
namespace MlKem
open Rust Fips203

variable [Build]

/-! ### C52 -/

/-- ones in the first half of a group minus ones in the second half -/
def groupDiff (eta : Nat) (x : Fin (2 * eta) → Bool) : ℤ :=
  ((Finset.univ.filter fun j : Fin (2 * eta) => j.val < eta ∧ x j).card : ℤ)
    - (Finset.univ.filter fun j : Fin (2 * eta) => ¬ j.val < eta ∧ x j).card

omit [Build] in
theorem onesIn_first {m : Nat} (B : Bytes m) (eta i : Nat) :
    onesIn B (2 * i * eta) eta = (Finset.univ.filter fun j : Fin (2 * eta) =>
      j.val < eta ∧ bit B.toList (i * (2 * eta) + j.val)).card := by
  unfold onesIn
  refine Finset.card_bij (fun j hj => ⟨j, by simp at hj; omega⟩) ?_ ?_ ?_
  · intro j hj
    rw [Finset.mem_filter, Finset.mem_range, bitOf_eq] at hj
    rw [Finset.mem_filter]
    refine ⟨Finset.mem_univ _, ?_⟩
    dsimp only
    rwa [show i * (2 * eta) = 2 * i * eta by ring]
  · intro j _ j' _ h; simpa using h
  · intro j hj
    simp only [Finset.mem_filter, Finset.mem_univ, true_and] at hj
    refine ⟨j.val, ?_, rfl⟩
    rw [Finset.mem_filter, Finset.mem_range, bitOf_eq]
    rwa [show 2 * i * eta = i * (2 * eta) by ring]

omit [Build] in
theorem onesIn_second {m : Nat} (B : Bytes m) (eta i : Nat) :
    onesIn B (2 * i * eta + eta) eta = (Finset.univ.filter fun j : Fin (2 * eta) =>
      ¬ j.val < eta ∧ bit B.toList (i * (2 * eta) + j.val)).card := by
  unfold onesIn
  refine Finset.card_bij (fun j hj => ⟨eta + j, by simp at hj; omega⟩) ?_ ?_ ?_
  · intro j hj
    rw [Finset.mem_filter, Finset.mem_range, bitOf_eq] at hj
    rw [Finset.mem_filter]
    refine ⟨Finset.mem_univ _, ?_⟩
    dsimp only
    refine ⟨by omega, ?_⟩
    rw [show i * (2 * eta) + (eta + j) = 2 * i * eta + eta + j by ring]
    exact hj.2
  · intro j _ j' _ h; simpa using h
  · intro j hj
    simp only [Finset.mem_filter, Finset.mem_univ, true_and] at hj
    have hlt := j.isLt
    refine ⟨j.val - eta, ?_, by apply Fin.ext; simp; omega⟩
    rw [Finset.mem_filter, Finset.mem_range, bitOf_eq]
    refine ⟨by omega, ?_⟩
    rw [show 2 * i * eta + eta + (j.val - eta) = i * (2 * eta) + j.val by
      have : eta + (j.val - eta) = j.val := by omega
      rw [Nat.add_assoc, this]; ring]
    exact hj.2

omit [Build] in
theorem groupDiff_count (Eta : CbdSize) (c : ℤ) (h1 : -Eta.toNat ≤ c) (h2 : c ≤ Eta.toNat) :
    Nat.card {x : Fin (2 * Eta.toNat) → Bool // groupDiff Eta.toNat x = c}
      = (2 * Eta.toNat).choose (Eta.toNat + c).toNat := by
  rw [Nat.card_eq_fintype_card, Fintype.card_subtype]
  cases Eta
  · simp only [CbdSize.toNat] at h1 h2 ⊢
    have : ∀ c ∈ Finset.Icc (-2 : ℤ) 2, (Finset.univ.filter fun x : Fin (2 * 2) → Bool =>
      groupDiff 2 x = c).card = (2 * 2).choose (2 + c).toNat := by decide +kernel
    exact this c (Finset.mem_Icc.2 ⟨h1, h2⟩)
  · simp only [CbdSize.toNat] at h1 h2 ⊢
    have : ∀ c ∈ Finset.Icc (-3 : ℤ) 3, (Finset.univ.filter fun x : Fin (2 * 3) → Bool =>
      groupDiff 3 x = c).card = (2 * 3).choose (3 + c).toNat := by decide +kernel
    exact this c (Finset.mem_Icc.2 ⟨h1, h2⟩)

/-- `f` holds the coefficients `c`, modulo q. -/
def HoldsInts (f : Polynomial) (c : Fin 256 → ℤ) : Prop :=
  ∀ i : Fin 256, (f.coeffs[i].val.toNat : ℤ) = c i % 3329

/-- **C52** Noise has exactly the centred binomial distribution, independently in every coefficient:
of the `256^(64η)` byte strings, the number that give the coefficients `c` is the product of the
binomial coefficients `C(2η, η + c_i)`. -/
theorem C52_cbd_count (Eta : CbdSize) (c : Fin 256 → ℤ)
    (hc : ∀ i, -(Eta.toNat : ℤ) ≤ c i ∧ c i ≤ Eta.toNat) :
    Nat.card {B : EncodedPolynomial Eta.SampleSize //
        ∃ f, Polynomial.sample_cbd Eta B = .ok f ∧ HoldsInts f c}
      = ∏ i, (2 * Eta.toNat).choose (Eta.toNat + c i).toNat := by
  have hs : 8 * (Eta.SampleSize * 32) = 256 * (2 * Eta.toNat) := by cases Eta <;> rfl
  have hE : Eta.toNat ≤ 3 := by cases Eta <;> decide
  rw [← Finset.prod_congr rfl fun i _ => groupDiff_count Eta (c i) (hc i).1 (hc i).2,
    ← card_groups hs fun i x => groupDiff Eta.toNat x = c i]
  refine Nat.card_congr (Equiv.subtypeEquivRight fun B => ?_)
  obtain ⟨f, hf, h⟩ := C29_cbd Eta B
  have hd : ∀ i : Fin 256, groupDiff Eta.toNat (bitGroups (2 * Eta.toNat) B i)
      = (onesIn B (2 * i.val * Eta.toNat) Eta.toNat : ℤ)
        - onesIn B (2 * i.val * Eta.toNat + Eta.toNat) Eta.toNat := by
    intro i
    rw [onesIn_first, onesIn_second]
    rfl
  constructor
  · rintro ⟨f', hf', h'⟩ i
    obtain rfl := Res.ok.inj (hf.symm.trans hf')
    have e := (h i).symm.trans (h' i)
    have h1 := onesIn_le B (2 * i.val * Eta.toNat) Eta.toNat
    have h2 := onesIn_le B (2 * i.val * Eta.toNat + Eta.toNat) Eta.toNat
    have h3 := hc i
    rw [hd]
    omega
  · intro hq
    refine ⟨f, hf, fun i => ?_⟩
    rw [h i, ← hd, hq]

/-- **C52** As probabilities: over uniform bytes the coefficients are independent, and each is `c` with
probability `C(2η, η + c) / 4^η`. -/
theorem C52_cbd_probability (Eta : CbdSize) (c : Fin 256 → ℤ)
    (hc : ∀ i, -(Eta.toNat : ℤ) ≤ c i ∧ c i ≤ Eta.toNat) :
    (Nat.card {B : EncodedPolynomial Eta.SampleSize //
        ∃ f, Polynomial.sample_cbd Eta B = .ok f ∧ HoldsInts f c} : ℚ)
        / Nat.card (EncodedPolynomial Eta.SampleSize)
      = ∏ i, ((2 * Eta.toNat).choose (Eta.toNat + c i).toNat : ℚ) / 4 ^ Eta.toNat := by
  have hn : Nat.card (EncodedPolynomial Eta.SampleSize) = (4 ^ Eta.toNat) ^ 256 := by
    rw [card_bytes]
    cases Eta <;> norm_num [CbdSize.toNat, CbdSize.SampleSize]
  rw [C52_cbd_count Eta c hc, hn, Finset.prod_div_distrib, Finset.prod_const]
  push_cast
  simp

/-- A coefficient pattern that is neither constant nor typical: -η first, then zeros -/
example : Nat.card {B : EncodedPolynomial CbdSize.U3.SampleSize // ∃ f, Polynomial.sample_cbd .U3 B = .ok f ∧
    HoldsInts f fun i => if i = 0 then -3 else 0} = 1 * 20 ^ 255 := by
  rw [C52_cbd_count .U3 _ (by intro i; split <;> decide)]
  have : ∀ i : Fin 256, (2 * CbdSize.U3.toNat).choose
      (CbdSize.U3.toNat + (if i = 0 then (-3 : ℤ) else 0)).toNat = if i = 0 then 1 else 20 := by
    intro i; split <;> decide
  rw [Finset.prod_congr rfl fun i _ => this i, Finset.prod_ite]
  have h : (Finset.univ.filter fun i : Fin 256 => ¬ i = 0).card = 255 := by decide +kernel
  rw [Finset.prod_const, Finset.prod_const, h, one_pow]

/-! ### C53 -/

/-- Whatever bytes follow `b`, sampling returns the polynomial with coefficients `f`. -/
def Determines {N : Nat} (b : Bytes (3 * N)) (f : Fin 256 → Fin 3329) : Prop :=
  ∀ s : Nat → UInt8, (∀ i : Fin (3 * N), s i.val = b[i]) →
    ∃ p, NttPolynomial.sample_uniform { stream := s, pos := 0 } = .ok p ∧
      ∀ i : Fin 256, p.coeffs[i].val.toNat = (f i).val

/-- The coefficients as candidates -/
def asCandidates (f : Fin 256 → Fin 3329) : List (Fin 4096) :=
  List.ofFn fun i => ⟨(f i).val, by omega⟩

omit [Build] in
theorem prefix_iff {l : List (Fin 4096)} {f : Fin 256 → Fin 3329} :
    asCandidates f <+: l ↔ ∀ i : Fin 256, (l.map Fin.val)[i.val]? = some (f i).val := by
  have hlen : (asCandidates f).length = 256 := List.length_ofFn
  constructor
  · rintro ⟨t, rfl⟩ i
    rw [List.getElem?_map, List.getElem?_append_left (by rw [hlen]; exact i.isLt)]
    simp only [asCandidates, List.getElem?_ofFn, i.isLt, dite_true, Option.map_some]
  · intro h
    rw [List.prefix_iff_eq_take, hlen]
    apply List.ext_getElem?
    intro i
    by_cases hi : i < 256
    · rw [List.getElem?_take_of_lt hi]
      have h1 := h ⟨i, hi⟩
      rw [List.getElem?_map, Option.map_eq_some_iff] at h1
      obtain ⟨a, h2, h3⟩ := h1
      simp only at h2
      rw [h2]
      simp only [asCandidates, List.getElem?_ofFn, hi, dite_true, Option.some.injEq]
      exact Fin.ext h3.symm
    · rw [List.getElem?_eq_none (by rw [hlen]; omega), List.getElem?_eq_none (by simp; omega)]

theorem determines_iff {N : Nat} {b : Bytes (3 * N)} {f : Fin 256 → Fin 3329} :
    Determines b f ↔ asCandidates f <+: keptOf (candidatesOf b) := by
  rw [prefix_iff]
  constructor
  · intro h i
    have hs : ∀ i : Fin (3 * N), padded b i.val = b[i] := by
      intro i
      rw [padded, dif_pos i.isLt]
      rfl
    obtain ⟨p, hp, hf⟩ := h _ hs
    have hacc : Accepts (padded b) := by
      by_contra hn
      rw [sample_uniform_div hn] at hp
      nomatch hp
    obtain ⟨p', hp', hn⟩ := C30_sample hacc
    obtain rfl := Res.ok.inj (hp.symm.trans hp')
    obtain ⟨n, ha, hc, hv⟩ := hn i
    rw [← Nat.count_eq_card_filter_range] at hc
    have hlt : n < 2 * N := by
      by_contra hge
      rw [candidate_beyond b (by omega)] at ha
      omega
    have := keptUpTo_get _ hlt ha
    rw [hc, keptUpTo_padded hs, ← hv, hf] at this
    exact this
  · intro h s hs
    have hlen : 256 ≤ Nat.count (fun n => candidate s n < 3329) (2 * N) := by
      rw [← keptUpTo_length, keptUpTo_padded hs]
      have := (List.getElem?_eq_some_iff.1 (h 255)).1
      exact this
    obtain ⟨p, hp, hn⟩ := C30_sample ⟨_, hlen⟩
    refine ⟨p, hp, fun i => ?_⟩
    obtain ⟨n, ha, hc, hv⟩ := hn i
    rw [← Nat.count_eq_card_filter_range] at hc
    have hlt : n < 2 * N := by
      by_contra hge
      have := Nat.count_monotone (fun n => candidate s n < 3329) (Nat.le_of_not_lt hge)
      have := i.isLt
      omega
    have h1 := keptUpTo_get _ hlt ha
    rw [hc, keptUpTo_padded hs, h i] at h1
    rw [hv]
    exact (Option.some.inj h1).symm

theorem determines_card (N : Nat) (f : Fin 256 → Fin 3329) :
    Nat.card {b : Bytes (3 * N) // Determines b f} = hitCount (2 * N) 256 := by
  rw [Nat.card_congr (Equiv.subtypeEquivRight fun b => determines_iff), card_bytes_hits]
  · rw [asCandidates, List.length_ofFn]
  · intro x hx
    obtain ⟨i, rfl⟩ := (List.mem_ofFn' _ _).1 hx
    exact (f i).isLt

/-- **C53** The matrix entries are exactly uniform: however many bytes are read, every polynomial is
the result for the same number of byte strings. -/
theorem C53_uniform (N : Nat) (f g : Fin 256 → Fin 3329) :
    Nat.card {b : Bytes (3 * N) // Determines b f} = Nat.card {b : Bytes (3 * N) // Determines b g} := by
  rw [determines_card, determines_card]

theorem determined_card (N : Nat) :
    3329 ^ 256 * hitCount (2 * N) 256 + Nat.card {b : Bytes (3 * N) // ¬ ∃ f, Determines b f} = 4096 ^ (2 * N) := by
  have hu : ∀ {b : Bytes (3 * N)} {f g}, Determines b f → Determines b g → f = g := by
    intro b f g hf hg
    funext i
    have h1 := (prefix_iff.1 (determines_iff.1 hf)) i
    have h2 := (prefix_iff.1 (determines_iff.1 hg)) i
    exact Fin.ext (Option.some.inj (h1.symm.trans h2))
  have e : (Σ f : Fin 256 → Fin 3329, {b : Bytes (3 * N) // Determines b f})
      ≃ {b : Bytes (3 * N) // ∃ f, Determines b f} :=
    { toFun := fun x => ⟨x.2.1, x.1, x.2.2⟩
      invFun := fun b => ⟨b.2.choose, b.1, b.2.choose_spec⟩
      left_inv := by
        rintro ⟨f, b, hb⟩
        have h : ∃ f, Determines b f := ⟨f, hb⟩
        obtain rfl : h.choose = f := hu h.choose_spec hb
        rfl
      right_inv := fun b => rfl }
  have h1 : Nat.card {b : Bytes (3 * N) // ∃ f, Determines b f} = 3329 ^ 256 * hitCount (2 * N) 256 := by
    rw [← Nat.card_congr e, Nat.card_sigma, Finset.sum_congr rfl fun f _ => determines_card N f,
      Finset.sum_const, smul_eq_mul, Finset.card_univ, Fintype.card_fun, Fintype.card_fin, Fintype.card_fin]
  have h2 : Nat.card {b : Bytes (3 * N) // ∃ f, Determines b f}
      + Nat.card {b : Bytes (3 * N) // ¬ ∃ f, Determines b f} = 4096 ^ (2 * N) := by
    classical
    have := Fintype.ofFinite (Bytes (3 * N))
    rw [← Nat.card_sum, Nat.card_congr (Equiv.sumCompl _), card_bytes,
      show (4096 : Nat) = 2 ^ 12 by norm_num, show (256 : Nat) = 2 ^ 8 by norm_num, ← pow_mul, ← pow_mul]
    congr 1
    omega
  rw [← h1]
  exact h2

/-- **C53** The number of strings of `3N` bytes after which sampling has not ended is that of the sequences
of `2N` candidates of which fewer than 256 are below q. -/
theorem C53_count (N : Nat) :
    Nat.card {b : Bytes (3 * N) // ¬ ∃ f, Determines b f}
      = ∑ j ∈ Finset.range 256, (2 * N).choose j * 3329 ^ j * 767 ^ (2 * N - j) := by
  have h1 := determined_card N
  have h2 := hitCount_exact (2 * N) 256
  omega

/-- **C53** The bound of FIPS 203 (appendix B): after 280 iterations, which read 840 bytes, sampling has not
ended for less than a fraction `2^-261` of the outputs. -/
theorem C53_appendix_b :
    (Nat.card {b : Bytes (3 * 280) // ¬ ∃ f, Determines b f} : ℚ) / Nat.card (Bytes (3 * 280)) ≤ 1 / 2 ^ 261 := by
  have h4 : Nat.card (Bytes (3 * 280)) = 4096 ^ (2 * 280) := by
    rw [card_bytes, show (4096 : Nat) = 2 ^ 12 by norm_num, show (256 : Nat) = 2 ^ 8 by norm_num,
      ← pow_mul, ← pow_mul]
  have frac : ∀ {x T : Nat}, x * 2 ^ 261 ≤ T → 0 < T → (x : ℚ) / T ≤ 1 / 2 ^ 261 := by
    intro x T h hT
    rw [div_le_div_iff₀ (by exact_mod_cast hT) (by positivity), one_mul]
    exact_mod_cast h
  rw [C53_count, h4]
  exact frac (tail_bound_560 rfl) (Nat.pow_pos (by decide))

/-- **C53** Sampling ends: all but a fraction `3^256 / 2^(2N)` of the byte strings of length `3N`
determine the result, so the fraction that does not vanishes as `N` grows. -/
theorem C53_ends (N : Nat) :
    (Nat.card {b : Bytes (3 * N) // ¬ ∃ f, Determines b f} : ℚ) / Nat.card (Bytes (3 * N))
      ≤ 3 ^ 256 / 2 ^ (2 * N) := by
  have h2 := determined_card N
  have h3 := hitCount_bound (2 * N) 256
  have h4 : Nat.card (Bytes (3 * N)) = 4096 ^ (2 * N) := by
    rw [card_bytes, show (4096 : Nat) = 2 ^ 12 by norm_num, show (256 : Nat) = 2 ^ 8 by norm_num,
      ← pow_mul, ← pow_mul]
    congr 1
    omega
  rw [h4, div_le_div_iff₀ (by positivity) (by positivity)]
  rw [← h2] at h3 ⊢
  have h5 : Nat.card {b : Bytes (3 * N) // ¬ ∃ f, Determines b f} * 2 ^ (2 * N)
      ≤ 3 ^ 256 * (3329 ^ 256 * hitCount (2 * N) 256
        + Nat.card {b : Bytes (3 * N) // ¬ ∃ f, Determines b f}) := by
    generalize 3329 ^ 256 * hitCount (2 * N) 256 = x at *
    generalize Nat.card {b : Bytes (3 * N) // ¬ ∃ f, Determines b f} = y at *
    generalize (3 : Nat) ^ 256 = z at *
    rw [Nat.add_mul] at h3
    omega
  exact_mod_cast h5

omit [Build] in
theorem hitCount_pos (k : Nat) : 0 < hitCount k k := by
  induction k with
  | zero => simp [hitCount]
  | succ k ih => rw [hitCount]; omega

/-- Already 384 bytes can determine the result, for every polynomial. -/
example (f : Fin 256 → Fin 3329) : ∃ b : Bytes (3 * 128), Determines b f := by
  have h : Nat.card {b : Bytes (3 * 128) // Determines b f} ≠ 0 := by
    rw [determines_card]
    exact (hitCount_pos 256).ne'
  obtain ⟨b, hb⟩ := (Nat.card_pos_iff.1 (Nat.pos_of_ne_zero h)).1
  exact ⟨b, hb⟩

/-- Fewer bytes never do. -/
example (f : Fin 256 → Fin 3329) (b : Bytes (3 * 127)) : ¬ Determines b f := by
  intro h
  have h1 := prefix_iff.1 (determines_iff.1 h) 255
  have h2 := (List.getElem?_eq_some_iff.1 h1).1
  rw [List.length_map] at h2
  have h3 : (keptOf (candidatesOf b)).length ≤ 2 * 127 := by
    unfold keptOf
    refine (List.length_filter_le _ _).trans ?_
    rw [List.length_ofFn]
  have h4 : (255 : Fin 256).val = 255 := rfl
  omega

end MlKem
