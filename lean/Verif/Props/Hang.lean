import Verif.Props.Failure
import Verif.Props.Dist
/-! C63: sampling loops forever with negligible probability. -/
namespace MlKem
open Rust Fips203 Finset BigOperators

theorem prob_or_le {α : Type} [Finite α] (E E' : α → Prop) : prob (fun a => E a ∨ E' a) ≤ prob E + prob E' := by
  classical
  have := Fintype.ofFinite α
  rw [prob_eq_expect, prob_eq_expect, prob_eq_expect, ← Finset.expect_add_distrib]
  refine Finset.expect_le_expect fun a _ => ?_
  by_cases h : E a <;> by_cases h' : E' a <;> simp [h, h']

/-- The probability that one of finitely many events happens -/
theorem prob_exists_le {α ι : Type} [Finite α] (E : ι → α → Prop) {c : ℝ} (h : ∀ i, prob (E i) ≤ c) (l : List ι) :
    prob (fun a => ∃ i ∈ l, E i a) ≤ l.length * c := by
  induction l with
  | nil => simp [prob]
  | cons i l ih =>
    have := prob_or_le (E i) fun a => ∃ i ∈ l, E i a
    simp only [List.mem_cons, exists_eq_or_imp, List.length_cons]
    push_cast
    linarith [h i]

/-- Evaluating a random table at a point gives a random value. -/
theorem prob_apply {n m : Nat} (x : Bytes n) (E : Bytes m → Prop) :
    prob (fun T : Bytes n → Bytes m => E (T x)) = prob E := by
  classical
  have := Fintype.ofFinite (Bytes n)
  have := Fintype.ofFinite (Bytes m)
  have : Nonempty (Bytes m) := ⟨Vector.replicate _ 0⟩
  rw [prob_eq_expect, prob_eq_expect]
  have h := expect_comp_injective (α := Bytes m) (j := fun _ : Unit => x) (fun _ _ _ => rfl)
    fun f => if E (f ()) then (1 : ℝ) else 0
  refine h.trans ?_
  exact Fintype.expect_equiv (Equiv.funUnique Unit (Bytes m)) _ _ fun f => rfl

/-- A 34-byte string `ρ ‖ j ‖ i` -/
def xofPoint (rho : List UInt8) (i j : Nat) : Bytes 34 := bytesOf (rho ++ [UInt8.ofNat j, UInt8.ofNat i])

theorem withXof_stream (S : Sha3) {L : Nat} (T : Bytes 34 → Bytes L) {rho : List UInt8} (hr : rho.length = 32)
    (i j : Nat) (n : Fin L) : streamA (withXof S T) rho i j n.val = (T (xofPoint rho i j))[n] := by
  have h : (rho ++ [UInt8.ofNat j, UInt8.ofNat i]).toArray.size = 34 := by simp [hr]
  have hp : (⟨(rho ++ [UInt8.ofNat j, UInt8.ofNat i]).toArray, h⟩ : Bytes 34) = xofPoint rho i j :=
    bytes_ext (by unfold xofPoint; rw [toList_bytesOf (by simp [hr])]; rfl)
  unfold streamA withXof
  simp only
  rw [dif_pos ⟨h, n.isLt⟩, hp]
  rfl

variable [Build]

theorem accepts_of_determines {N : Nat} {b : Bytes (3 * N)} {f} (h : Determines b f) {s : Nat → UInt8}
    (hs : ∀ i : Fin (3 * N), s i.val = b[i]) : Accepts s := by
  obtain ⟨p, hp, -⟩ := h s hs
  by_contra hn
  rw [sample_uniform_div hn] at hp
  nomatch hp

/-- The probability that a given seed cannot be expanded -/
theorem prob_seed_le (S : Sha3) (k : Nat) {N : Nat} {c : ℝ}
    (hc : prob (fun b : Bytes (3 * N) => ¬ ∃ f, Determines b f) ≤ c) {rho : List UInt8} (hr : rho.length = 32) :
    prob (fun T : Bytes 34 → Bytes (3 * N) => ¬ SeedOk (withXof S T) k rho) ≤ k ^ 2 * c := by
  have h1 : ∀ x : Bytes 34, prob (fun T : Bytes 34 → Bytes (3 * N) => ¬ ∃ f, Determines (T x) f) ≤ c := by
    intro x
    rw [prob_apply x fun b : Bytes (3 * N) => ¬ ∃ f, Determines b f]
    exact hc
  refine (prob_mono (E' := fun T : Bytes 34 → Bytes (3 * N) => ∃ t ∈ (List.range k ×ˢ List.range k),
    ¬ ∃ f, Determines (T (xofPoint rho t.1 t.2)) f) ?_).trans
    ((prob_exists_le _ (fun t : Nat × Nat => h1 (xofPoint rho t.1 t.2)) _).trans (le_of_eq ?_))
  · intro T h
    unfold SeedOk at h
    push Not at h
    obtain ⟨i, j, hi, hj, h⟩ := h
    refine ⟨(i, j), by simp [hi, hj], ?_⟩
    rintro ⟨f, hf⟩
    exact h (accepts_of_determines hf (withXof_stream S T hr i j))
  · rw [List.length_product, List.length_range]
    push_cast
    ring

omit [Build] in
theorem ratio_real {a b : Nat} {x : ℚ} (h : (a : ℚ) / b ≤ x) : (a : ℝ) / b ≤ (x : ℝ) := by
  have := (Rat.cast_le (K := ℝ)).2 h
  rwa [Rat.cast_div, Rat.cast_natCast, Rat.cast_natCast] at this

theorem prob_seed (S : Sha3) (k : Nat) {rho : List UInt8} (hr : rho.length = 32) :
    prob (fun T : Bytes 34 → Bytes (3 * 280) => ¬ SeedOk (withXof S T) k rho) ≤ k ^ 2 * (2 : ℝ) ^ (-261 : ℤ) := by
  refine prob_seed_le S k ?_ hr
  refine (ratio_real C53_appendix_b).trans (le_of_eq ?_)
  rw [zpow_neg, Rat.cast_div, Rat.cast_pow]
  simp

/-! ### C63 -/

variable (S : Sha3) {P : ParameterSet} {p : Params}

/-- Key generation returns a key pair, every encapsulation to it and every decapsulation with it returns. -/
def PairReturns (S : Sha3) (P : ParameterSet) (d z : B32) : Prop :=
  ∃ dk ek, Kem.generate_deterministic S P d z = .ok (dk, ek) ∧
    (∀ m, ∃ r, ek.encapsulate_deterministic S m = .ok r) ∧ ∀ c, ∃ K, dk.decapsulate S c = .ok K

theorem pairReturns (h : Supported P p) {d z : B32} (hs : SeedOk S p.k (seeds S p d.toList).1) :
    PairReturns S P d z := by
  obtain ⟨⟨dk, ek⟩, hg⟩ := (C04_generate_outcome S h d z).2.2 hs
  obtain ⟨-, eb, db, h1, h2, h3, -⟩ := C16_generated_consistent S h hg
  have he : ∀ m, ∃ r, ek.encapsulate_deterministic S m = .ok r := by
    intro m
    obtain rfl := h.eq
    obtain ⟨hs0, rfl, rfl⟩ := (generate_ok_iff S h.valid).1 hg
    unfold genEk
    exact ⟨_, encaps_ok S h.valid _ _ _ _ (by rw [toList_bytesOf (seeds_length S _ _).1]; exact hs0)⟩
  refine ⟨dk, ek, hg, he, fun c => ?_⟩
  obtain ⟨-, db', g1, g2⟩ := C04_decaps_outcome S h (.generated hg) c
  obtain rfl := Res.ok.inj (h2.symm.trans g1)
  rw [g2, h3]
  obtain ⟨-, eb', g4, g5⟩ := C04_encaps_outcome S h (.reach (.generated hg)) (Vector.replicate 32 0)
  obtain rfl := Res.ok.inj (h1.symm.trans g4)
  exact g5.1 (he _)

/-- **C63** With SHAKE128's first 840 bytes on 34-byte strings drawn at random, a key pair whose generation
or use never returns is generated from given seeds with probability at most `k²·2^-261`. -/
theorem C63_pair (h : Supported P p) (d z : B32) :
    prob (fun T : Bytes 34 → Bytes (3 * 280) => ¬ PairReturns (withXof S T) P d z)
      ≤ p.k ^ 2 * (2 : ℝ) ^ (-261 : ℤ) := by
  refine (prob_mono fun T hT => ?_).trans (prob_seed S p.k (seeds_length S p d.toList).1)
  intro hs
  exact hT (pairReturns _ h hs)

/-- **C63** For any list of seeds, the probability that one of the key pairs is of that kind is at most
`n·k²·2^-261`. -/
theorem C63_pairs (h : Supported P p) (l : List (B32 × B32)) :
    prob (fun T : Bytes 34 → Bytes (3 * 280) => ∃ x ∈ l, ¬ PairReturns (withXof S T) P x.1 x.2)
      ≤ l.length * (p.k ^ 2 * (2 : ℝ) ^ (-261 : ℤ)) :=
  prob_exists_le (fun (x : B32 × B32) (T : Bytes 34 → Bytes (3 * 280)) => ¬ PairReturns (withXof S T) P x.1 x.2)
    (fun x => C63_pair S h x.1 x.2) l

/-- **C63** For any bytes parsed as a public key, the probability that some encapsulation to it does not
return is at most `k²·2^-261`. -/
theorem C63_parsed_ek (h : Supported P p) (b : P.EncodedEncryptionKey) :
    prob (fun T : Bytes 34 → Bytes (3 * 280) => ¬ ∃ ek, EncapsulationKey.from_bytes (withXof S T) b = .ok ek ∧
      ∀ m, ∃ r, ek.encapsulate_deterministic (withXof S T) m = .ok r) ≤ p.k ^ 2 * (2 : ℝ) ^ (-261 : ℤ) := by
  have hl : (ekRho p b.toList).length = 32 := by
    obtain rfl := h.eq
    unfold ekRho
    rw [List.length_take, List.length_drop, Vector.length_toList]
    show min 32 (384 * P.K + 32 - 384 * P.K) = 32
    omega
  refine (prob_mono fun T hT => ?_).trans (prob_seed S p.k hl)
  intro hs
  obtain ⟨ek, eb, h1, h2, -, h3, -⟩ := C13_ek_canonical (withXof S T) h b
  refine hT ⟨ek, h1, fun m => ?_⟩
  obtain ⟨-, eb', g1, g2⟩ := C04_encaps_outcome (withXof S T) h (.reach (.parsed h1)) m
  obtain rfl := Res.ok.inj (h2.symm.trans g1)
  rw [g2]
  unfold ekRho at hs ⊢
  rwa [h3]

/-- **C63** For any bytes parsed as a decapsulation key, the probability that some decapsulation with it does
not return is at most `k²·2^-261`. -/
theorem C63_parsed_dk (h : Supported P p) (b : P.EncodedDecapsulationKey) :
    prob (fun T : Bytes 34 → Bytes (3 * 280) => ¬ ∃ dk : DecapsulationKey P, DecapsulationKey.from_bytes b = .ok dk ∧
      ∀ c, ∃ K, dk.decapsulate (withXof S T) c = .ok K) ≤ p.k ^ 2 * (2 : ℝ) ^ (-261 : ℤ) := by
  obtain ⟨dk, db, h1, h2, -⟩ := C13_dk_canonical h b
  have hl : (ekRho p (dkEk p db.toList)).length = 32 := by
    obtain rfl := h.eq
    unfold ekRho dkEk
    rw [List.length_take, List.length_drop, List.length_take, List.length_drop, Vector.length_toList]
    show min 32 (min (384 * P.K + 32) (12 * 32 * P.K + (12 * 32 * P.K + 32) + 32 + 32 - 384 * P.K) - 384 * P.K) = 32
    omega
  refine (prob_mono fun T hT => ?_).trans (prob_seed S p.k hl)
  intro hs
  refine hT ⟨dk, h1, fun c => ?_⟩
  obtain ⟨-, db', g1, g2⟩ := C04_decaps_outcome (withXof S T) h (.parsed h1) c
  obtain rfl := Res.ok.inj (h2.symm.trans g1)
  exact g2.2 hs

/-- The event is possible: if SHAKE128 only yields `0xff`, key generation does not return, and the table is
that of one outcome. -/
def ones : Sha3 := { Toy.S with shake128 := fun _ _ => 0xff }

omit [Build] in
theorem ones_reject {N : Nat} (l : List UInt8) :
    ¬ Accepts ((withXof ones (L := N) fun _ => Vector.replicate N 0xff).shake128 l) := by
  have hs : ∀ n, (withXof ones (L := N) fun _ => Vector.replicate N 0xff).shake128 l n = 0xff := by
    intro n
    unfold withXof
    dsimp only
    split
    · exact Vector.getElem_replicate _
    · rfl
  have hc : ∀ n, ¬ candidate ((withXof ones (L := N) fun _ => Vector.replicate N 0xff).shake128 l) n < 3329 := by
    intro n
    unfold candidate
    simp only [hs]
    split <;> decide
  rintro ⟨M, hM⟩
  rw [Nat.count_eq_card_filter_range, Finset.filter_false_of_mem fun n _ => hc n] at hM
  simp at hM

/-- The probability in C63 is not zero for these hash functions: the bound is about a possible event. -/
example (d z : B32) :
    0 < prob (fun T : Bytes 34 → Bytes (3 * 280) => ¬ PairReturns (withXof ones T) MlKem768Params d z) := by
  have hne : Nonempty {T : Bytes 34 → Bytes (3 * 280) // ¬ PairReturns (withXof ones T) MlKem768Params d z} := by
    refine ⟨fun _ => Vector.replicate _ 0xff, ?_⟩
    rintro ⟨dk, ek, hg, -⟩
    have := (C04_generate_outcome _ supported_768 d z).2.1 ⟨_, hg⟩
    exact ones_reject _ (this 0 0 (by decide) (by decide))
  unfold prob
  exact div_pos (by exact_mod_cast Nat.card_pos) (by
    have : Nonempty (Bytes 34 → Bytes (3 * 280)) := ⟨fun _ => Vector.replicate _ 0⟩
    exact_mod_cast Nat.card_pos)

end MlKem

namespace XWing
open Rust MlKem Fips203 XWingSpec

variable [Build] (S : Sha3) (X : X25519)

/-- The public key of a secret key can be computed, and every encapsulation to it, with a generator that always
returns, and every decapsulation with the secret key returns. -/
def KeyReturns (S : Sha3) (sk : DecapsulationKey) : Prop :=
  ∃ pk, sk.encapsulation_key S X = .ok pk ∧
    (∀ (rng : Rng) (s : rng.State), (∀ n s, ∃ r, rng.fill_bytes n s = .ok r) → ∃ r, pk.encapsulate S X rng s = .ok r) ∧
    ∀ ct, ∃ ss, sk.decapsulate S X ct = .ok ss

omit [Build] in
theorem expand_withXof {L : Nat} (T : Bytes 34 → Bytes L) {sk : List UInt8} (h : sk.length = 32) :
    expand (withXof S T) sk = expand S sk := by
  have : ∀ n, (withXof S T).shake128 sk n = S.shake128 sk n := by
    intro n
    unfold withXof
    dsimp only
    rw [dif_neg]
    rintro ⟨h', -⟩
    simp [h] at h'
  unfold expand
  rw [funext this]

theorem encaps_returns {pk_m : MlKem.EncapsulationKey MlKem768Params}
    (h : ∀ m, ∃ r, pk_m.encapsulate_deterministic S m = .ok r) (pk_x : Bytes 32) (rng : Rng) (s : rng.State)
    (hr : ∀ n s, ∃ r, rng.fill_bytes n s = .ok r) : ∃ r, (⟨pk_m, pk_x⟩ : EncapsulationKey).encapsulate S X rng s = .ok r := by
  obtain ⟨⟨m, s1⟩, h1⟩ := hr 32 s
  obtain ⟨⟨e, s2⟩, h2⟩ := hr 32 s1
  obtain ⟨⟨c, K⟩, h3⟩ := h m
  exact ⟨_, ((C40_randomness S X rng s).2 ⟨pk_m, pk_x⟩ _).2 ⟨m, s1, e, s2, c, K, h1, h2, h3, rfl⟩⟩

/-- **C63** An X-Wing secret key is unusable with probability at most `9·2^-261`. -/
theorem C63_xwing (sk : DecapsulationKey) :
    prob (fun T : Bytes 34 → Bytes (3 * 280) => ¬ KeyReturns X (withXof S T) sk) ≤ 9 * (2 : ℝ) ^ (-261 : ℤ) := by
  have hl : sk.sk.toList.length = 32 := sk.sk.length_toList
  have h9 : (9 : ℝ) * (2 : ℝ) ^ (-261 : ℤ) = ((ML_KEM_768.k : Nat) : ℝ) ^ 2 * (2 : ℝ) ^ (-261 : ℤ) := by
    congr 1
    show (9 : ℝ) = ((3 : Nat) : ℝ) ^ 2
    norm_num
  rw [h9]
  refine (prob_mono fun T hT => ?_).trans (C63_pair S supported_768 (seedD S sk.sk.toList) (seedZ S sk.sk.toList))
  rintro ⟨dk, ek, hg, he, hd⟩
  have hg' : Kem.generate_deterministic (withXof S T) MlKem768Params (seedD (withXof S T) sk.sk.toList)
      (seedZ (withXof S T) sk.sk.toList) = .ok (dk, ek) := by
    unfold seedD seedZ
    rw [expand_withXof S T hl]
    exact hg
  refine hT ⟨⟨ek, X.publicKey (secretX (withXof S T) sk.sk.toList)⟩, ?_, encaps_returns (withXof S T) X he _, fun ct => ?_⟩
  · unfold DecapsulationKey.encapsulation_key
    rw [expand_key_eq, hg']
    rfl
  · obtain ⟨K, hK⟩ := hd ct.ct_m
    exact ⟨_, decapsulate_eq (withXof S T) X sk ct hg' hK⟩

/-- **C63** For any 1216 bytes parsed as an X-Wing public key, the probability that some encapsulation to it
does not return is at most `9·2^-261`. -/
theorem C63_xwing_parsed (b : Bytes ENCAPSULATION_KEY_SIZE) :
    prob (fun T : Bytes 34 → Bytes (3 * 280) => ¬ ∃ pk, EncapsulationKey.from_bytes (withXof S T) b = .ok pk ∧
      ∀ (rng : Rng) (s : rng.State), (∀ n s, ∃ r, rng.fill_bytes n s = .ok r) →
        ∃ r, pk.encapsulate (withXof S T) X rng s = .ok r) ≤ 9 * (2 : ℝ) ^ (-261 : ℤ) := by
  have h9 : (9 : ℝ) * (2 : ℝ) ^ (-261 : ℤ) = ((ML_KEM_768.k : Nat) : ℝ) ^ 2 * (2 : ℝ) ^ (-261 : ℤ) := by
    congr 1
    show (9 : ℝ) = ((3 : Nat) : ℝ) ^ 2
    norm_num
  rw [h9]
  refine (prob_mono fun T hT => ?_).trans (C63_parsed_ek S supported_768 (front 1184 b))
  rintro ⟨ek, h1, h2⟩
  refine hT ⟨⟨ek, back 1184 32 b⟩, ?_, encaps_returns (withXof S T) X h2 _⟩
  rw [ek_from_bytes, h1]
  rfl

end XWing
