import Verif.Proofs.Average
import Mathlib.Tactic.Linarith
import Mathlib.Tactic.Ring
/-!
The Fujisaki-Okamoto transform with implicit rejection, for arbitrary finite sets: how far the answers of the
real oracles are from answers that need no secret.
-/
set_option linter.unusedSectionVars false

namespace Fo
open Finset BigOperators MlKem

/-- An adversary: it asks for hashes of messages and for decapsulations, and ends with a bit. -/
inductive Tree (M R C K : Type)
  | done (b : Bool)
  | hash (m : M) (next : K × R → Tree M R C K)
  | decaps (c : C) (next : Option K → Tree M R C K)

namespace Tree
variable {M R C K : Type}

/-- The bit it ends with -/
def out (g : M → K × R) (o : C → Option K) : Tree M R C K → Bool
  | done b => b
  | hash m next => out g o (next (g m))
  | decaps c next => out g o (next (o c))

/-- The messages it hashes -/
def asks (g : M → K × R) (o : C → Option K) : Tree M R C K → List M
  | done _ => []
  | hash m next => m :: asks g o (next (g m))
  | decaps c next => asks g o (next (o c))

/-- It asks at most `q` questions, whatever the answers. -/
def AtMost : Nat → Tree M R C K → Prop
  | _, done _ => True
  | q, hash _ next => ∃ q', q = q' + 1 ∧ ∀ a, AtMost q' (next a)
  | q, decaps _ next => ∃ q', q = q' + 1 ∧ ∀ a, AtMost q' (next a)

theorem congr {g g' : M → K × R} {o o' : C → Option K} (ho : o = o') (T : Tree M R C K)
    (h : ∀ m ∈ asks g o T, g m = g' m) : out g o T = out g' o' T ∧ asks g o T = asks g' o' T := by
  subst ho
  induction T with
  | done b => exact ⟨rfl, rfl⟩
  | hash m next ih =>
    have hm := h m List.mem_cons_self
    have := ih (g m) fun m' hm' => h m' (List.mem_cons_of_mem _ hm')
    simp only [out, asks, ← hm]
    exact ⟨this.1, congrArg _ this.2⟩
  | decaps c next ih => exact ih _ h

/-- Whether `m` is asked does not depend on the answer to `m`. -/
theorem mem_asks_congr {g g' : M → K × R} {o : C → Option K} {m : M} (h : ∀ m', m' ≠ m → g m' = g' m')
    (T : Tree M R C K) : m ∈ asks g o T ↔ m ∈ asks g' o T := by
  induction T with
  | done b => exact Iff.rfl
  | hash m' next ih =>
    simp only [asks, List.mem_cons]
    by_cases e : m' = m
    · simp [e]
    · rw [h m' e, ih]
  | decaps c next ih => exact ih _

end Tree

section
variable {M R C K : Type} (enc : M → R → C) (dec : C → M)

/-- The simulated hash: the key is a random function of the ciphertext. -/
def simG (t : C → K) (r : M → R) (m : M) : K × R := (t (enc m (r m)), r m)

open Classical in
/-- The simulated decapsulation -/
noncomputable def simD (c0 : C) (t : C → K) (c : C) : Option K := if c = c0 then none else some (t c)

/-- The real hash -/
def realG (k : M → K) (r : M → R) (m : M) : K × R := (k m, r m)

open Classical in
/-- What decapsulation returns -/
noncomputable def keyOf (k : M → K) (r : M → R) (j : C → K) (c : C) : K :=
  if enc (dec c) (r (dec c)) = c then k (dec c) else j c

/-- The message does not survive. -/
def Fail (m : M) (x : R) : Prop := dec (enc m x) ≠ m

variable {enc dec}

theorem keyOf_enc {k : M → K} {r : M → R} {j : C → K} {m : M} (h : ¬ Fail enc dec m (r m)) :
    keyOf enc dec k r j (enc m (r m)) = k m := by
  have h : dec (enc m (r m)) = m := not_not.1 h
  unfold keyOf
  rw [h, if_pos rfl]

theorem real_eq_sim {k : M → K} {r : M → R} {j : C → K} {o : C → Option K} (T : Tree M R C K)
    (h : ∀ m ∈ T.asks (simG enc (keyOf enc dec k r j) r) o, ¬ Fail enc dec m (r m)) :
    T.out (realG k r) o = T.out (simG enc (keyOf enc dec k r j) r) o := by
  refine (Tree.congr rfl T fun m hm => ?_).1.symm
  unfold simG realG
  rw [keyOf_enc (h m hm)]

end

section
variable {ι α : Type} [Fintype ι] [Fintype α] [Nonempty α] [DecidableEq ι]

/-- Replacing one entry by a fresh one -/
theorem expect_update (i : ι) (f : (ι → α) → ℝ) :
    𝔼 t, f t = 𝔼 x, 𝔼 t, f (Function.update t i x) := by
  rw [Fintype.expect_equiv (Equiv.funSplitAt i α) f (fun y => f ((Equiv.funSplitAt i α).symm y)) fun t => by rw [Equiv.symm_apply_apply],
    expect_prod_type]
  refine Finset.expect_congr rfl fun x _ => ?_
  rw [Fintype.expect_equiv (Equiv.funSplitAt i α) (fun t => f (Function.update t i x))
    (fun y => f ((Equiv.funSplitAt i α).symm (x, y.2))) ?_, expect_prod_type]
  · exact (Fintype.expect_const _).symm
  · intro t
    rfl
end

section
variable {M R C K : Type} [Fintype M] [Fintype R] [Fintype C] [Fintype K] [Nonempty R] [Nonempty K] [Nonempty M]
  [DecidableEq M] [DecidableEq C]
variable {enc : M → R → C} {dec : C → M}

/-- What decapsulation returns is a random function of the ciphertext. -/
theorem expect_keyOf (r : M → R) (f : (C → K) → ℝ) :
    𝔼 k : M → K, 𝔼 j : C → K, f (keyOf enc dec k r j) = 𝔼 t, f t := by
  let ι : C → M ⊕ C := fun c => if enc (dec c) (r (dec c)) = c then .inl (dec c) else .inr c
  have hι : Function.Injective ι := by
    intro a b h
    simp only [ι] at h
    split at h <;> split at h <;> simp only [Sum.inl.injEq, Sum.inr.injEq, reduceCtorEq] at h
    · rename_i h1 h2
      rw [← h1, ← h2, h]
    · exact h
  rw [← expect_comp_injective hι f, ← expect_prod_type (fun x : (M → K) × (C → K) => f (keyOf enc dec x.1 r x.2))]
  refine Fintype.expect_equiv (Equiv.sumArrowEquivProdArrow M C K).symm _ _ fun x => ?_
  congr 1
  funext c
  simp only [keyOf, Function.comp, ι]
  split <;> rfl

/-- `r` with the entries in `D` replaced by those of `r0` -/
noncomputable def ovr (D : Finset M) (r0 r : M → R) (m : M) : R := if m ∈ D then r0 m else r m

open Classical in
theorem ovr_update {D : Finset M} {m : M} (hm : m ∉ D) (r0 r : M → R) (x : R) :
    ovr D r0 (Function.update r m x) = ovr (insert m D) (Function.update r0 m x) r := by
  funext m'
  unfold ovr
  by_cases e : m' = m
  · subst e; simp [hm]
  · by_cases h : m' ∈ D <;> simp [e, h]

open Classical in
/-- The indicator of an event -/
noncomputable def ind (p : Prop) : ℝ := if p then 1 else 0

theorem ind_nonneg (p : Prop) : 0 ≤ ind p := by unfold ind; split <;> norm_num
theorem ind_le_one (p : Prop) : ind p ≤ 1 := by unfold ind; split <;> norm_num
theorem ind_mono {p q : Prop} (h : p → q) : ind p ≤ ind q := by
  unfold ind
  by_cases hp : p
  · rw [if_pos hp, if_pos (h hp)]
  · rw [if_neg hp]; split <;> norm_num
theorem ind_or (p q : Prop) : ind (p ∨ q) ≤ ind p + ind q := by
  unfold ind
  by_cases hp : p <;> by_cases hq : q <;> simp [hp, hq]
theorem ind_congr {p q : Prop} (h : p ↔ q) : ind p = ind q := by rw [propext h]
/-- Two events that agree outside a third -/
theorem abs_ind_sub {p q e : Prop} (h : ¬ e → (p ↔ q)) : |ind p - ind q| ≤ ind e := by
  by_cases he : e
  · unfold ind
    rw [if_pos he]
    split <;> split <;> norm_num
  · rw [propext (h he), sub_self, abs_zero]
    exact ind_nonneg _

theorem abs_expect_sub {α : Type} [Fintype α] {f g e : α → ℝ} (h : ∀ a, |f a - g a| ≤ e a) :
    |(𝔼 a, f a) - 𝔼 a, g a| ≤ 𝔼 a, e a := by
  rw [← Finset.expect_sub_distrib]
  exact (Finset.abs_expect_le _ _).trans (Finset.expect_le_expect fun a _ => h a)

/-- Messages that do not survive are rarely asked. -/
theorem fail_bound {δ : ℝ} (hδ : ∀ m, 𝔼 x : R, ind (Fail enc dec m x) ≤ δ) (hδ0 : 0 ≤ δ) (t : C → K)
    (o : C → Option K) (T : Tree M R C K) (q : Nat) (hT : T.AtMost q) (D : Finset M) (r0 : M → R)
    (hD : ∀ m ∈ D, ¬ Fail enc dec m (r0 m)) :
    𝔼 r : M → R, ind (∃ m ∈ T.asks (simG enc t (ovr D r0 r)) o, Fail enc dec m (ovr D r0 r m)) ≤ q * δ := by
  classical
  induction T generalizing q D r0 with
  | done b =>
    refine le_trans (le_of_eq ?_) (mul_nonneg (Nat.cast_nonneg q) hδ0)
    simp only [Tree.asks, List.not_mem_nil, false_and, exists_false, ind, if_false]
    exact Fintype.expect_const _
  | hash m next ih =>
    obtain ⟨q, rfl, hq⟩ := hT
    by_cases hm : m ∈ D
    · have e : ∀ r : M → R, ovr D r0 r m = r0 m := fun r => by unfold ovr; rw [if_pos hm]
      have hnf := hD m hm
      have hnext := ih (t (enc m (r0 m)), r0 m) q (hq _) D r0 hD
      refine le_trans (Finset.expect_le_expect fun r _ => ind_mono ?_) (hnext.trans ?_)
      · rintro ⟨m', hm', hf⟩
        simp only [Tree.asks, simG, List.mem_cons] at hm'
        rcases hm' with rfl | hm'
        · exact absurd (e r ▸ hf) hnf
        · rw [e r] at hm'
          exact ⟨m', hm', hf⟩
      · push_cast
        nlinarith
    · rw [expect_update m]
      refine le_trans (b := 𝔼 x : R, (ind (Fail enc dec m x) + q * δ)) (Finset.expect_le_expect fun x _ => ?_) ?_
      · by_cases hf : Fail enc dec m x
        · have h1 : (ind (Fail enc dec m x)) = 1 := by unfold ind; rw [if_pos hf]
          rw [h1]
          refine le_trans (Finset.expect_le_expect (g := fun _ => (1 : ℝ)) fun r _ => ind_le_one _) ?_
          rw [Fintype.expect_const]
          have := mul_nonneg (Nat.cast_nonneg q (α := ℝ)) hδ0
          linarith
        · have h1 : (ind (Fail enc dec m x)) = 0 := by unfold ind; rw [if_neg hf]
          rw [h1, zero_add]
          refine le_trans (Finset.expect_le_expect fun r _ => ind_mono ?_)
            (ih (t (enc m x), x) q (hq _) (insert m D) (Function.update r0 m x) ?_)
          · rw [ovr_update hm]
            have e : ovr (insert m D) (Function.update r0 m x) r m = x := by
              unfold ovr; rw [if_pos (Finset.mem_insert_self _ _), Function.update_self]
            rintro ⟨m', hm', hf'⟩
            simp only [Tree.asks, simG, List.mem_cons, e] at hm'
            rcases hm' with rfl | hm'
            · exact absurd (e ▸ hf') hf
            · exact ⟨m', hm', hf'⟩
          · intro m' hm'
            rcases Finset.mem_insert.1 hm' with rfl | hd
            · rwa [Function.update_self]
            · rw [Function.update_of_ne (by rintro rfl; exact hm hd)]
              exact hD m' hd
      · rw [Finset.expect_add_distrib, Fintype.expect_const]
        push_cast
        have := hδ m
        linarith
  | decaps c next ih =>
    obtain ⟨q, rfl, hq⟩ := hT
    refine (ih (o c) q (hq _) D r0 hD).trans ?_
    push_cast
    nlinarith

/-! ### The games -/

variable (enc dec) (A : C → K → Tree M R C K)

/-- The real game with the real key -/
def Real0 (m : M) (r : M → R) (k : M → K) (j : C → K) : Prop :=
  (A (enc m (r m)) (k m)).out (realG k r) (simD (enc m (r m)) (keyOf enc dec k r j)) = true

/-- The real game with an independent key -/
def Real1 (m : M) (r : M → R) (k : M → K) (j : C → K) (K1 : K) : Prop :=
  (A (enc m (r m)) K1).out (realG k r) (simD (enc m (r m)) (keyOf enc dec k r j)) = true

/-- The simulated game with the real key -/
def Sim0 (m : M) (r : M → R) (t : C → K) : Prop :=
  (A (enc m (r m)) (t (enc m (r m)))).out (simG enc t r) (simD (enc m (r m)) t) = true

/-- The simulated game with an independent key -/
def Sim1 (m : M) (r : M → R) (t : C → K) (K1 : K) : Prop :=
  (A (enc m (r m)) K1).out (simG enc t r) (simD (enc m (r m)) t) = true

/-- The challenge, or a message asked in the simulated game, does not survive. -/
def Bad (m : M) (r : M → R) (t : C → K) (K1 : K) : Prop :=
  Fail enc dec m (r m) ∨
    ∃ m' ∈ (A (enc m (r m)) K1).asks (simG enc t r) (simD (enc m (r m)) t), Fail enc dec m' (r m')

/-- The challenge is asked in the simulated game. -/
def Asked (m : M) (r : M → R) (t : C → K) (K1 : K) : Prop :=
  m ∈ (A (enc m (r m)) K1).asks (simG enc t r) (simD (enc m (r m)) t)

variable {enc dec A}

theorem real0_sim0 {m : M} {r : M → R} {k : M → K} {j : C → K}
    (h : ¬ Bad enc dec A m r (keyOf enc dec k r j) (keyOf enc dec k r j (enc m (r m)))) :
    Real0 enc dec A m r k j ↔ Sim0 enc A m r (keyOf enc dec k r j) := by
  unfold Bad at h
  push Not at h
  have h1 := real_eq_sim _ h.2
  have h2 := keyOf_enc (k := k) (r := r) (j := j) h.1
  unfold Real0 Sim0
  rw [h2] at h1 ⊢
  rw [h1]

theorem real1_sim1 {m : M} {r : M → R} {k : M → K} {j : C → K} {K1 : K}
    (h : ¬ Bad enc dec A m r (keyOf enc dec k r j) K1) :
    Real1 enc dec A m r k j K1 ↔ Sim1 enc A m r (keyOf enc dec k r j) K1 := by
  unfold Bad at h
  push Not at h
  unfold Real1 Sim1
  rw [real_eq_sim _ h.2]

theorem sim1_sim0 {m : M} {r : M → R} {t : C → K} {K1 : K}
    (h : ¬ (Asked enc A m r t K1 ∨ Bad enc dec A m r t K1)) :
    Sim1 enc A m r t K1 ↔ Sim0 enc A m r (Function.update t (enc m (r m)) K1) := by
  unfold Asked Bad at h
  push Not at h
  obtain ⟨h1, h2, h3⟩ := h
  unfold Sim1 Sim0
  rw [Function.update_self]
  have e : simD (enc m (r m)) t = simD (enc m (r m)) (Function.update t (enc m (r m)) K1) := by
    funext c
    unfold simD
    by_cases hc : c = enc m (r m)
    · rw [if_pos hc, if_pos hc]
    · rw [if_neg hc, if_neg hc, Function.update_of_ne hc]
  rw [(Tree.congr e _ fun m' hm' => ?_).1]
  unfold simG
  rw [Function.update_of_ne]
  intro hc
  have a := h3 m' hm'
  unfold Fail at a h2
  rw [not_not] at a h2
  rw [hc, h2] at a
  exact h1 (a ▸ hm')

theorem bad_bound {δ : ℝ} (hδ : ∀ m, 𝔼 x : R, ind (Fail enc dec m x) ≤ δ) (hδ0 : 0 ≤ δ) {q : Nat}
    (hA : ∀ c K1, (A c K1).AtMost q) (m : M) (t : C → K) (f : C → K) :
    𝔼 r : M → R, ind (Bad enc dec A m r t (f (enc m (r m)))) ≤ (q + 1) * δ := by
  rw [expect_update m]
  refine le_trans (b := 𝔼 x : R, (ind (Fail enc dec m x) + q * δ)) (Finset.expect_le_expect fun x _ => ?_) ?_
  · by_cases hf : Fail enc dec m x
    · have h1 : (ind (Fail enc dec m x)) = 1 := by unfold ind; rw [if_pos hf]
      rw [h1]
      refine le_trans (Finset.expect_le_expect (g := fun _ => (1 : ℝ)) fun r _ => ind_le_one _) ?_
      rw [Fintype.expect_const]
      have := mul_nonneg (Nat.cast_nonneg q (α := ℝ)) hδ0
      linarith
    · have h1 : (ind (Fail enc dec m x)) = 0 := by unfold ind; rw [if_neg hf]
      rw [h1, zero_add]
      have e : ∀ r : M → R, Function.update r m x = ovr {m} (fun _ => x) r := by
        intro r
        funext m'
        unfold ovr
        by_cases e : m' = m
        · subst e; simp
        · simp [e]
      refine le_trans (Finset.expect_le_expect fun r _ => ind_mono ?_)
        (fail_bound hδ hδ0 t (simD (enc m x) t) (A (enc m x) (f (enc m x))) q (hA _ _) {m} (fun _ => x) ?_)
      · unfold Bad
        rw [Function.update_self, e]
        rintro (h | h)
        · exact absurd h hf
        · exact h
      · intro m' hm'
        rw [Finset.mem_singleton.1 hm']
        exact hf
  · rw [Finset.expect_add_distrib, Fintype.expect_const]
    have := hδ m
    linarith

/-- Whether the challenge is asked does not depend on the randomness the simulator uses for it. -/
theorem asked_eq (m : M) (t : C → K) (K1 : K) :
    𝔼 r : M → R, ind (Asked enc A m r t K1)
      = 𝔼 x : R, 𝔼 r : M → R, ind (m ∈ (A (enc m x) K1).asks (simG enc t r) (simD (enc m x) t)) := by
  rw [expect_update m]
  refine Finset.expect_congr rfl fun x _ => Finset.expect_congr rfl fun r _ => ind_congr ?_
  unfold Asked
  rw [Function.update_self]
  refine Tree.mem_asks_congr (fun m' hm' => ?_) _
  unfold simG
  rw [Function.update_of_ne hm']

section
variable {δ : ℝ} (hδ : ∀ m, 𝔼 x : R, ind (Fail enc dec m x) ≤ δ) (hδ0 : 0 ≤ δ) {q : Nat}
  (hA : ∀ c K1, (A c K1).AtMost q) (m : M)
include hδ hδ0 hA

theorem real0_close :
    |(𝔼 r, 𝔼 k, 𝔼 j, ind (Real0 enc dec A m r k j)) - 𝔼 r, 𝔼 t, ind (Sim0 enc A m r t)| ≤ (q + 1) * δ := by
  refine le_trans (b := 𝔼 r : M → R, 𝔼 t : C → K, ind (Bad enc dec A m r t (t (enc m (r m))))) ?_ ?_
  · refine abs_expect_sub fun r => ?_
    rw [← expect_keyOf (enc := enc) (dec := dec) r (fun t => ind (Sim0 enc A m r t)),
      ← expect_keyOf (enc := enc) (dec := dec) r (fun t => ind (Bad enc dec A m r t (t (enc m (r m)))))]
    exact abs_expect_sub fun k => abs_expect_sub fun j => abs_ind_sub real0_sim0
  · rw [Finset.expect_comm]
    refine le_trans (Finset.expect_le_expect fun t _ => bad_bound hδ hδ0 hA m t t) ?_
    rw [Fintype.expect_const]

theorem real1_close (K1 : K) :
    |(𝔼 r, 𝔼 k, 𝔼 j, ind (Real1 enc dec A m r k j K1)) - 𝔼 r, 𝔼 t, ind (Sim1 enc A m r t K1)| ≤ (q + 1) * δ := by
  refine le_trans (b := 𝔼 r : M → R, 𝔼 t : C → K, ind (Bad enc dec A m r t K1)) ?_ ?_
  · refine abs_expect_sub fun r => ?_
    rw [← expect_keyOf (enc := enc) (dec := dec) r (fun t => ind (Sim1 enc A m r t K1)),
      ← expect_keyOf (enc := enc) (dec := dec) r (fun t => ind (Bad enc dec A m r t K1))]
    exact abs_expect_sub fun k => abs_expect_sub fun j => abs_ind_sub real1_sim1
  · rw [Finset.expect_comm]
    refine le_trans (Finset.expect_le_expect fun t _ => bad_bound hδ hδ0 hA m t fun _ => K1) ?_
    rw [Fintype.expect_const]

theorem sim_close (K1 : K) :
    |(𝔼 r, 𝔼 t, ind (Sim0 enc A m r (Function.update t (enc m (r m)) K1))) - 𝔼 r, 𝔼 t, ind (Sim1 enc A m r t K1)|
      ≤ (𝔼 t, 𝔼 r, ind (Asked enc A m r t K1)) + (q + 1) * δ := by
  refine le_trans (b := 𝔼 r : M → R, 𝔼 t : C → K, (ind (Asked enc A m r t K1) + ind (Bad enc dec A m r t K1)))
    (abs_expect_sub fun r => abs_expect_sub fun t => ?_) ?_
  · rw [abs_sub_comm]
    exact (abs_ind_sub sim1_sim0).trans (ind_or _ _)
  · rw [Finset.expect_comm]
    simp only [Finset.expect_add_distrib]
    refine add_le_add le_rfl ?_
    refine le_trans (Finset.expect_le_expect fun t _ => bad_bound hδ hδ0 hA m t fun _ => K1) ?_
    rw [Fintype.expect_const]

/-- The advantage of an adversary in the real game is at most the probability that the simulation asks for the
challenge, and a term for messages that do not survive. -/
theorem advantage :
    |(𝔼 r, 𝔼 k, 𝔼 j, ind (Real0 enc dec A m r k j)) - 𝔼 K1, 𝔼 r, 𝔼 k, 𝔼 j, ind (Real1 enc dec A m r k j K1)|
      ≤ (𝔼 K1 : K, 𝔼 t, 𝔼 x : R, 𝔼 r : M → R, ind (m ∈ (A (enc m x) K1).asks (simG enc t r) (simD (enc m x) t)))
        + 3 * ((q + 1) * δ) := by
  have a1 := real0_close hδ hδ0 hA m
  have e : 𝔼 r, 𝔼 t, ind (Sim0 enc A m r t)
      = 𝔼 K1, 𝔼 r, 𝔼 t, ind (Sim0 enc A m r (Function.update t (enc m (r m)) K1)) :=
    (Finset.expect_congr rfl fun r _ => expect_update (enc m (r m)) _).trans (Finset.expect_comm ..)
  have a2 : |(𝔼 K1, 𝔼 r, 𝔼 k, 𝔼 j, ind (Real1 enc dec A m r k j K1)) - 𝔼 K1, 𝔼 r, 𝔼 t, ind (Sim1 enc A m r t K1)|
      ≤ (q + 1) * δ :=
    (abs_expect_sub fun K1 => real1_close hδ hδ0 hA m K1).trans (le_of_eq (Fintype.expect_const _))
  have a3 := abs_expect_sub fun K1 => sim_close hδ hδ0 hA m K1
  rw [← e, Finset.expect_add_distrib, Fintype.expect_const] at a3
  simp only [asked_eq] at a3
  rw [abs_sub_comm] at a2
  generalize (𝔼 r, 𝔼 k, 𝔼 j, ind (Real0 enc dec A m r k j)) = x1 at *
  generalize (𝔼 K1, 𝔼 r, 𝔼 k, 𝔼 j, ind (Real1 enc dec A m r k j K1)) = x2 at *
  generalize (𝔼 r, 𝔼 t, ind (Sim0 enc A m r t)) = y1 at *
  generalize (𝔼 K1, 𝔼 r, 𝔼 t, ind (Sim1 enc A m r t K1)) = y2 at *
  have t1 := abs_sub_le x1 y1 x2
  have t2 := abs_sub_le y1 y2 x2
  linarith

end

end

end Fo
