import Verif.Proofs.Fo
/-!
The Fujisaki-Okamoto transform with implicit rejection, for arbitrary finite sets: how far the real game is from one
in which the challenge is an encryption with independent randomness, and how far a game with an unrelated challenge
is from its simulation.
-/
set_option linter.unusedSectionVars false

namespace Fo
open Finset BigOperators MlKem

section
variable {M R C K : Type} [Fintype M] [Fintype R] [Fintype C] [Fintype K] [Nonempty R] [Nonempty K] [Nonempty M]
  [DecidableEq M] [DecidableEq C]
variable {enc : M → R → C} {dec : C → M}
variable {A : C → K → Tree M R C K}

/-- The simulated game on any challenge `c` and key `K1` -/
def Sim2 (enc : M → R → C) (A : C → K → Tree M R C K) (c : C) (r : M → R) (t : C → K) (K1 : K) : Prop :=
  (A c K1).out (simG enc t r) (simD c t) = true

theorem sim0_sim2 {m : M} {x : R} {r : M → R} {t : C → K} {K1 : K}
    (h : ¬ (Asked enc A m (Function.update r m x) t K1 ∨ Bad enc dec A m (Function.update r m x) t K1)) :
    Sim0 enc A m (Function.update r m x) (Function.update t (enc m (Function.update r m x m)) K1)
      ↔ Sim2 enc A (enc m x) r t K1 := by
  rw [← sim1_sim0 h]
  have ha : m ∉ (A (enc m x) K1).asks (simG enc t (Function.update r m x)) (simD (enc m x) t) := by
    intro hm
    refine h (Or.inl ?_)
    unfold Asked
    rw [Function.update_self]
    exact hm
  unfold Sim1 Sim2
  rw [Function.update_self]
  refine Eq.congr_left (Tree.congr rfl _ fun m' hm' => ?_).1
  have : m' ≠ m := by rintro rfl; exact ha hm'
  unfold simG
  rw [Function.update_of_ne this]

section
variable {δ : ℝ} (hδ : ∀ m, 𝔼 x : R, ind (Fail enc dec m x) ≤ δ) (hδ0 : 0 ≤ δ) {q : Nat}
  (hA : ∀ c K1, (A c K1).AtMost q)
include hδ hδ0 hA

theorem sim_fresh (m : M) (K1 : K) :
    |(𝔼 r, 𝔼 t, ind (Sim0 enc A m r (Function.update t (enc m (r m)) K1)))
        - 𝔼 t, 𝔼 x : R, 𝔼 r, ind (Sim2 enc A (enc m x) r t K1)|
      ≤ (𝔼 t, 𝔼 r, ind (Asked enc A m r t K1)) + (q + 1) * δ := by
  rw [Finset.expect_comm]
  refine le_trans (b := 𝔼 t : C → K, 𝔼 r : M → R, (ind (Asked enc A m r t K1) + ind (Bad enc dec A m r t K1)))
    (abs_expect_sub fun t => ?_) ?_
  · rw [expect_update m, expect_update m (fun r : M → R => ind (Asked enc A m r t K1) + ind (Bad enc dec A m r t K1))]
    exact abs_expect_sub fun x => abs_expect_sub fun r => (abs_ind_sub sim0_sim2).trans (ind_or _ _)
  · simp only [Finset.expect_add_distrib]
    refine add_le_add le_rfl ?_
    refine le_trans (Finset.expect_le_expect fun t _ => bad_bound hδ hδ0 hA m t fun _ => K1) ?_
    rw [Fintype.expect_const]

/-- The real game is close to the simulated game, in which the challenge is an encryption with independent randomness
and the key is independent. -/
theorem pseudorandom (m : M) :
    |(𝔼 r, 𝔼 k, 𝔼 j, ind (Real0 enc dec A m r k j))
        - 𝔼 K1, 𝔼 t, 𝔼 x : R, 𝔼 r, ind (Sim2 enc A (enc m x) r t K1)|
      ≤ (𝔼 K1 : K, 𝔼 t, 𝔼 x : R, 𝔼 r : M → R, ind (m ∈ (A (enc m x) K1).asks (simG enc t r) (simD (enc m x) t)))
        + 2 * ((q + 1) * δ) := by
  have a1 := real0_close hδ hδ0 hA m
  have e : 𝔼 r, 𝔼 t, ind (Sim0 enc A m r t)
      = 𝔼 K1, 𝔼 r, 𝔼 t, ind (Sim0 enc A m r (Function.update t (enc m (r m)) K1)) :=
    (Finset.expect_congr rfl fun r _ => expect_update (enc m (r m)) _).trans (Finset.expect_comm ..)
  have a3 := abs_expect_sub fun K1 => sim_fresh hδ hδ0 hA m K1
  rw [← e, Finset.expect_add_distrib, Fintype.expect_const] at a3
  simp only [asked_eq] at a3
  generalize (𝔼 r, 𝔼 k, 𝔼 j, ind (Real0 enc dec A m r k j)) = x1 at *
  generalize (𝔼 r, 𝔼 t, ind (Sim0 enc A m r t)) = y1 at *
  generalize (𝔼 K1, 𝔼 t, 𝔼 x : R, 𝔼 r, ind (Sim2 enc A (enc m x) r t K1)) = y2 at *
  have t1 := abs_sub_le x1 y1 y2
  linarith

/-- On an unrelated challenge the real game is close to the simulated one. -/
theorem unrelated (c : C) (K1 : K) :
    |(𝔼 r, 𝔼 k, 𝔼 j, ind ((A c K1).out (realG k r) (simD c (keyOf enc dec k r j)) = true))
        - 𝔼 t, 𝔼 r, ind (Sim2 enc A c r t K1)| ≤ q * δ := by
  classical
  rw [Finset.expect_comm (f := fun t r => ind (Sim2 enc A c r t K1))]
  refine le_trans (b := 𝔼 r : M → R, 𝔼 t : C → K,
    ind (∃ m ∈ (A c K1).asks (simG enc t r) (simD c t), Fail enc dec m (r m))) ?_ ?_
  · refine abs_expect_sub fun r => ?_
    rw [← expect_keyOf (enc := enc) (dec := dec) r (fun t => ind (Sim2 enc A c r t K1)),
      ← expect_keyOf (enc := enc) (dec := dec) r
        (fun t => ind (∃ m ∈ (A c K1).asks (simG enc t r) (simD c t), Fail enc dec m (r m)))]
    refine abs_expect_sub fun k => abs_expect_sub fun j => abs_ind_sub fun h => ?_
    push Not at h
    unfold Sim2
    rw [real_eq_sim _ h]
  · rw [Finset.expect_comm]
    refine (Finset.expect_le_expect (g := fun _ => (q : ℝ) * δ) fun t _ => ?_).trans
      (le_of_eq (Fintype.expect_const _))
    have := fail_bound hδ hδ0 t (simD c t) (A c K1) q (hA _ _) ∅ (fun _ => Classical.arbitrary R) (by simp)
    have e : ∀ r : M → R, ovr ∅ (fun _ => Classical.arbitrary R) r = r := fun r => by
      funext m; unfold ovr; exact if_neg (Finset.notMem_empty _)
    simp only [e] at this
    exact this

end

end

end Fo
