import Mathlib.Algebra.BigOperators.Expect
import Mathlib.Algebra.Order.BigOperators.Expect
import Mathlib.Algebra.BigOperators.Pi
import Mathlib.Algebra.BigOperators.Ring.Finset
import Mathlib.Data.Fintype.BigOperators
import Mathlib.Logic.Equiv.Prod
import Mathlib.Data.Real.Basic
/-! Averages over finite sets of functions. -/
namespace MlKem
open Finset BigOperators

variable {ι κ μ α β : Type} [Fintype ι] [Fintype κ] [Fintype μ] [Fintype α] [Fintype β]
  [DecidableEq ι] [DecidableEq κ] [DecidableEq μ]

/-- Independent choices: the average of a product is the product of the averages. -/
theorem expect_pi_prod (g : ι → α → ℝ) : 𝔼 f : ι → α, ∏ i, g i (f i) = ∏ i, 𝔼 a, g i a := by
  simp only [Fintype.expect_eq_sum_div_card]
  rw [Finset.prod_div_distrib, Finset.prod_univ_sum, Fintype.piFinset_univ]
  simp

/-- Averaging over a product -/
theorem expect_prod_type (f : α × β → ℝ) : 𝔼 x, f x = 𝔼 a, 𝔼 b, f (a, b) := by
  rw [← Finset.univ_product_univ, Finset.expect_product]

/-- A function on `ι` is its values at the points of an injective family, and the rest. -/
noncomputable def splitAt {j : κ → ι} (hj : Function.Injective j) :
    (ι → α) ≃ (κ → α) × ({i // ¬ ∃ k, j k = i} → α) :=
  (Equiv.piEquivPiSubtypeProd (fun i => ∃ k, j k = i) fun _ => α).trans
    (Equiv.prodCongr (Equiv.arrowCongr (Equiv.ofInjective j hj).symm (Equiv.refl α)) (Equiv.refl _))

omit [Fintype ι] [Fintype α] [DecidableEq κ] in
theorem splitAt_fst {j : κ → ι} (hj : Function.Injective j) (f : ι → α) :
    (splitAt hj f).1 = f ∘ j := rfl

omit [Fintype ι] [Fintype α] [DecidableEq κ] in
theorem splitAt_snd {j : κ → ι} (hj : Function.Injective j) (f : ι → α) (i) :
    (splitAt hj f).2 i = f i.1 := rfl

/-- The values at different points are uniform and independent. -/
theorem expect_comp_injective [Nonempty α] {j : κ → ι} (hj : Function.Injective j) (h : (κ → α) → ℝ) :
    𝔼 f : ι → α, h (f ∘ j) = 𝔼 x : κ → α, h x := by
  rw [Fintype.expect_equiv (splitAt hj) (fun f => h (f ∘ j)) (fun y => h y.1) fun f => rfl, expect_prod_type]
  refine Finset.expect_congr rfl fun x _ => ?_
  exact Fintype.expect_const (ι := {i // ¬ ∃ k, j k = i} → α) (h x)

/-- … also at points chosen after seeing the values at others, if those are different points. -/
theorem expect_adaptive [Nonempty α] {a : κ → ι} (ha : Function.Injective a) (b : (κ → α) → μ → ι)
    (g : (κ → α) → (μ → α) → ℝ) (hg : ∀ x y, 0 ≤ g x y)
    (E : (ι → α) → ℝ) (hE : ∀ f, E f ≤ g (f ∘ a) (f ∘ b (f ∘ a)))
    (h0 : ∀ f, ¬ (Function.Injective (b (f ∘ a)) ∧ ∀ m k, b (f ∘ a) m ≠ a k) → E f ≤ 0) :
    𝔼 f, E f ≤ 𝔼 x, 𝔼 y, g x y := by
  rw [Fintype.expect_equiv (splitAt ha) E (fun y => E ((splitAt ha).symm y)) fun f => by simp, expect_prod_type]
  refine Finset.expect_le_expect fun x _ => ?_
  have hx : ∀ z, (splitAt ha).symm (x, z) ∘ a = x := fun z => by
    rw [← splitAt_fst ha, Equiv.apply_symm_apply]
  by_cases hb : Function.Injective (b x) ∧ ∀ m k, b x m ≠ a k
  · let b' : μ → {i // ¬ ∃ k, a k = i} := fun m => ⟨b x m, fun ⟨k, hk⟩ => hb.2 m k hk.symm⟩
    have hb' : Function.Injective b' := fun m m' h => hb.1 (congrArg Subtype.val h)
    rw [← expect_comp_injective hb']
    refine Finset.expect_le_expect fun z _ => (hE _).trans (le_of_eq ?_)
    rw [hx]
    congr 1
    funext m
    have := splitAt_snd ha ((splitAt ha).symm (x, z)) (b' m)
    rw [Equiv.apply_symm_apply] at this
    exact this.symm
  · refine le_trans ?_ (Finset.expect_nonneg fun y _ => hg x y)
    exact Finset.expect_le_expect (g := fun _ => (0 : ℝ)) (fun z _ => h0 _ (by rw [hx]; exact hb)) |>.trans
      (by simp)

end MlKem
