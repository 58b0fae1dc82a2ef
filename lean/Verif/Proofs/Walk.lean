import Verif.Proofs.Fo
/-! Looking at the entries of a random table one after the other, a second entry with a given value is rarely seen. -/
namespace Fo
open Finset BigOperators MlKem

/-- Looks at entries of a table, the next one chosen by the values seen -/
inductive Walk (ι α : Type)
  | stop
  | look (i : ι) (next : α → Walk ι α)

namespace Walk
variable {ι α : Type}

/-- The entries looked at -/
def seen (Y : ι → α) : Walk ι α → List ι
  | stop => []
  | look i next => i :: seen Y (next (Y i))

/-- It looks at most `q` times. -/
def AtMost : Nat → Walk ι α → Prop
  | _, stop => True
  | q, look _ next => ∃ q', q = q' + 1 ∧ ∀ a, AtMost q' (next a)

theorem AtMost.mono {W : Walk ι α} {q q' : Nat} (h : W.AtMost q) (hq : q ≤ q') : W.AtMost q' := by
  induction W generalizing q q' with
  | stop => trivial
  | look i next ih =>
    obtain ⟨r, rfl, hr⟩ := h
    exact ⟨q' - 1, by omega, fun a => ih a (hr a) (by omega)⟩

variable [Fintype ι] [Fintype α] [Nonempty α] [DecidableEq ι]

theorem expect_eq_const (y : α) : 𝔼 x : α, ind (x = y) = 1 / Fintype.card α := by
  classical
  rw [Fintype.expect_eq_sum_div_card]
  congr 1
  have : ∀ x, ind (x = y) = if x = y then (1 : ℝ) else 0 := fun x => by unfold ind; congr
  simp only [this, Finset.sum_ite_eq', Finset.mem_univ, if_true]

theorem hit (y : α) (W : Walk ι α) (q : Nat) (hW : W.AtMost q) (D : Finset ι) (Y0 : ι → α) :
    𝔼 Y : ι → α, ind (∃ i ∈ W.seen (ovr D Y0 Y), i ∉ D ∧ ovr D Y0 Y i = y) ≤ q * (1 / Fintype.card α) := by
  have h0 : (0 : ℝ) ≤ 1 / Fintype.card α := by positivity
  induction W generalizing q D Y0 with
  | stop =>
    refine le_trans (le_of_eq ?_) (mul_nonneg (Nat.cast_nonneg q) h0)
    simp only [seen, List.not_mem_nil, false_and, exists_false, ind, if_false]
    exact Fintype.expect_const _
  | look i next ih =>
    obtain ⟨q, rfl, hq⟩ := hW
    have : Nonempty ι := ⟨i⟩
    by_cases hi : i ∈ D
    · refine le_trans (Finset.expect_le_expect fun Y _ => ind_mono ?_) ((ih (Y0 i) q (hq _) D Y0).trans ?_)
      · rintro ⟨i', hi', hn, he⟩
        have e : ovr D Y0 Y i = Y0 i := by unfold ovr; rw [if_pos hi]
        simp only [seen, List.mem_cons, e] at hi'
        rcases hi' with rfl | hi'
        · exact absurd hi hn
        · exact ⟨i', hi', hn, he⟩
      · push_cast
        nlinarith
    · rw [expect_update i]
      refine le_trans (b := 𝔼 x : α, (ind (x = y) + q * (1 / Fintype.card α))) (Finset.expect_le_expect fun x _ => ?_) ?_
      · by_cases hx : x = y
        · have h1 : ind (x = y) = 1 := by unfold ind; rw [if_pos hx]
          rw [h1]
          refine le_trans (Finset.expect_le_expect (g := fun _ => (1 : ℝ)) fun Y _ => ind_le_one _) ?_
          rw [Fintype.expect_const]
          have := mul_nonneg (Nat.cast_nonneg q (α := ℝ)) h0
          linarith
        · have h1 : ind (x = y) = 0 := by unfold ind; rw [if_neg hx]
          rw [h1, zero_add]
          refine le_trans (Finset.expect_le_expect fun Y _ => ind_mono ?_)
            (ih x q (hq _) (insert i D) (Function.update Y0 i x))
          rw [ovr_update hi]
          have e : ovr (insert i D) (Function.update Y0 i x) Y i = x := by
            unfold ovr; rw [if_pos (Finset.mem_insert_self _ _), Function.update_self]
          rintro ⟨i', hi', hn, he⟩
          simp only [seen, List.mem_cons, e] at hi'
          rcases hi' with rfl | hi'
          · exact absurd (e.symm.trans he) hx
          · refine ⟨i', hi', fun hm => ?_, he⟩
            rcases Finset.mem_insert.1 hm with rfl | hm
            · exact hx (e.symm.trans he)
            · exact hn hm
      · rw [Finset.expect_add_distrib, Fintype.expect_const, expect_eq_const]
        push_cast
        linarith

/-- Another entry with the value of the entry `i0` is rarely seen. -/
theorem collision (i0 : ι) (W : Walk ι α) (q : Nat) (hW : W.AtMost q) :
    𝔼 Y : ι → α, ind (∃ i ∈ W.seen Y, i ≠ i0 ∧ Y i = Y i0) ≤ q * (1 / Fintype.card α) := by
  classical
  rw [expect_update i0]
  refine (Finset.expect_le_expect (g := fun _ => (q : ℝ) * (1 / Fintype.card α)) fun x _ => ?_).trans
    (le_of_eq (Fintype.expect_const _))
  refine le_trans (Finset.expect_le_expect fun Y _ => ind_mono ?_) (hit x W q hW {i0} (fun _ => x))
  have e : Function.update Y i0 x = ovr {i0} (fun _ => x) Y := by
    funext i
    unfold ovr
    by_cases h : i = i0
    · subst h; simp
    · simp [h]
  rintro ⟨i, hi, hn, he⟩
  rw [Function.update_self] at he
  rw [e] at hi he
  exact ⟨i, hi, by simpa using hn, he⟩

end Walk
end Fo
