import Verif.Proofs.Prime25519
import Mathlib.FieldTheory.Finite.Basic
/-! Pocklington's criterion: certificates for primes whose predecessor is factored only in part. -/
namespace Pocklington
open Prime25519

/-- If `N - 1 = F * R` with `N < F * F`, and for each prime `q` of `F` some `a` has `a ^ (N - 1) = 1` modulo `N` and
`a ^ ((N - 1) / q) - 1` coprime to `N`, then `N` is prime. -/
theorem criterion {N F R : Nat} (h1 : 1 < N) (hF : N - 1 = F * R) (hs : N < F * F)
    (hq : ∀ q, q.Prime → q ∣ F → ∃ a, a ^ (N - 1) % N = 1 ∧ Nat.Coprime (a ^ ((N - 1) / q) + (N - 1)) N) :
    N.Prime := by
  by_contra hN
  have hr := Nat.minFac_prime (n := N) (by omega)
  set r := N.minFac with hrd
  have hrN : r ∣ N := Nat.minFac_dvd N
  have hrr : r * r ≤ N := by
    have := Nat.minFac_sq_le_self (n := N) (by omega) hN
    rwa [pow_two] at this
  have hFpos : 0 < F := by
    rcases Nat.eq_zero_or_pos F with rfl | h
    · omega
    · exact h
  -- every prime power of `F` divides `r - 1`
  have key : F ∣ r - 1 := by
    rw [← Nat.factorization_le_iff_dvd hFpos.ne' (by have := hr.two_le; omega)]
    intro q
    by_cases hqp : q.Prime
    case neg => simp [Nat.factorization_eq_zero_of_not_prime _ hqp]
    by_cases hqF : q ∣ F
    case neg => simp [Nat.factorization_eq_zero_of_not_dvd hqF]
    obtain ⟨a, ha1, ha2⟩ := hq q hqp hqF
    have : Fact r.Prime := ⟨hr⟩
    have e1 : (a : ZMod r) ^ (N - 1) = 1 := by
      have : ((a ^ (N - 1) : Nat) : ZMod r) = ((1 : Nat) : ZMod r) := by
        rw [ZMod.natCast_eq_natCast_iff]
        refine Nat.ModEq.of_dvd hrN ?_
        unfold Nat.ModEq
        rw [ha1, Nat.mod_eq_of_lt h1]
      simpa using this
    have e2 : (a : ZMod r) ^ ((N - 1) / q) ≠ 1 := by
      intro h
      have : r ∣ a ^ ((N - 1) / q) + (N - 1) := by
        rw [← ZMod.natCast_eq_zero_iff]
        push_cast [Nat.cast_sub h1.le]
        rw [h, (ZMod.natCast_eq_zero_iff N r).2 hrN]
        ring
      exact hr.one_lt.ne' (Nat.eq_one_of_dvd_coprimes ha2 this hrN)
    have ho : orderOf (a : ZMod r) ∣ N - 1 := orderOf_dvd_of_pow_eq_one e1
    have ha0 : (a : ZMod r) ≠ 0 := by
      intro h
      rw [h, zero_pow (by omega)] at e1
      exact zero_ne_one e1
    have hor : orderOf (a : ZMod r) ∣ r - 1 := orderOf_dvd_of_pow_eq_one (ZMod.pow_card_sub_one_eq_one ha0)
    have hdiv : q ∣ N - 1 := hF ▸ hqF.mul_right R
    -- the whole power of `q` in `N - 1` divides the order
    have hpow : q ^ (N - 1).factorization q ∣ orderOf (a : ZMod r) := by
      have hN1 : N - 1 ≠ 0 := by omega
      have ho0 : orderOf (a : ZMod r) ≠ 0 := fun h => by rw [h] at ho; exact hN1 (zero_dvd_iff.1 ho)
      rw [hqp.pow_dvd_iff_le_factorization ho0]
      by_contra hlt
      push Not at hlt
      apply e2
      rw [← orderOf_dvd_iff_pow_eq_one]
      rw [← Nat.factorization_le_iff_dvd ho0 (by
        have := Nat.div_pos (Nat.le_of_dvd (by omega) hdiv) hqp.pos; omega)]
      rw [Nat.factorization_div hdiv, hqp.factorization]
      intro t
      have ht := (Nat.factorization_le_iff_dvd ho0 hN1).2 ho t
      by_cases htq : t = q
      · subst htq; simp; omega
      · simpa [Finsupp.single_apply, Ne.symm htq] using ht
    have h4 : q ^ (N - 1).factorization q ∣ r - 1 := hpow.trans hor
    have h5 : F.factorization q ≤ (N - 1).factorization q :=
      (Nat.factorization_le_iff_dvd hFpos.ne' (by omega)).2 ⟨R, hF⟩ q
    exact h5.trans ((hqp.pow_dvd_iff_le_factorization (by have := hr.two_le; omega)).1 h4)
  have h6 := Nat.le_of_dvd (by have := hr.two_le; omega) key
  have h7 : F < r := by have := hr.two_le; omega
  nlinarith

/-- The computation in a Pocklington certificate: `fs` lists primes of `N - 1`, their powers, and witnesses. -/
def check (N bits : Nat) (fs : List (Nat × Nat × Nat)) : Bool :=
  let F := (fs.map fun f => f.1 ^ f.2.1).prod
  Nat.blt 1 N && Nat.blt N (2 ^ bits) && Nat.beq ((N - 1) % F) 0 && Nat.blt N (F * F) &&
    fs.all fun f => Nat.beq (powMod N bits f.2.2 (N - 1)) 1 &&
      Nat.beq (Nat.gcd (powMod N bits f.2.2 ((N - 1) / f.1) + (N - 1)) N) 1

theorem prime_of_check {N bits : Nat} {fs : List (Nat × Nat × Nat)} (hq : ∀ f ∈ fs, f.1.Prime)
    (h : check N bits fs = true) : N.Prime := by
  simp only [check, Bool.and_eq_true, Nat.blt_eq, Nat.beq_eq, List.all_eq_true] at h
  obtain ⟨⟨⟨⟨h1, h2⟩, h3⟩, h4⟩, h5⟩ := h
  have hd := Nat.dvd_of_mod_eq_zero h3
  refine criterion h1 (Nat.mul_div_cancel' hd).symm h4 fun q hqp hqF => ?_
  obtain ⟨x, hx, hdx⟩ := (Nat.Prime.prime hqp).dvd_prod_iff.1 hqF
  obtain ⟨y, hy, rfl⟩ := List.mem_map.1 hx
  obtain rfl := (Nat.prime_dvd_prime_iff_eq hqp (hq y hy)).1 (hqp.dvd_of_dvd_pow hdx)
  obtain ⟨h6, h7⟩ := h5 y hy
  rw [powMod_eq _ _ _ _ (by omega)] at h6
  rw [powMod_eq _ _ _ _ (lt_of_le_of_lt (Nat.div_le_self _ _) (by omega))] at h7
  refine ⟨y.2.2, h6, ?_⟩
  unfold Nat.Coprime
  rw [Nat.gcd_comm, Nat.gcd_rec, Nat.add_mod, Nat.mod_mod, ← Nat.add_mod, ← Nat.gcd_rec, Nat.gcd_comm] at h7
  exact h7

end Pocklington
