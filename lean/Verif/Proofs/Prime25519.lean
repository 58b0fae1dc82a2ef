import Mathlib.NumberTheory.LucasPrimality
import Mathlib.Tactic.NormNum.Prime
import Mathlib.Algebra.BigOperators.Group.List.Basic
/-! The field of Curve25519: `2^255 - 19` is prime, by a chain of Lucas certificates the kernel checks. -/
namespace Prime25519

/-- `a ^ e % m` for `e < 2 ^ f`, by squaring -/
def powMod (m : Nat) : Nat → Nat → Nat → Nat
  | 0, _, _ => 1 % m
  | f + 1, a, e => if e % 2 = 1 then powMod m f (a * a % m) (e / 2) * a % m else powMod m f (a * a % m) (e / 2)

theorem powMod_eq (m : Nat) : ∀ (f a e : Nat), e < 2 ^ f → powMod m f a e = a ^ e % m := by
  intro f
  induction f with
  | zero =>
    intro a e h
    obtain rfl : e = 0 := by simpa using h
    rfl
  | succ f ih =>
    intro a e h
    have h2 : e / 2 < 2 ^ f := by rw [pow_succ] at h; omega
    have h3 : (a * a % m) ^ (e / 2) % m = a ^ (2 * (e / 2)) % m := by
      rw [← Nat.pow_mod, pow_mul, pow_two]
    unfold powMod
    rw [ih _ _ h2, h3]
    split
    case isTrue ho =>
      conv_rhs => rw [← Nat.div_add_mod e 2, ho, pow_succ, Nat.mul_mod]
      rw [Nat.mul_mod, Nat.mod_mod]
    case isFalse ho =>
      conv_rhs => rw [← Nat.div_add_mod e 2, show e % 2 = 0 by omega, add_zero]

/-- The computation in a Lucas certificate: `a` generates the units modulo `p` if `fs` are the primes of `p - 1`. -/
def check (p a : Nat) (fs : List (Nat × Nat)) : Bool :=
  decide (1 < p) && decide (p < 2 ^ 256) && decide ((fs.map fun q => q.1 ^ q.2).prod = p - 1) &&
    decide (powMod p 256 a (p - 1) = 1) && fs.all fun q => decide (powMod p 256 a ((p - 1) / q.1) ≠ 1)

theorem prime_of_check {p a : Nat} {fs : List (Nat × Nat)} (hq : ∀ q ∈ fs, q.1.Prime) (h : check p a fs = true) :
    p.Prime := by
  simp only [check, Bool.and_eq_true, decide_eq_true_eq, List.all_eq_true] at h
  obtain ⟨⟨⟨⟨h0, h1⟩, h2⟩, h3⟩, h4⟩ := h
  have hz : ∀ e, e < 2 ^ 256 → ((a : ZMod p) ^ e = 1 ↔ powMod p 256 a e = 1) := by
    intro e he
    rw [powMod_eq _ _ _ _ he, ← Nat.cast_pow, ← Nat.cast_one, ZMod.natCast_eq_natCast_iff', Nat.mod_eq_of_lt h0]
  refine lucas_primality p a ((hz _ (by omega)).2 h3) fun q hqp hd => ?_
  rw [ne_eq, hz _ (lt_of_le_of_lt (Nat.div_le_self _ _) (by omega))]
  rw [← h2] at hd
  obtain ⟨x, hx, hdx⟩ := (Nat.Prime.prime hqp).dvd_prod_iff.1 hd
  obtain ⟨y, hy, rfl⟩ := List.mem_map.1 hx
  obtain rfl := (Nat.prime_dvd_prime_iff_eq hqp (hq y hy)).1 (hqp.dvd_of_dvd_pow hdx)
  exact h4 y hy

theorem p1 : Nat.Prime 1923133 := by norm_num
theorem p2 : Nat.Prime 31757755568855353 := by
  refine prime_of_check (a := 10) (fs := [(2, 3), (3, 1), (31, 1), (107, 1), (223, 1), (4153, 1), (430751, 1)]) ?_
    (by decide +kernel)
  intro q hq
  fin_cases hq <;> norm_num
theorem p3 : Nat.Prime 2773320623 := by
  refine prime_of_check (a := 5) (fs := [(2, 1), (2437, 1), (569003, 1)]) ?_ (by decide +kernel)
  intro q hq
  fin_cases hq <;> norm_num
theorem p4 : Nat.Prime 72106336199 := by
  refine prime_of_check (a := 7) (fs := [(2, 1), (13, 1), (2773320623, 1)]) ?_ (by decide +kernel)
  intro q hq
  fin_cases hq
  · norm_num
  · norm_num
  · exact p3
theorem p5 : Nat.Prime 8574133 := by norm_num
theorem p6 : Nat.Prime 1919519569386763 := by
  refine prime_of_check (a := 2) (fs := [(2, 1), (3, 1), (7, 1), (19, 1), (47, 2), (127, 1), (8574133, 1)]) ?_
    (by decide +kernel)
  intro q hq
  fin_cases hq <;> first | exact p5 | norm_num
theorem p7 : Nat.Prime 75445702479781427272750846543864801 := by
  refine prime_of_check (a := 7) (fs := [(2, 5), (3, 2), (5, 2), (75707, 1), (72106336199, 1), (1919519569386763, 1)]) ?_
    (by decide +kernel)
  intro q hq
  fin_cases hq <;> first | exact p4 | exact p6 | norm_num
theorem p8 : Nat.Prime 74058212732561358302231226437062788676166966415465897661863160754340907 := by
  refine prime_of_check (a := 2) (fs := [(2, 1), (3, 1), (353, 1), (57467, 1), (132049, 1), (1923133, 1),
    (31757755568855353, 1), (75445702479781427272750846543864801, 1)]) ?_ (by decide +kernel)
  intro q hq
  fin_cases hq <;> first | exact p1 | exact p2 | exact p7 | norm_num

/-- `2^255 - 19` is prime. -/
theorem prime : Nat.Prime (2 ^ 255 - 19) := by
  refine prime_of_check (a := 2) (fs := [(2, 2), (3, 1), (65147, 1),
    (74058212732561358302231226437062788676166966415465897661863160754340907, 1)]) ?_ (by decide +kernel)
  intro q hq
  fin_cases hq <;> first | exact p8 | norm_num

end Prime25519
