import Verif.Proofs.TailUniform
import Verif.Proofs.Fips202Eval
import Mathlib.Algebra.Ring.GeomSum
/-! The distribution of sums of centred binomials modulo q, computed in the kernel as one product of polynomials
modulo `X^3329 - 1`, with `X` a power of two. -/
namespace MlKem
open Rust Fips203 Finset BigOperators
open Fips202.Eval (force force_eq)

/-- Weights of residues -/
abbrev Weights := List (Nat × Nat)

/-- The convolution of the weights, scaled by powers of 17 -/
def conv (ws : Weights) : Nat → Zq → Nat
  | 0, z => if z = 0 then 1 else 0
  | n + 1, z => (ws.map fun a => a.2 * conv ws n (z - 17 ^ n * (a.1 : Zq))).sum

/-! ### Packing -/

/-- The table as one number -/
def packed (X : Nat) (C : Zq → Nat) : Nat := ∑ i ∈ Finset.range 3329, C (i : Zq) * X ^ i

theorem sum_lt_pow {X : Nat} (f : Nat → Nat) (hf : ∀ i, f i + 1 ≤ X) (m : Nat) :
    ∑ i ∈ Finset.range m, f i * X ^ i < X ^ m := by
  induction m with
  | zero => simp
  | succ m ih =>
    rw [Finset.sum_range_succ, pow_succ]
    have h1 := Nat.mul_le_mul_right (X ^ m) (hf m)
    rw [Nat.add_mul, Nat.one_mul] at h1
    rw [Nat.mul_comm (X ^ m) X]
    omega

theorem digit_sum {X : Nat} (hX : 0 < X) {f : Nat → Nat} (hf : ∀ i, f i + 1 ≤ X) {m z : Nat} (hz : z < m) :
    (∑ i ∈ Finset.range m, f i * X ^ i) / X ^ z % X = f z := by
  obtain ⟨r, rfl⟩ : ∃ r, m = z + (r + 1) := ⟨m - z - 1, by omega⟩
  rw [Finset.sum_range_add, Finset.sum_range_succ']
  have hlt := sum_lt_pow f hf z
  have e : ∑ j ∈ Finset.range r, f (z + (j + 1)) * X ^ (z + (j + 1))
      = X ^ z * (X * ∑ j ∈ Finset.range r, f (z + (j + 1)) * X ^ j) := by
    rw [Finset.mul_sum, Finset.mul_sum]
    refine Finset.sum_congr rfl fun j _ => ?_
    rw [pow_add, pow_succ]
    ring
  rw [e, Nat.add_zero, Nat.mul_comm (f z), ← Nat.mul_add, Nat.add_mul_div_left _ _ (pow_pos hX _),
    Nat.div_eq_of_lt hlt, Nat.zero_add, Nat.add_comm, Nat.add_mul_mod_self_left, Nat.mod_eq_of_lt (hf z)]

theorem packed_digit {X : Nat} (hX : 0 < X) {C : Zq → Nat} (hC : ∀ z, C z + 1 ≤ X) (z : Zq) :
    packed X C / X ^ z.val % X = C z := by
  have := digit_sum hX (f := fun i => C (i : Zq)) (fun i => hC _) (ZMod.val_lt z)
  rwa [ZMod.natCast_zmod_val] at this

theorem packed_eq (X : Nat) (C : Zq → Nat) : packed X C = ∑ z : Zq, C z * X ^ z.val := by
  unfold packed
  refine Finset.sum_bij' (fun i _ => (i : Zq)) (fun z _ => z.val) (fun i _ => Finset.mem_univ _)
    (fun z _ => Finset.mem_range.2 (ZMod.val_lt z)) (fun i hi => ZMod.val_cast_of_lt (Finset.mem_range.1 hi))
    (fun z _ => ZMod.natCast_zmod_val z) fun i hi => ?_
  rw [ZMod.val_cast_of_lt (Finset.mem_range.1 hi)]

theorem modEq_of_eq {M a b : Nat} (h : a = b) : a ≡ b [MOD M] := h ▸ rfl

theorem modEq_fsum {ι : Type} {M : Nat} (s : Finset ι) {f g : ι → Nat} (h : ∀ i, f i ≡ g i [MOD M]) :
    ∑ i ∈ s, f i ≡ ∑ i ∈ s, g i [MOD M] := by
  classical
  induction s using Finset.induction_on with
  | empty => rfl
  | insert a s ha ih => rw [Finset.sum_insert ha, Finset.sum_insert ha]; exact (h a).add ih

theorem pow_mod_eq {X M : Nat} (hM : X ^ 3329 ≡ 1 [MOD M]) (n : Nat) : X ^ (n % 3329) ≡ X ^ n [MOD M] := by
  conv_rhs => rw [← Nat.div_add_mod n 3329, pow_add, pow_mul]
  have := (hM.pow (n / 3329)).mul_right (X ^ (n % 3329))
  rw [one_pow, one_mul] at this
  exact this.symm

/-- A shift of the table is a multiplication by a power of `X`. -/
theorem packed_shift {X M : Nat} (hM : X ^ 3329 ≡ 1 [MOD M]) (C : Zq → Nat) (e : Nat) :
    packed X (fun z => C (z - (e : Zq))) ≡ X ^ (e % 3329) * packed X C [MOD M] := by
  rw [packed_eq, packed_eq, ← Equiv.sum_comp (Equiv.addRight (e : Zq)), Finset.mul_sum]
  refine modEq_fsum _ fun z => ?_
  rw [Equiv.coe_addRight, add_sub_cancel_right, ZMod.val_add, ZMod.val_natCast]
  have h1 := pow_mod_eq hM (z.val + e % 3329)
  have h2 := h1.mul_left (C z)
  refine h2.trans (modEq_of_eq ?_)
  rw [pow_add]
  ring

theorem packed_add (X : Nat) (ws : Weights) (f : Nat × Nat → Zq → Nat) :
    packed X (fun z => (ws.map fun a => f a z).sum) = (ws.map fun a => packed X (f a)).sum := by
  induction ws with
  | nil => simp [packed]
  | cons a ws ih =>
    simp only [List.map_cons, List.sum_cons]
    rw [← ih]
    unfold packed
    rw [← Finset.sum_add_distrib]
    exact Finset.sum_congr rfl fun i _ => by ring

theorem packed_mul (X c : Nat) (C : Zq → Nat) : packed X (fun z => c * C z) = c * packed X C := by
  unfold packed
  rw [Finset.mul_sum]
  exact Finset.sum_congr rfl fun i _ => by ring

theorem modEq_sum {M : Nat} (ws : Weights) {f g : Nat × Nat → Nat} (h : ∀ a ∈ ws, f a ≡ g a [MOD M]) :
    (ws.map f).sum ≡ (ws.map g).sum [MOD M] := by
  induction ws with
  | nil => rfl
  | cons a ws ih =>
    simp only [List.map_cons, List.sum_cons]
    exact (h a (by simp)).add (ih fun b hb => h b (by simp [hb]))

/-- The packed table, computed -/
def pack (B : Nat) (ws : Weights) : Nat → Nat
  | 0 => 1
  | n + 1 => force (pack B ws n) fun P =>
    (ws.map fun a => a.2 * (2 ^ (B * (17 ^ n * a.1 % 3329)) * P)).sum % (2 ^ (B * 3329) - 1)

theorem one_pow_mod {B : Nat} : (2 ^ B) ^ 3329 ≡ 1 [MOD (2 ^ (B * 3329) - 1)] := by
  rw [← pow_mul]
  have : 2 ^ (B * 3329) = (2 ^ (B * 3329) - 1) + 1 := by have := Nat.one_le_two_pow (n := B * 3329); omega
  conv_lhs => rw [this]
  exact Nat.add_modEq_left

theorem pack_modEq (B : Nat) (ws : Weights) (n : Nat) :
    packed (2 ^ B) (conv ws n) ≡ pack B ws n [MOD (2 ^ (B * 3329) - 1)] := by
  induction n with
  | zero =>
    refine modEq_of_eq ?_
    rw [packed_eq, Finset.sum_eq_single 0]
    · simp [conv, pack]
    · intro z _ hz
      simp [conv, hz]
    · intro h
      exact absurd (Finset.mem_univ _) h
  | succ n ih =>
    rw [pack, force_eq]
    refine Nat.ModEq.trans ?_ (Nat.mod_modEq _ _).symm
    have e : packed (2 ^ B) (conv ws (n + 1))
        = (ws.map fun a => packed (2 ^ B) fun z => a.2 * conv ws n (z - 17 ^ n * (a.1 : Zq))).sum :=
      packed_add (2 ^ B) ws fun a z => a.2 * conv ws n (z - 17 ^ n * (a.1 : Zq))
    rw [e]
    refine modEq_sum ws fun a _ => ?_
    rw [packed_mul (2 ^ B) a.2 fun z => conv ws n (z - 17 ^ n * (a.1 : Zq))]
    refine Nat.ModEq.mul_left _ ?_
    have hs := packed_shift (one_pow_mod (B := B)) (conv ws n) (17 ^ n * a.1)
    push_cast at hs
    refine hs.trans ?_
    rw [← pow_mul]
    exact ih.mul_left _

/-! ### The computed table is exact -/

theorem conv_sum (ws : Weights) (n : Nat) : ∑ z, conv ws n z = (ws.map Prod.snd).sum ^ n := by
  induction n with
  | zero => simp [conv]
  | succ n ih =>
    have h : ∀ us : Weights, ∑ z, (us.map fun a => a.2 * conv ws n (z - 17 ^ n * (a.1 : Zq))).sum
        = (us.map Prod.snd).sum * (ws.map Prod.snd).sum ^ n := by
      intro us
      induction us with
      | nil => simp
      | cons a us ih' =>
        simp only [List.map_cons, List.sum_cons]
        rw [Finset.sum_add_distrib, ih', ← Finset.mul_sum, Nat.add_mul, ← ih]
        have e : ∑ z, conv ws n (z - 17 ^ n * (a.1 : Zq)) = ∑ z, conv ws n z :=
          Fintype.sum_equiv (Equiv.subRight (17 ^ n * (a.1 : Zq))) _ _ fun z => by rw [Equiv.subRight_apply]
        rw [e]
    simp only [conv]
    rw [h, pow_succ, Nat.mul_comm]

theorem conv_le (ws : Weights) (n : Nat) (z : Zq) : conv ws n z ≤ (ws.map Prod.snd).sum ^ n := by
  rw [← conv_sum]
  exact Finset.single_le_sum (fun _ _ => Nat.zero_le _) (Finset.mem_univ z)

theorem packed_lt {x : Nat} {C : Zq → Nat} (hx : 1 ≤ x) (hC : ∀ z, C z + 1 ≤ x) : packed (x + 1) C < (x + 1) ^ 3329 - 1 := by
  have h1 : packed (x + 1) C ≤ ∑ i ∈ Finset.range 3329, (x - 1) * (x + 1) ^ i :=
    Finset.sum_le_sum fun i _ => Nat.mul_le_mul_right _ (by have := hC (i : Zq); omega)
  rw [← Finset.mul_sum] at h1
  have h2 := geom_sum_mul_add x 3329
  have h3 : 0 < ∑ i ∈ Finset.range 3329, (x + 1) ^ i :=
    Finset.sum_pos (fun i _ => pow_pos (Nat.succ_pos x) i) ⟨0, Finset.mem_range.2 (by norm_num)⟩
  generalize (x + 1) ^ 3329 = Y at *
  generalize ∑ i ∈ Finset.range 3329, (x + 1) ^ i = s at *
  have h4 : (x - 1) * s + s = s * x := by
    obtain ⟨y, rfl⟩ : ∃ y, x = y + 1 := ⟨x - 1, by omega⟩
    rw [Nat.add_sub_cancel]; ring
  omega

theorem pack_lt {B : Nat} (hB : 1 ≤ B) (ws : Weights) (n : Nat) : pack B ws n < 2 ^ (B * 3329) - 1 := by
  have h4 : 2 ^ 2 ≤ 2 ^ (B * 3329) := Nat.pow_le_pow_right (by norm_num) (by omega)
  cases n with
  | zero => rw [pack]; omega
  | succ n => rw [pack, force_eq]; exact Nat.mod_lt _ (by omega)

theorem pack_eq {B : Nat} {ws : Weights} {n : Nat} (h : (ws.map Prod.snd).sum ^ n + 2 ≤ 2 ^ B) :
    pack B ws n = packed (2 ^ B) (conv ws n) := by
  have hB : 1 ≤ B := by
    rcases B with _ | B
    · rw [pow_zero] at h; omega
    · omega
  obtain ⟨x, hx⟩ : ∃ x, 2 ^ B = x + 1 := ⟨2 ^ B - 1, by omega⟩
  have h1 : packed (2 ^ B) (conv ws n) < 2 ^ (B * 3329) - 1 := by
    rw [pow_mul, hx]
    exact packed_lt (by omega) fun z => by have := conv_le ws n z; omega
  exact (Nat.ModEq.eq_of_lt_of_lt (pack_modEq B ws n) h1 (pack_lt hB ws n)).symm

/-! ### The largest entry -/

/-- All of the first `2^d` digits in base `2^B` are at most `K`. -/
def digitsLe (B K : Nat) : Nat → Nat → Bool
  | 0, P => Nat.ble P K
  | d + 1, P => force P fun P => and (force (P % 2 ^ (B * 2 ^ d)) fun L => digitsLe B K d L)
    (force (P / 2 ^ (B * 2 ^ d)) fun H => digitsLe B K d H)

theorem digitsLe_spec {B K : Nat} (d P : Nat) (h : digitsLe B K d P = true) (z : Nat) (hz : z < 2 ^ d) :
    P / (2 ^ B) ^ z % 2 ^ B ≤ K := by
  induction d generalizing P z with
  | zero =>
    have hz : z = 0 := by simpa using hz
    subst hz
    rw [digitsLe, Nat.ble_eq] at h
    rw [pow_zero, Nat.div_one]
    exact (Nat.mod_le _ _).trans h
  | succ d ih =>
    rw [digitsLe] at h
    simp only [force_eq, Bool.and_eq_true] at h
    by_cases hlt : z < 2 ^ d
    · have := ih _ h.1 z hlt
      rw [← pow_mul] at this ⊢
      have e : P % 2 ^ (B * 2 ^ d) / 2 ^ (B * z) % 2 ^ B = P / 2 ^ (B * z) % 2 ^ B := by
        have hle : B * z + B ≤ B * 2 ^ d := by rw [← Nat.mul_succ]; exact Nat.mul_le_mul_left _ hlt
        apply Nat.eq_of_testBit_eq
        intro i
        simp only [Nat.testBit_mod_two_pow, Nat.testBit_div_two_pow]
        by_cases hi : i < B
        · simp [hi, show i + B * z < B * 2 ^ d by omega]
        · simp [hi]
      rwa [e] at this
    · have := ih _ h.2 (z - 2 ^ d) (by rw [pow_succ] at hz; omega)
      rw [← pow_mul] at this ⊢
      rwa [Nat.div_div_eq_div_mul, ← pow_add, ← Nat.mul_add, show 2 ^ d + (z - 2 ^ d) = z by omega] at this

/-- No residue has more than `K`. -/
def convLe (B : Nat) (ws : Weights) (n K : Nat) : Bool :=
  and (Nat.ble ((ws.map Prod.snd).sum ^ n + 2) (2 ^ B)) (digitsLe B K 12 (pack B ws n))

theorem convLe_spec {B : Nat} {ws : Weights} {n K : Nat} (h : convLe B ws n K = true) (z : Zq) : conv ws n z ≤ K := by
  unfold convLe at h
  rw [Bool.and_eq_true, Nat.ble_eq] at h
  have h1 := digitsLe_spec 12 _ h.2 z.val ((ZMod.val_lt z).trans (by norm_num))
  rw [pack_eq h.1] at h1
  rwa [packed_digit (by positivity) (fun z => by have := conv_le ws n z; omega)] at h1

/-! ### Weighted probabilities from the table -/

/-- The weights of a centred binomial: for each residue a bound on `4^eta·10^8·p·mgf` -/
def weights2 (G : List Nat) : Weights :=
  [(3327, G.getD 2 0), (3328, 4 * G.getD 1 0), (0, 6 * G.getD 0 0), (1, 4 * G.getD 1 0), (2, G.getD 2 0)]
def weights3 (G : List Nat) : Weights :=
  [(3326, G.getD 3 0), (3327, 6 * G.getD 2 0), (3328, 15 * G.getD 1 0), (0, 20 * G.getD 0 0), (1, 15 * G.getD 1 0),
    (2, 6 * G.getD 2 0), (3, G.getD 3 0)]

theorem hit_zero {eta : Nat} {w : ℤ → ℝ} (c : Fin 0 → Zq) (z : Zq) : hit eta w c z = if z = 0 then 1 else 0 := by
  unfold hit
  simp only [Finset.univ_eq_empty, Finset.sum_empty, Finset.prod_empty, mul_one]
  rw [Fintype.expect_const]
  simp only [eq_comm]

theorem q0 : (3329 : Zq) = 0 := ZMod.natCast_self 3329

theorem hit_le2 {t : ℝ} (ht : 0 < t) {G : List Nat} (hG : ∀ z : Nat, z < 5 → mgf 2 t z ≤ (G.getD z 0 : ℝ) / 10 ^ 8) (n : Nat) (z : Zq) :
    hit 2 (mgf 2 t) (fun j : Fin n => (17 : Zq) ^ j.val) z ≤ (conv (weights2 G) n z : ℝ) / (16 * 10 ^ 8) ^ n := by
  induction n generalizing z with
  | zero => rw [hit_zero, conv]; split <;> simp
  | succ n ih =>
    rw [hit_snoc, expect_diff2 fun a => mgf 2 t a * hit 2 (mgf 2 t) (fun j : Fin n => (17 : Zq) ^ (Fin.castSucc j).val)
      (z - 17 ^ (Fin.last n).val * ((a : ℤ) : Zq))]
    simp only [Fin.val_castSucc, Fin.val_last, mgf_neg]
    have e2 : z - 17 ^ n * (((-2 : ℤ) : ℤ) : Zq) = z - 17 ^ n * ((3327 : ℕ) : Zq) := by
      push_cast; linear_combination (17 : Zq) ^ n * q0
    have e1 : z - 17 ^ n * (((-1 : ℤ) : ℤ) : Zq) = z - 17 ^ n * ((3328 : ℕ) : Zq) := by
      push_cast; linear_combination (17 : Zq) ^ n * q0
    rw [e2, e1]
    have m : ∀ (a : ℕ) (v : Zq), a < 5 → mgf 2 t a * hit 2 (mgf 2 t) (fun j : Fin n => (17 : Zq) ^ j.val) v
        ≤ (G.getD a 0 : ℝ) / 10 ^ 8 * ((conv (weights2 G) n v : ℝ) / (16 * 10 ^ 8) ^ n) := fun a v ha =>
      mul_le_mul (hG a ha) (ih v) (hit_nonneg (mgf_nonneg 2 ht) _ _) ((mgf_nonneg 2 ht _).trans (hG a ha))
    have m1 := m 2 (z - 17 ^ n * ((3327 : ℕ) : Zq)) (by norm_num)
    have m2 := m 1 (z - 17 ^ n * ((3328 : ℕ) : Zq)) (by norm_num)
    have m3 := m 0 (z - 17 ^ n * ((0 : ℕ) : Zq)) (by norm_num)
    have m4 := m 1 (z - 17 ^ n * ((1 : ℕ) : Zq)) (by norm_num)
    have m5 := m 2 (z - 17 ^ n * ((2 : ℕ) : Zq)) (by norm_num)
    have hc : (conv (weights2 G) (n + 1) z : ℝ) = G.getD 2 0 * conv (weights2 G) n (z - 17 ^ n * ((3327 : ℕ) : Zq))
        + 4 * G.getD 1 0 * conv (weights2 G) n (z - 17 ^ n * ((3328 : ℕ) : Zq))
        + 6 * G.getD 0 0 * conv (weights2 G) n (z - 17 ^ n * ((0 : ℕ) : Zq))
        + 4 * G.getD 1 0 * conv (weights2 G) n (z - 17 ^ n * ((1 : ℕ) : Zq))
        + G.getD 2 0 * conv (weights2 G) n (z - 17 ^ n * ((2 : ℕ) : Zq)) := by
      rw [conv]
      conv_lhs => enter [1, 1, 2]; unfold weights2
      simp only [List.map_cons, List.map_nil, List.sum_cons, List.sum_nil]
      push_cast
      ring
    rw [hc, pow_succ]
    push_cast at m1 m2 m3 m4 m5 ⊢
    have hD : (0 : ℝ) < (16 * 10 ^ 8) ^ n := by positivity
    generalize ((16 : ℝ) * 10 ^ 8) ^ n = D at *
    have e : ∀ a b c d e f g h : ℝ, (a * b + 4 * c * d + 6 * e * f + 4 * c * g + a * h) / (D * (16 * 10 ^ 8))
        = (a / 10 ^ 8 * (b / D) + 4 * (c / 10 ^ 8 * (d / D)) + 6 * (e / 10 ^ 8 * (f / D)) + 4 * (c / 10 ^ 8 * (g / D))
          + a / 10 ^ 8 * (h / D)) / 16 := by
      intro a b c d e f g h
      field_simp
    rw [e]
    exact div_le_div_of_nonneg_right (by linarith) (by norm_num)

theorem hit_le3 {t : ℝ} (ht : 0 < t) {G : List Nat} (hG : ∀ z : Nat, z < 5 → mgf 3 t z ≤ (G.getD z 0 : ℝ) / 10 ^ 8) (n : Nat) (z : Zq) :
    hit 3 (mgf 3 t) (fun j : Fin n => (17 : Zq) ^ j.val) z ≤ (conv (weights3 G) n z : ℝ) / (64 * 10 ^ 8) ^ n := by
  induction n generalizing z with
  | zero => rw [hit_zero, conv]; split <;> simp
  | succ n ih =>
    rw [hit_snoc, expect_diff3 fun a => mgf 3 t a * hit 3 (mgf 3 t) (fun j : Fin n => (17 : Zq) ^ (Fin.castSucc j).val)
      (z - 17 ^ (Fin.last n).val * ((a : ℤ) : Zq))]
    simp only [Fin.val_castSucc, Fin.val_last, mgf_neg]
    have e2 : z - 17 ^ n * (((-2 : ℤ) : ℤ) : Zq) = z - 17 ^ n * ((3327 : ℕ) : Zq) := by
      push_cast; linear_combination (17 : Zq) ^ n * q0
    have e1 : z - 17 ^ n * (((-1 : ℤ) : ℤ) : Zq) = z - 17 ^ n * ((3328 : ℕ) : Zq) := by
      push_cast; linear_combination (17 : Zq) ^ n * q0
    have e3 : z - 17 ^ n * (((-3 : ℤ) : ℤ) : Zq) = z - 17 ^ n * ((3326 : ℕ) : Zq) := by
      push_cast; linear_combination (17 : Zq) ^ n * q0
    rw [e3, e2, e1]
    have m : ∀ (a : ℕ) (v : Zq), a < 5 → mgf 3 t a * hit 3 (mgf 3 t) (fun j : Fin n => (17 : Zq) ^ j.val) v
        ≤ (G.getD a 0 : ℝ) / 10 ^ 8 * ((conv (weights3 G) n v : ℝ) / (64 * 10 ^ 8) ^ n) := fun a v ha =>
      mul_le_mul (hG a ha) (ih v) (hit_nonneg (mgf_nonneg 3 ht) _ _) ((mgf_nonneg 3 ht _).trans (hG a ha))
    have m0 := m 3 (z - 17 ^ n * ((3326 : ℕ) : Zq)) (by norm_num)
    have m1 := m 2 (z - 17 ^ n * ((3327 : ℕ) : Zq)) (by norm_num)
    have m2 := m 1 (z - 17 ^ n * ((3328 : ℕ) : Zq)) (by norm_num)
    have m3 := m 0 (z - 17 ^ n * ((0 : ℕ) : Zq)) (by norm_num)
    have m4 := m 1 (z - 17 ^ n * ((1 : ℕ) : Zq)) (by norm_num)
    have m5 := m 2 (z - 17 ^ n * ((2 : ℕ) : Zq)) (by norm_num)
    have m6 := m 3 (z - 17 ^ n * ((3 : ℕ) : Zq)) (by norm_num)
    have hc : (conv (weights3 G) (n + 1) z : ℝ) = G.getD 3 0 * conv (weights3 G) n (z - 17 ^ n * ((3326 : ℕ) : Zq))
        + 6 * G.getD 2 0 * conv (weights3 G) n (z - 17 ^ n * ((3327 : ℕ) : Zq))
        + 15 * G.getD 1 0 * conv (weights3 G) n (z - 17 ^ n * ((3328 : ℕ) : Zq))
        + 20 * G.getD 0 0 * conv (weights3 G) n (z - 17 ^ n * ((0 : ℕ) : Zq))
        + 15 * G.getD 1 0 * conv (weights3 G) n (z - 17 ^ n * ((1 : ℕ) : Zq))
        + 6 * G.getD 2 0 * conv (weights3 G) n (z - 17 ^ n * ((2 : ℕ) : Zq))
        + G.getD 3 0 * conv (weights3 G) n (z - 17 ^ n * ((3 : ℕ) : Zq)) := by
      rw [conv]
      conv_lhs => enter [1, 1, 2]; unfold weights3
      simp only [List.map_cons, List.map_nil, List.sum_cons, List.sum_nil]
      push_cast
      ring
    rw [hc, pow_succ]
    push_cast at m0 m1 m2 m3 m4 m5 m6 ⊢
    have hD : (0 : ℝ) < (64 * 10 ^ 8) ^ n := by positivity
    generalize ((64 : ℝ) * 10 ^ 8) ^ n = D at *
    have e : ∀ a b c d x1 x2 x3 x4 x5 x6 x7 : ℝ, (a * x1 + 6 * b * x2 + 15 * c * x3 + 20 * d * x4 + 15 * c * x5 + 6 * b * x6 + a * x7)
          / (D * (64 * 10 ^ 8))
        = (a / 10 ^ 8 * (x1 / D) + 6 * (b / 10 ^ 8 * (x2 / D)) + 15 * (c / 10 ^ 8 * (x3 / D)) + 20 * (d / 10 ^ 8 * (x4 / D))
          + 15 * (c / 10 ^ 8 * (x5 / D)) + 6 * (b / 10 ^ 8 * (x6 / D)) + a / 10 ^ 8 * (x7 / D)) / 64 := by
      intro a b c d x1 x2 x3 x4 x5 x6 x7
      field_simp
    rw [e]
    exact div_le_div_of_nonneg_right (by linarith) (by norm_num)

end MlKem
