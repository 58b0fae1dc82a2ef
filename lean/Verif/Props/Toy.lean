import Verif.Props.Common
import Verif.Proofs.NoiseBound
/-!
A concrete choice of the external primitives for which the hypotheses of the property theorems can
be checked by hand. It is used only in the non-vacuity examples. Hash outputs depend on the input;
the centred-binomial samples are the constant polynomial 1.
-/
namespace MlKem.Toy
open Rust Fips203 MlKem Finset

variable [Build]

/-- Sum of the bytes of the input -/
def total (l : List UInt8) : Nat := (l.map UInt8.toNat).sum

/-- Toy hash functions -/
def S : Sha3 where
  sha3_256 l := Vector.ofFn fun i => UInt8.ofNat (total l + i.val)
  sha3_512 l := Vector.ofFn fun i => UInt8.ofNat (total l + 7 * i.val)
  shake128 l n := UInt8.ofNat ((total l + n) % 13)
  shake256 l n := if l.length = 33 then (if n = 0 then 1 else 0) else UInt8.ofNat (total l + n)

/-- A toy rng: a counter, which the output repeats -/
def rng : Rng where
  State := Nat
  fill_bytes _ s := .ok (Vector.ofFn fun i => UInt8.ofNat (s + i.val), s + 1)

omit [Build] in
theorem stream_lt (l : List UInt8) (n : Nat) : (S.shake128 l n).toNat < 13 := by
  show (UInt8.ofNat ((total l + n) % 13)).toNat < 13
  rw [UInt8.toNat_ofNat']
  have : (total l + n) % 13 < 13 := Nat.mod_lt _ (by omega)
  omega

omit [Build] in
theorem accepts (l : List UInt8) : Accepts (S.shake128 l) := by
  refine ⟨256, ?_⟩
  have h : ∀ n, candidate (S.shake128 l) n < 3329 := by
    intro n
    have h0 := stream_lt l (3 * (n / 2))
    have h1 := stream_lt l (3 * (n / 2) + 1)
    have h2 := stream_lt l (3 * (n / 2) + 2)
    unfold candidate
    dsimp only
    split <;> omega
  rw [Nat.count_iff_forall.2 fun n _ => h n]

omit [Build] in
theorem seedOk (k : Nat) (rho : List UInt8) : SeedOk S k rho := fun _ _ _ _ => accepts _

/-- The constant polynomial 1 -/
def one : Poly := fun i => if i.val = 0 then 1 else 0

omit [Build] in
theorem cbd_one {eta : Nat} (h : 1 ≤ eta) {s : List UInt8} (hs : s.length = 32) (b : Nat) :
    SamplePolyCBD eta (Fips203.PRF S eta s b) = one := by
  have hbit : ∀ t, bit (Fips203.PRF S eta s b) t = decide (t = 0) := by
    intro t
    unfold Fips203.PRF prefixBytes bit
    rw [List.getD_eq_getElem?_getD, List.getElem?_ofFn]
    have hl : (s ++ [UInt8.ofNat b]).length = 33 := by simp [hs]
    split
    · simp only [S, hl, if_true, Option.getD_some]
      split
      case isTrue h0 =>
        have : t < 8 := by omega
        interval_cases t <;> decide
      case isFalse h0 =>
        have : t ≠ 0 := by omega
        simp [this]
    · have : t ≠ 0 := by omega
      simp [this]
  funext i
  unfold SamplePolyCBD one
  simp only [hbit]
  have e2 : ∑ j ∈ Finset.range eta, (((decide (2 * i.val * eta + eta + j = 0)).toNat : Nat) : Zq) = 0 := by
    apply sum_eq_zero
    intro j _
    have : ¬ (2 * i.val * eta + eta + j = 0) := by omega
    rw [decide_eq_false this]; rfl
  rw [e2, sub_zero]
  split
  case isTrue h0 =>
    rw [sum_eq_single_of_mem 0 (by simp; omega)]
    · simp [h0]
    · intro j _ hj
      simp [h0, hj]
  case isFalse h0 =>
    apply sum_eq_zero
    intro j _
    have : 0 < 2 * i.val * eta := by positivity
    have : ¬ (2 * i.val * eta + j = 0) := by omega
    rw [decide_eq_false this]; rfl

omit [Build] in
theorem norm1_one : norm1 one = 1 := by
  unfold norm1
  rw [sum_eq_single_of_mem (0 : Fin 256) (mem_univ _)]
  · show |(1 : Zq).valMinAbs| = 1
    rw [show (1 : Zq).valMinAbs = 1 by decide]; rfl
  · intro j _ hj
    have : j.val ≠ 0 := fun e => hj (Fin.ext e)
    simp [one, this]

omit [Build] in
theorem round_le {a b : Nat} {w : ℤ} (hb : 0 < b) (h : ((2 * a + b) / (2 * b) : Nat) ≤ w) :
    round ((a : ℚ) / b) ≤ w := by rw [round_div a b hb]; exact h

omit [Build] in
/-- With the toy primitives the noise of every standard parameter set is small. -/
theorem noiseBound_le {p : Params} (h : p = ML_KEM_512 ∨ p = ML_KEM_768 ∨ p = ML_KEM_1024)
    (d : List UInt8) : noiseBound S p d ≤ 831 := by
  have hlen := (seeds_length S p d).2
  have he : 1 ≤ p.eta1 := by rcases h with rfl | rfl | rfl <;> decide
  have hs : ∀ i, secretS S p d i = one := fun i => cbd_one he hlen _
  have hE : ∀ i, errorE S p d i = one := fun i => cbd_one he hlen _
  unfold noiseBound
  simp only [hs, hE, norm1_one, sum_const, card_univ, Fintype.card_fin, one_mul]
  have h10 : round ((3329 : ℚ) / 2 ^ 11) ≤ 2 := by
    have := round_le (a := 3329) (b := 2 ^ 11) (w := 2) (by norm_num) (by norm_num)
    push_cast at this; exact this
  have h11 : round ((3329 : ℚ) / 2 ^ 12) ≤ 1 := by
    have := round_le (a := 3329) (b := 2 ^ 12) (w := 1) (by norm_num) (by norm_num)
    push_cast at this; exact this
  have h4 : round ((3329 : ℚ) / 2 ^ 5) ≤ 104 := by
    have := round_le (a := 3329) (b := 2 ^ 5) (w := 104) (by norm_num) (by norm_num)
    push_cast at this; exact this
  have h5 : round ((3329 : ℚ) / 2 ^ 6) ≤ 52 := by
    have := round_le (a := 3329) (b := 2 ^ 6) (w := 52) (by norm_num) (by norm_num)
    push_cast at this; exact this
  rcases h with rfl | rfl | rfl
  · show 2 • ((3 : Nat) : ℤ) + ((2 : Nat) : ℤ) + round ((3329 : ℚ) / 2 ^ 5)
      + 2 • (((2 : Nat) : ℤ) + round ((3329 : ℚ) / 2 ^ 11)) ≤ 831
    simp only [nsmul_eq_mul]; push_cast; omega
  · show 3 • ((2 : Nat) : ℤ) + ((2 : Nat) : ℤ) + round ((3329 : ℚ) / 2 ^ 5)
      + 3 • (((2 : Nat) : ℤ) + round ((3329 : ℚ) / 2 ^ 11)) ≤ 831
    simp only [nsmul_eq_mul]; push_cast; omega
  · show 4 • ((2 : Nat) : ℤ) + ((2 : Nat) : ℤ) + round ((3329 : ℚ) / 2 ^ 6)
      + 4 • (((2 : Nat) : ℤ) + round ((3329 : ℚ) / 2 ^ 12)) ≤ 831
    simp only [nsmul_eq_mul]; push_cast; omega

omit [Build] in
theorem noiseOk {p : Params} (h : p = ML_KEM_512 ∨ p = ML_KEM_768 ∨ p = ML_KEM_1024)
    (d m r : List UInt8) : NoiseOk S p d m r := by
  apply noiseOk_of_bound S p _ _ _ _ d m r (noiseBound_le h d) <;>
    rcases h with rfl | rfl | rfl <;> decide

end MlKem.Toy
