import Verif.Proofs.Noise
import Mathlib.Algebra.Order.BigOperators.Group.Finset
/-! A bound on the decryption noise by the sizes of the key's secret and error vectors. -/
namespace MlKem
open Rust MInt Fips203 FieldElement Finset

/-- `x` is represented by an integer of absolute value at most `B`. -/
def Bnd (B : ℤ) (x : Zq) : Prop := ∃ z : ℤ, (z : Zq) = x ∧ |z| ≤ B

theorem Bnd.mono {B C : ℤ} {x : Zq} (h : Bnd B x) (hBC : B ≤ C) : Bnd C x := by
  obtain ⟨z, hz, hb⟩ := h
  exact ⟨z, hz, hb.trans hBC⟩

theorem Bnd.add {B C : ℤ} {x y : Zq} (hx : Bnd B x) (hy : Bnd C y) : Bnd (B + C) (x + y) := by
  obtain ⟨z, rfl, hz⟩ := hx
  obtain ⟨w, rfl, hw⟩ := hy
  exact ⟨z + w, by push_cast; rfl, (abs_add_le z w).trans (add_le_add hz hw)⟩

theorem Bnd.neg {B : ℤ} {x : Zq} (hx : Bnd B x) : Bnd B (-x) := by
  obtain ⟨z, rfl, hz⟩ := hx
  exact ⟨-z, by push_cast; rfl, by rwa [abs_neg]⟩

theorem Bnd.sub {B C : ℤ} {x y : Zq} (hx : Bnd B x) (hy : Bnd C y) : Bnd (B + C) (x - y) := by
  rw [sub_eq_add_neg]; exact hx.add hy.neg

theorem Bnd.mul {B C : ℤ} {x y : Zq} (hx : Bnd B x) (hy : Bnd C y) : Bnd (B * C) (x * y) := by
  obtain ⟨z, rfl, hz⟩ := hx
  obtain ⟨w, rfl, hw⟩ := hy
  refine ⟨z * w, by push_cast; rfl, ?_⟩
  rw [abs_mul]
  exact mul_le_mul hz hw (abs_nonneg _) ((abs_nonneg _).trans hz)

theorem Bnd.zero : Bnd 0 (0 : Zq) := ⟨0, by simp, by simp⟩

theorem Bnd.sum {ι : Type} (s : Finset ι) {B : ι → ℤ} {f : ι → Zq} (h : ∀ i ∈ s, Bnd (B i) (f i)) :
    Bnd (∑ i ∈ s, B i) (∑ i ∈ s, f i) := by
  classical
  induction s using Finset.induction_on with
  | empty => simpa using Bnd.zero
  | insert a s ha ih =>
    rw [sum_insert ha, sum_insert ha]
    exact (h a (mem_insert_self a s)).add (ih fun i hi => h i (mem_insert_of_mem hi))

theorem Bnd.valMinAbs (x : Zq) : Bnd |x.valMinAbs| x := ⟨x.valMinAbs, ZMod.coe_valMinAbs x, le_rfl⟩

theorem Bnd.le {B : ℤ} {x : Zq} (h : Bnd B x) (hB : B ≤ 1664) : |x.valMinAbs| ≤ B := by
  obtain ⟨z, hz, hb⟩ := h
  have := abs_le.1 hb
  rw [← cmod_valMinAbs, cmod_eq_of hz (by omega) (by omega)]
  exact hb

theorem norm1_nonneg (f : Poly) : 0 ≤ norm1 f := sum_nonneg fun _ _ => abs_nonneg _

theorem ringMul_row (f g : Poly) (k i : Fin 256) :
    (∑ j : Fin 256, if i.val + j.val = k.val then f i * g j
      else if i.val + j.val = k.val + 256 then - (f i * g j) else 0)
    = if h : i.val ≤ k.val then f i * g ⟨k.val - i.val, by omega⟩
      else - (f i * g ⟨k.val + 256 - i.val, by omega⟩) := by
  split
  case isTrue h =>
    rw [sum_eq_single (⟨k.val - i.val, by omega⟩ : Fin 256)]
    · rw [if_pos (by simp only; omega)]
    · intro j _ hj
      have : j.val ≠ k.val - i.val := fun e => hj (Fin.ext e)
      rw [if_neg (by omega), if_neg (by omega)]
    · simp
  case isFalse h =>
    rw [sum_eq_single (⟨k.val + 256 - i.val, by omega⟩ : Fin 256)]
    · rw [if_neg (by simp only; omega), if_pos (by simp only; omega)]
    · intro j _ hj
      have : j.val ≠ k.val + 256 - i.val := fun e => hj (Fin.ext e)
      rw [if_neg (by omega), if_neg (by omega)]
    · simp

theorem ringMul_bnd {f g : Poly} {B : ℤ} (hg : ∀ n, Bnd B (g n)) (k : Fin 256) :
    Bnd (norm1 f * B) (ringMul f g k) := by
  rw [norm1, sum_mul, ringMul]
  apply Bnd.sum
  intro i _
  rw [ringMul_row]
  split
  · exact (Bnd.valMinAbs _).mul (hg _)
  · exact ((Bnd.valMinAbs _).mul (hg _)).neg

theorem cbd_bnd (eta : Nat) (B : List UInt8) (n : Fin 256) : Bnd eta (SamplePolyCBD eta B n) := by
  unfold SamplePolyCBD
  refine ⟨(∑ j ∈ range eta, ((bit B (2 * n.val * eta + j)).toNat : ℤ))
    - ∑ j ∈ range eta, ((bit B (2 * n.val * eta + eta + j)).toNat : ℤ), by push_cast; rfl, ?_⟩
  have h : ∀ g : Nat → Bool, 0 ≤ ∑ j ∈ range eta, ((g j).toNat : ℤ) ∧
      ∑ j ∈ range eta, ((g j).toNat : ℤ) ≤ eta := by
    intro g
    constructor
    · exact sum_nonneg fun _ _ => by positivity
    · calc ∑ j ∈ range eta, ((g j).toNat : ℤ) ≤ ∑ _j ∈ range eta, (1 : ℤ) :=
          sum_le_sum fun j _ => by cases g j <;> simp
        _ = eta := by simp
  have h1 := h fun j => bit B (2 * n.val * eta + j)
  have h2 := h fun j => bit B (2 * n.val * eta + eta + j)
  rw [abs_le]
  constructor <;> linarith [h1.1, h1.2, h2.1, h2.2]

theorem loss_bnd {w : Nat} (h1 : 1 ≤ w) (h2 : w ≤ 11) (f : Poly) (n : Fin 256) :
    Bnd (round ((3329 : ℚ) / 2 ^ (w + 1))) (lossOf w f n) :=
  ⟨cmod (lossOf w f n), cmod_cast _, Decompress_Compress h1 h2 (f n)⟩

variable (S : Sha3) (p : Params)

theorem noise_bnd (hdu1 : 1 ≤ p.du) (hdu2 : p.du ≤ 11) (hdv1 : 1 ≤ p.dv) (hdv2 : p.dv ≤ 11)
    (d m r : List UInt8) (n : Fin 256) : Bnd (noiseBound S p d) (noise S p d m r n) := by
  unfold noise noiseBound
  simp only [Pi.sub_apply, Pi.add_apply, Finset.sum_apply]
  refine Bnd.sub (Bnd.add (Bnd.add (Bnd.sum _ fun i _ => ?_) ?_) ?_) (Bnd.sum _ fun i _ => ?_)
  · exact ringMul_bnd (fun n => cbd_bnd _ _ n) n
  · exact cbd_bnd _ _ n
  · exact loss_bnd hdv1 hdv2 _ n
  · exact ringMul_bnd (fun n => (cbd_bnd _ _ n).add (loss_bnd hdu1 hdu2 _ n)) n

theorem noiseOk_of_bound (hdu1 : 1 ≤ p.du) (hdu2 : p.du ≤ 11) (hdv1 : 1 ≤ p.dv) (hdv2 : p.dv ≤ 11)
    (d m r : List UInt8) (h : noiseBound S p d ≤ 831) : NoiseOk S p d m r := by
  intro n
  have hb := (noise_bnd S p hdu1 hdu2 hdv1 hdv2 d m r n).le (by omega)
  rw [abs_le] at hb
  have : ((bit m n.val).toNat : ℤ) ≤ 1 := by cases bit m n.val <;> simp
  exact ⟨by omega, by omega⟩

end MlKem
