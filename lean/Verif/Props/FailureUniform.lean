import Verif.Proofs.UniformTables
import Verif.Proofs.Reprogram
import Verif.Props.Failure
import Verif.Props.X25519
/-! C85: the failure bounds when the expansion of the matrix is also random. -/
namespace MlKem
open Rust Fips203 Finset BigOperators

section
variable (S : Sha3) {p : Params}

theorem tableU0_eq (T : Bytes 34 → Bytes (3 * 280)) (R : Bytes 64 → Bytes 64) {d : List UInt8} (hd : d.length = 32) :
    tableU0 (withDerive (withXof S T) R) p d
      = matU p.eta1 (fun i j : Fin p.k => matA (withXof S T) (seeds S p d).1 i.val j.val) := by
  funext r i
  unfold tableU0 matU
  rw [seeds_withDerive _ R hd]
  rfl

/-- The average number of coefficients at which the linear part of the noise reaches `T`, for the matrix `A` -/
noncomputable def loudness (p : Params) (T : ℤ) (A : Fin p.k → Fin p.k → Poly) : ℝ :=
  𝔼 x : KeyNoise p.k, 𝔼 y : EncNoise p.k, ∑ n,
    if T ≤ |linear p.eta1 x y (spreadOf p.eta2 (rounding p.du) (matU p.eta1 A) y) n| then (1 : ℝ) else 0

theorem loudness_uniform {P : ParameterSet} [Build] (h : Supported P p) (h0 : 0 < p.eta1) (h3 : p.eta1 ≤ 3) (h0' : 0 < p.eta2)
    (h3' : p.eta2 ≤ 3) (T : ℤ) {t s c κ : ℝ} (ht : 1 ≤ t) (hs : 1 ≤ s)
    (hc : ∀ v, spread p.eta1 p.eta2 s (rounding p.du) v ≤ c) {N : Nat} (hN : N ≤ 128)
    (hκ : ∀ z, hit p.eta1 (mgf p.eta1 s) (fun j : Fin N => (17 : Zq) ^ j.val) z ≤ κ) (rho : B32) :
    𝔼 X : Bytes 34 → Bytes (3 * 280), loudness p T (fun i j => matA (withXof S X) rho.toList i.val j.val)
      ≤ 256 * (2 * t ^ (-T) * (mgf2 p.eta1 t * 𝔼 v, spread p.eta1 p.eta2 t (rounding p.du) v) ^ (256 * p.k))
        + 256 * (2 * s ^ (-T) * (c ^ (256 * p.k) * (128 * (mgf2 p.eta1 s ^ (128 - N) * κ) ^ (2 * p.k))))
        + 256 * (p.k ^ 2 * 2 ^ (-261 : ℤ)) := by
  let I : (Fin p.k → Fin p.k → Poly) → Fin 256 → ℝ := fun A n => 𝔼 x : KeyNoise p.k, 𝔼 y : EncNoise p.k,
    if T ≤ |linear p.eta1 x y (spreadOf p.eta2 (rounding p.du) (matU p.eta1 A) y) n| then (1 : ℝ) else 0
  let M : (Bytes 34 → Bytes (3 * 280)) → Fin p.k → Fin p.k → Poly := fun X i j => matA (withXof S X) rho.toList i.val j.val
  have hI0 : ∀ A n, 0 ≤ I A n := fun A n => Finset.expect_nonneg fun x _ => Finset.expect_nonneg fun y _ => by
    split <;> norm_num
  have hI1 : ∀ A n, I A n ≤ 1 := fun A n => (Finset.expect_le_expect (g := fun _ => (1 : ℝ)) fun x _ =>
    (Finset.expect_le_expect (g := fun _ => (1 : ℝ)) fun y _ => by split <;> norm_num).trans
      (le_of_eq (Fintype.expect_const 1))).trans (le_of_eq (Fintype.expect_const 1))
  have h2 : ∀ n, 𝔼 X, I (M X) n ≤ 2 * t ^ (-T) * (mgf2 p.eta1 t * 𝔼 v, spread p.eta1 p.eta2 t (rounding p.du) v) ^ (256 * p.k)
        + 2 * s ^ (-T) * (c ^ (256 * p.k) * (128 * (mgf2 p.eta1 s ^ (128 - N) * κ) ^ (2 * p.k)))
        + p.k ^ 2 * 2 ^ (-261 : ℤ) := by
    intro n
    have e := expect_matrix S (k := p.k) (by have := h.k_le; omega) rho (fun _ A => I A n) (fun _ A => hI0 A n) fun _ A => hI1 A n
    rw [Fintype.expect_const] at e
    have := tail_uniform (k := p.k) h0 h3 h0' h3' ht hs (rounding p.du) T hc hN hκ n
    have e := (abs_le.1 e).2
    change 𝔼 X, I (M X) n - 𝔼 A, I A n ≤ _ at e
    have i : 𝔼 A : Fin p.k → Fin p.k → Poly, I A n
        ≤ 2 * t ^ (-T) * (mgf2 p.eta1 t * 𝔼 v, spread p.eta1 p.eta2 t (rounding p.du) v) ^ (256 * p.k)
          + 2 * s ^ (-T) * (c ^ (256 * p.k) * (128 * (mgf2 p.eta1 s ^ (128 - N) * κ) ^ (2 * p.k))) := by
      refine le_trans (le_of_eq ?_) this
      refine Finset.expect_congr rfl fun A _ => Finset.expect_congr rfl fun x _ => Finset.expect_congr rfl fun y _ => ?_
      congr
    linarith
  have e : 𝔼 X : Bytes 34 → Bytes (3 * 280), loudness p T (M X) = ∑ n, 𝔼 X, I (M X) n := by
    unfold loudness
    simp only [Finset.expect_sum_comm]
    rfl
  refine (le_of_eq e).trans ((Finset.sum_le_sum fun n _ => h2 n).trans (le_of_eq ?_))
  rw [Finset.sum_const, Finset.card_univ, Fintype.card_fin, nsmul_eq_mul]
  push_cast
  ring

open Classical in
theorem failure_uniform {P : ParameterSet} [Build] (h : Supported P p) (h3 : p.eta1 ≤ 3) (h3' : p.eta2 ≤ 3) (hdv : p.dv ≤ 11) {T : Nat}
    (hT : 832 - (p.eta2 : ℤ) - round ((3329 : ℚ) / 2 ^ (p.dv + 1)) = T) {B : ℝ}
    (hB : ∀ rho : B32, 𝔼 X : Bytes 34 → Bytes (3 * 280), loudness p T (fun i j => matA (withXof S X) rho.toList i.val j.val)
      ≤ B - 2 ^ (-256 : ℤ)) (d m : B32) :
    prob (fun W : Tables => BadNoise (withTables S W) p d.toList m.toList) ≤ B := by
  let rho : B32 := bytesOf (seeds S p d.toList).1
  have hrho : rho.toList = (seeds S p d.toList).1 := toList_bytesOf (seeds_length S _ _).1
  let M : (Bytes 34 → Bytes (3 * 280)) → Fin p.k → Fin p.k → Poly := fun X i j => matA (withXof S X) rho.toList i.val j.val
  have h1 : ∀ X, 𝔼 W : (Bytes 33 → Bytes 192) × (Bytes 64 → Bytes 64),
      (if BadNoise (withTables S (X, W)) p d.toList m.toList then (1 : ℝ) else 0) ≤ loudness p T (M X) + 2 ^ (-256 : ℤ) := by
    intro X
    rw [← prob_eq_expect]
    refine failure_total (withXof S X) d m fun R => (failure_linear _ h h3 h3' hdv hT d m).trans (le_of_eq ?_)
    rw [tableU0_eq S X R Vector.length_toList, ← hrho]
    unfold loudness
    refine Finset.expect_congr rfl fun x _ => Finset.expect_congr rfl fun y _ => Finset.sum_congr rfl fun n _ => ?_
    congr
  rw [prob_eq_expect, expect_prod_type]
  refine (Finset.expect_le_expect fun X _ => h1 X).trans ?_
  rw [Finset.expect_add_distrib, Fintype.expect_const]
  have := hB rho
  change 𝔼 X, loudness p T (M X) ≤ _ at this
  linarith

/-! ### The three parameter sets -/

theorem two_261 : (2 : ℝ) ^ (-261 : ℤ) = 2 ^ (-200 : ℤ) * 2 ^ (-61 : ℤ) := by
  rw [← zpow_add₀ (by norm_num)]; norm_num

variable [Build]

theorem loudness_512 (rho : B32) :
    𝔼 X : Bytes 34 → Bytes (3 * 280), loudness ML_KEM_512 (726 : ℕ) (fun i j => matA (withXof S X) rho.toList i.val j.val)
      ≤ 2 ^ (-120 : ℤ) - 2 ^ (-256 : ℤ) := by
  refine (loudness_uniform S supported_512 (by decide) (by decide) (by decide) (by decide)
    (726 : ℕ) (t := 1.28) (s := 1.186) (by norm_num) (by norm_num)
    (c := (1745223376 : ℕ) / ((16 * 10 ^ 8 : ℕ) : ℝ)) (fun v => (spread_512 v).trans (le_of_eq (by norm_num)))
    (N := 10) (by norm_num) hit_512 rho).trans ?_
  refine (add_le_add_left (add_le_add uniform_512 singular_512) _).trans ?_
  rw [two_261]
  norm_num [ML_KEM_512]

theorem badUniform_512 (d m : B32) :
    prob (fun T : Tables => BadNoise (withTables S T) ML_KEM_512 d.toList m.toList) ≤ 2 ^ (-120 : ℤ) :=
  failure_uniform S supported_512 (by decide) (by decide) (by decide) (T := 726) (by norm_num [ML_KEM_512, round_eq])
    (loudness_512 S) d m

theorem loudness_768 (rho : B32) :
    𝔼 X : Bytes 34 → Bytes (3 * 280), loudness ML_KEM_768 (726 : ℕ) (fun i j => matA (withXof S X) rho.toList i.val j.val)
      ≤ 2 ^ (-152 : ℤ) - 2 ^ (-256 : ℤ) := by
  refine (loudness_uniform S supported_768 (by decide) (by decide) (by decide) (by decide)
    (726 : ℕ) (t := 1.346) (s := 1.21) (by norm_num) (by norm_num)
    (c := (1719855008 : ℕ) / ((16 * 10 ^ 8 : ℕ) : ℝ)) (fun v => (spread_768 v).trans (le_of_eq (by norm_num)))
    (N := 11) (by norm_num) hit_768 rho).trans ?_
  refine (add_le_add_left (add_le_add uniform_768 singular_768) _).trans ?_
  rw [two_261]
  norm_num [ML_KEM_768]

theorem badUniform_768 (d m : B32) :
    prob (fun T : Tables => BadNoise (withTables S T) ML_KEM_768 d.toList m.toList) ≤ 2 ^ (-152 : ℤ) :=
  failure_uniform S supported_768 (by decide) (by decide) (by decide) (T := 726) (by norm_num [ML_KEM_768, round_eq])
    (loudness_768 S) d m

theorem loudness_1024 (rho : B32) :
    𝔼 X : Bytes 34 → Bytes (3 * 280), loudness ML_KEM_1024 (778 : ℕ) (fun i j => matA (withXof S X) rho.toList i.val j.val)
      ≤ 2 ^ (-163 : ℤ) - 2 ^ (-256 : ℤ) := by
  refine (loudness_uniform S supported_1024 (by decide) (by decide) (by decide) (by decide)
    (778 : ℕ) (t := 1.348) (s := 1.21) (by norm_num) (by norm_num)
    (c := (1674909380 : ℕ) / ((16 * 10 ^ 8 : ℕ) : ℝ)) (fun v => (spread_1024' v).trans (le_of_eq (by norm_num)))
    (N := 11) (by norm_num) hit_768 rho).trans ?_
  refine (add_le_add_left (add_le_add uniform_1024 singular_1024) _).trans ?_
  rw [two_261]
  norm_num [ML_KEM_1024]

theorem badUniform_1024 (d m : B32) :
    prob (fun T : Tables => BadNoise (withTables S T) ML_KEM_1024 d.toList m.toList) ≤ 2 ^ (-163 : ℤ) :=
  failure_uniform S supported_1024 (by decide) (by decide) (by decide) (T := 778) (by norm_num [ML_KEM_1024, round_eq])
    (loudness_1024 S) d m

/-- **C85** ML-KEM-512: whatever the seed of the key, its rejection secret and the encapsulated message, if the outputs
of SHAKE128 that give the matrix, those of SHAKE256 that give the noise and those of SHA3-512 that give the
encapsulation's randomness are uniform, then decapsulation disagrees with encapsulation with probability at most
`2^-120`. -/
theorem C85_ml_kem_512 (d z m : B32) :
    prob (fun T : Tables => Disagree (withTables S T) MlKem512Params d z m) ≤ 2 ^ (-120 : ℤ) :=
  (prob_mono fun _ => disagree_bad _ supported_512 (by decide) (by decide)).trans (badUniform_512 S d m)

/-- **C85** ML-KEM-768: at most `2^-152` -/
theorem C85_ml_kem_768 (d z m : B32) :
    prob (fun T : Tables => Disagree (withTables S T) MlKem768Params d z m) ≤ 2 ^ (-152 : ℤ) :=
  (prob_mono fun _ => disagree_bad _ supported_768 (by decide) (by decide)).trans (badUniform_768 S d m)

/-- **C85** ML-KEM-1024: at most `2^-163` -/
theorem C85_ml_kem_1024 (d z m : B32) :
    prob (fun T : Tables => Disagree (withTables S T) MlKem1024Params d z m) ≤ 2 ^ (-163 : ℤ) :=
  (prob_mono fun _ => disagree_bad _ supported_1024 (by decide) (by decide)).trans (badUniform_1024 S d m)

end

namespace Fails

/-- The table of the toy SHAKE128 -/
def matrixTable (l : Bytes 34) : Bytes (3 * 280) := Vector.ofFn fun n => Toy.S.shake128 l.toList n.val

theorem withXof_matrixTable (S : Sha3) (h : S.shake128 = Toy.S.shake128) : withXof S matrixTable = S := by
  have e : ∀ l n, (if h : l.toArray.size = 34 ∧ n < 3 * 280 then (matrixTable ⟨l.toArray, h.1⟩)[n] else S.shake128 l n)
      = S.shake128 l n := by
    intro l n
    split
    · unfold matrixTable
      rw [Vector.getElem_ofFn, h]
      rfl
    · rfl
  unfold withXof
  simp only [e]

theorem withTables_matrixTable (F : Bytes 33 → Bytes 192) (R : Bytes 64 → Bytes 64) :
    withTables Toy.S (matrixTable, F, R) = withPrf (withDerive Toy.S R) F := by
  unfold withTables
  refine withXof_matrixTable _ ?_
  unfold withPrf withDerive
  rfl

/-- The probability of theorem `C85_ml_kem_768` is not zero in general. -/
theorem prob_pos_uniform [Build] (d z : B32) : 0 < prob (fun T : Tables =>
    Disagree (withTables Toy.S T) MlKem768Params d z m0) := by
  unfold prob
  have : Nonempty {T : Tables // Disagree (withTables Toy.S T) MlKem768Params d z m0} :=
    ⟨(matrixTable, table (seeds Toy.S ML_KEM_768 d.toList).2, id), by
      rw [withTables_matrixTable]
      exact disagree d z⟩
  have h1 := Nat.card_pos (α := {T : Tables // Disagree (withTables Toy.S T) MlKem768Params d z m0})
  have h2 := Nat.card_pos (α := Tables)
  positivity

/-- With the toy hashes and their table for the matrix, key generation and encapsulation return, whatever the other
tables. -/
example [Build] (R : Bytes 64 → Bytes 64) (F : Bytes 33 → Bytes 192) (d z m : B32) :
    ∃ dk ek c K, Kem.generate_deterministic (withTables Toy.S (matrixTable, F, R)) MlKem768Params d z = .ok (dk, ek) ∧
      ek.encapsulate_deterministic (withTables Toy.S (matrixTable, F, R)) m = .ok (c, K) := by
  rw [withTables_matrixTable]
  obtain ⟨dk, ek, eb, c, K, h1, h2, -⟩ := returns (seedOk R F) d z m
  exact ⟨dk, ek, c, K, h1, h2⟩

end Fails
end MlKem

namespace XWing
open Rust MlKem Fips203 XWingSpec

variable [Build] (S : Sha3)

theorem seedD_withTables (T : Tables) (b : Bytes 32) : seedD (withTables S T) b.toList = seedD S b.toList := by
  have e : ∀ n, (withTables S T).shake128 b.toList n = S.shake128 b.toList n := by
    intro n
    unfold withTables withXof withPrf withDerive
    dsimp only
    rw [dif_neg (by simp)]
  unfold seedD expand
  unfold prefixBytes
  simp only [e]

/-- **C85** X-Wing: for any generators, at most `2^-152` -/
theorem C85_xwing (X : X25519) (hX : PublicKeyIsBase X) (hcomm : Commutes X) (rng rng' : Rng) (s : rng.State) (t : rng'.State) :
    prob (fun T : Tables => Disagree (withTables S T) X rng rng' s t) ≤ 2 ^ (-152 : ℤ) := by
  by_cases hr : ∃ b s1 m t1, rng.fill_bytes 32 s = .ok (b, s1) ∧ rng'.fill_bytes 32 t = .ok (m, t1)
  · obtain ⟨b, s1, m, t1, hb, hm⟩ := hr
    refine (prob_mono fun T hT => ?_).trans (badUniform_768 S (seedD S b.toList) m)
    obtain ⟨sk, pk, s', ct, ss, t', g1, g2, g3⟩ := hT
    obtain ⟨b', h1, h2, -⟩ := generated_derived _ X g1
    obtain ⟨m', t1', h3, h4⟩ := C37_agree _ X hX hcomm g1 g2
    obtain rfl := (Prod.mk.inj (Res.ok.inj (hb.symm.trans h1))).1
    obtain rfl := (Prod.mk.inj (Res.ok.inj (hm.symm.trans h3))).1
    subst h2
    rw [← seedD_withTables S T]
    refine fun hn => g3 (h4 ?_)
    unfold pkM
    exact hn
  · have h0 : ∀ T : Tables, ¬ Disagree (withTables S T) X rng rng' s t := by
      rintro T ⟨sk, pk, s', ct, ss, t', g1, g2, -⟩
      obtain ⟨b', h1, -⟩ := generated_derived _ X g1
      obtain ⟨m', t1', h3, -⟩ := C37_agree _ X hX hcomm g1 g2
      exact hr ⟨_, _, _, _, h1, h3⟩
    refine (prob_mono (E' := fun _ => BadNoise _ _ _ _) fun T hT => absurd hT (h0 T)).trans
      (badUniform_768 S (Vector.replicate _ 0) (Vector.replicate _ 0))

/-- **C85** X-Wing with X25519 as RFC 7748 defines it: at most `2^-152`, with nothing assumed about X25519 -/
theorem C85_xwing_rfc7748 (rng rng' : Rng) (s : rng.State) (t : rng'.State) :
    prob (fun T : Tables => Disagree (withTables S T) rfc7748 rng rng' s t) ≤ 2 ^ (-152 : ℤ) :=
  C85_xwing S rfc7748 rfc7748_base rfc7748_commutes rng rng' s t

end XWing
