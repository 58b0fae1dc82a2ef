import Verif.Props.ManyUsers
/-! A ciphertext made from uniform polynomials is almost never the encryption of a message under a given key. -/
set_option linter.unusedSectionVars false

namespace MlKem
open Rust Fips203 Finset BigOperators Fo

/-- Few numbers compress to the same value. -/
theorem compress_prob [Build] {d : Nat} (h1 : 10 ≤ d) (h11 : d ≤ 11) (a : Nat) :
    𝔼 x : Zq, ind (Compress d x = a) ≤ 5 / 3329 := by
  classical
  have hr : round ((3329 : ℚ) / 2 ^ (d + 1)) ≤ 2 := by
    obtain rfl | rfl : d = 10 ∨ d = 11 := by omega
    all_goals norm_num [round_eq, Int.floor_le_iff]
  have hsub : (Finset.univ.filter fun x : Zq => Compress d x = a)
      ⊆ (Finset.Icc (-2 : ℤ) 2).image fun e : ℤ => Decompress d a - (e : Zq) := by
    intro x hx
    have hx := (Finset.mem_filter.1 hx).2
    have hd := Decompress_Compress (d := d) (by omega) (by omega) x
    rw [hx] at hd
    refine Finset.mem_image.2 ⟨cmod (Decompress d a - x), Finset.mem_Icc.2 (abs_le.1 (hd.trans hr)), ?_⟩
    rw [cmod_cast]
    ring
  have hc : (Finset.univ.filter fun x : Zq => Compress d x = a).card ≤ 5 :=
    (Finset.card_le_card hsub).trans (Finset.card_image_le.trans (by decide))
  rw [Fintype.expect_eq_sum_div_card]
  have hcard : (Fintype.card Zq : ℝ) = 3329 := by
    rw [show Fintype.card Zq = 3329 from ZMod.card 3329]; norm_num
  rw [hcard]
  refine div_le_div_of_nonneg_right ?_ (by norm_num)
  have hsum : ∑ x : Zq, ind (Compress d x = a) = ((Finset.univ.filter fun x : Zq => Compress d x = a).card : ℝ) := by
    rw [Finset.card_filter, Nat.cast_sum]
    exact Finset.sum_congr rfl fun x _ => by unfold ind; split <;> simp_all
  rw [hsum]
  exact_mod_cast hc

section
variable [Build] {P : ParameterSet} {p : Params}

theorem packCipher_toList (h : Supported P p) (u : Fin p.k → Poly) (v : Poly) :
    (packCipher p P.CiphertextSize u v).toList
      = encodeVec p.du (fun i l => Compress p.du (u i l)) ++ ByteEncode p.dv (fun l => Compress p.dv (v l)) := by
  obtain rfl := h.eq
  refine toList_bytesOf ?_
  rw [List.length_append, encodeVec_length, ByteEncode_length]
  show P.Du * 32 * P.K + 32 * P.Dv = _
  unfold ParameterSet.CiphertextSize
  ring

theorem packCipher_prob (h : Supported P p) (hs : Standard p) (c : P.EncodedCiphertext) :
    𝔼 u, 𝔼 v, ind (packCipher p P.CiphertextSize u v = c) ≤ (5 / 3329) ^ 256 := by
  have hdu : 10 ≤ p.du ∧ p.du ≤ 11 := by rcases hs with rfl | rfl | rfl <;> decide
  have hk : 0 < p.k := by rcases hs with rfl | rfl | rfl <;> decide
  by_cases he : ∃ u v, packCipher p P.CiphertextSize u v = c
  · obtain ⟨u0, v0, rfl⟩ := he
    have hp : ∀ u v, packCipher p P.CiphertextSize u v = packCipher p P.CiphertextSize u0 v0 →
        ∀ l, Compress p.du (u ⟨0, hk⟩ l) = Compress p.du (u0 ⟨0, hk⟩ l) := by
      intro u v e l
      have e := congrArg Vector.toList e
      rw [packCipher_toList h, packCipher_toList h] at e
      have b : block p.du _ (⟨0, hk⟩ : Fin p.k).val = block p.du _ (⟨0, hk⟩ : Fin p.k).val :=
        congrArg (fun B => block p.du B (⟨0, hk⟩ : Fin p.k).val) e
      rw [block_encodeVec, block_encodeVec] at b
      have lt : ∀ x : Zq, Compress p.du x < decMod p.du := fun x => by
        have := Compress_lt p.du x
        unfold decMod
        rwa [if_neg (by omega)]
      exact congrFun (ByteEncode_inj (by omega) (by omega) (fun i => lt _) (fun i => lt _) b) l
    have e1 : ∀ u : Fin p.k → Poly, 𝔼 v, ind (packCipher p P.CiphertextSize u v = packCipher p P.CiphertextSize u0 v0)
        ≤ ∏ l, ind (Compress p.du (u ⟨0, hk⟩ l) = Compress p.du (u0 ⟨0, hk⟩ l)) := by
      intro u
      have := fun v => ind_mono (hp u v)
      refine (Finset.expect_le_expect fun v _ => this v).trans ?_
      refine (le_of_eq (Fintype.expect_const _)).trans ?_
      by_cases hall : ∀ l, Compress p.du (u ⟨0, hk⟩ l) = Compress p.du (u0 ⟨0, hk⟩ l)
      · refine le_of_eq ?_
        unfold ind
        rw [if_pos hall]
        exact (Finset.prod_eq_one fun l _ => if_pos (hall l)).symm
      · unfold ind
        rw [if_neg hall]
        exact Finset.prod_nonneg fun l _ => by split <;> norm_num
    refine (Finset.expect_le_expect fun u _ => e1 u).trans ?_
    rw [expect_at (⟨0, hk⟩ : Fin p.k) fun w : Poly => ∏ l, ind (Compress p.du (w l) = Compress p.du (u0 ⟨0, hk⟩ l)),
      expect_pi_prod fun l (x : Zq) => ind (Compress p.du x = Compress p.du (u0 ⟨0, hk⟩ l))]
    refine (Finset.prod_le_prod (fun l _ => ?_) fun l _ => compress_prob hdu.1 hdu.2 _).trans (le_of_eq ?_)
    · exact Finset.expect_nonneg fun x _ => by unfold ind; split <;> norm_num
    · rw [Finset.prod_const, Finset.card_univ, Fintype.card_fin]
  · have e0 : ∀ u v, ind (packCipher p P.CiphertextSize u v = c) = 0 := fun u v => if_neg fun e => he ⟨u, v, e⟩
    simp only [e0, Fintype.expect_const]
    positivity

/-- It is almost never one of the ciphertexts of a key. -/
theorem sparse (h : Supported P p) (hs : Standard p) (E : B32 → P.EncodedCiphertext) :
    𝔼 u, 𝔼 v, ind (∃ m, E m = packCipher p P.CiphertextSize u v) ≤ 2 ^ (-256 : ℤ) := by
  have e := prob_exists_le (fun m ((u, v) : (Fin p.k → Poly) × Poly) => packCipher p P.CiphertextSize u v = E m)
    (c := (5 / 3329) ^ 256) (fun m => by
      rw [prob_ind, expect_prod_type]
      exact packCipher_prob h hs _) (Finset.univ : Finset B32).toList
  rw [prob_ind, expect_prod_type, Finset.length_toList, Finset.card_univ] at e
  have hc : ((Fintype.card B32 : ℕ) : ℝ) = 2 ^ 256 := by
    have : Fintype.card B32 = 256 ^ 32 := by
      rw [← Nat.card_eq_fintype_card]
      exact card_bytes 32
    rw [this]
    norm_num
  rw [hc] at e
  refine le_trans (le_of_eq ?_) (e.trans ?_)
  · refine Finset.expect_congr rfl fun u _ => Finset.expect_congr rfl fun v _ => ind_congr ?_
    simp only [Finset.mem_toList, Finset.mem_univ, true_and]
    exact exists_congr fun m => eq_comm
  · have : ((5 : ℝ) / 3329) ^ 256 ≤ (1 / 2 ^ 9) ^ 256 := pow_le_pow_left₀ (by norm_num) (by norm_num) 256
    have e3 : ((1 : ℝ) / 2 ^ 9) ^ 256 = 2 ^ (-2304 : ℤ) := by
      rw [one_div, inv_pow, ← pow_mul, zpow_neg]
      rfl
    rw [e3] at this
    calc (2 : ℝ) ^ 256 * (5 / 3329) ^ 256 ≤ 2 ^ 256 * 2 ^ (-2304 : ℤ) := mul_le_mul_of_nonneg_left this (by positivity)
      _ = 2 ^ (-2048 : ℤ) := by
        rw [← zpow_natCast, ← zpow_add₀ (by norm_num)]; norm_num
      _ ≤ 2 ^ (-256 : ℤ) := zpow_le_zpow_right₀ (by norm_num) (by norm_num)

end
end MlKem
