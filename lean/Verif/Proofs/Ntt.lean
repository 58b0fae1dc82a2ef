import Verif.Proofs.Tables
/-! The forward and inverse NTT loops, in terms of functions `Nat → Zq`. -/
namespace MlKem
open Rust MInt Fips203 FieldElement

variable [Build]

/-- The array with entries `F 0, …, F 255` -/
def vecOf (F : Nat → Zq) : Vector FieldElement 256 := Vector.ofFn fun i => ofZ (F i.val)

omit [Build] in
@[simp] theorem vecOf_getElem (F : Nat → Zq) {i : Nat} (h : i < 256) : (vecOf F)[i] = ofZ (F i) := by
  simp [vecOf]

omit [Build] in
theorem vecOf_congr {F G : Nat → Zq} (h : ∀ i, i < 256 → F i = G i) : vecOf F = vecOf G := by
  ext i hi
  simp [h i hi]

omit [Build] in
theorem vecOf_inj {F G : Nat → Zq} (h : vecOf F = vecOf G) : ∀ i, i < 256 → F i = G i := by
  intro i hi
  have : (vecOf F)[i] = (vecOf G)[i] := by rw [h]
  simpa using ofZ_injective (by simpa using this)

omit [Build] in
theorem vecOf_set (F : Nat → Zq) {i : Nat} (h : i < 256) (x : Zq) :
    (vecOf F).set i (ofZ x) = vecOf (Function.update F i x) := by
  ext j hj
  rw [Vector.getElem_set]
  by_cases hij : i = j
  · subst hij; simp
  · rw [if_neg hij, vecOf_getElem _ hj, vecOf_getElem _ hj, Function.update_of_ne (Ne.symm hij)]

attribute [irreducible] vecOf

omit [Build] in
theorem ok_pair {α β : Type} {a a' : α} {b b' : β} (h1 : a = a') (h2 : b = b') :
    (Res.ok (a, b) : Res (α × β)) = .ok (a', b') := by rw [h1, h2]

omit [Build] in
theorem pair_eq {α β : Type} {a a' : α} {b b' : β} (h1 : a = a') (h2 : b = b') :
    (a, b) = (a', b') := by rw [h1, h2]

/-! ### Forward layer -/

/-- One butterfly -/
theorem nttInner_ok (z : Zq) {len j : Nat} (F : Nat → Zq) (h : j + len < 256) (hl : 0 < len) :
    Polynomial.nttInner (ofZ z) len (vecOf F) j =
      .ok (vecOf (Function.update (Function.update F (j + len) (F j - z * F (j + len))) j
        (F j + z * F (j + len)))) := by
  unfold Polynomial.nttInner
  have hj : j < 256 := by omega
  have hne : j ≠ j + len := by omega
  have hu : addUsize j len = .ok (j + len) := addUsize_ok (by omega)
  rw [hu, Res.ok_bind, idx_ok _ h]
  simp only [Res.ok_bind, vecOf_getElem, mul_ofZ]
  rw [idx_ok _ hj]
  simp only [Res.ok_bind, vecOf_getElem, sub_ofZ]
  rw [setIdx_ok _ _ h, vecOf_set _ h]
  simp only [Res.ok_bind]
  rw [idx_ok _ hj]
  simp only [Res.ok_bind, vecOf_getElem, Function.update_of_ne hne, add_ofZ]
  rw [setIdx_ok _ _ hj, vecOf_set _ hj]

/-- The effect of one forward layer with `n` blocks of length `2*len` -/
def layerF (n len : Nat) (F : Nat → Zq) : Nat → Zq := fun i =>
  if i % (2 * len) < len then F i + zetaZ (n + i / (2 * len)) * F (i + len)
  else F (i - len) - zetaZ (n + i / (2 * len)) * F i

theorem nttBlock_ok {n len b : Nat} (F : Nat → Zq) (hl : 0 < len) (hn : 2 * len * n = 256)
    (hb : b < n) (hz : n + b < 128) :
    Polynomial.nttBlock len
        (vecOf (fun i => if i < b * (2 * len) then layerF n len F i else F i), n + b)
        (b * (2 * len))
      = .ok (vecOf (fun i => if i < (b + 1) * (2 * len) then layerF n len F i else F i),
          n + b + 1) := by
  set st := b * (2 * len) with hst
  have hst2 : st + 2 * len ≤ 256 := by
    have : (b + 1) * (2 * len) ≤ n * (2 * len) := Nat.mul_le_mul_right _ hb
    rw [Nat.add_mul] at this
    rw [Nat.mul_comm n] at this
    omega
  unfold Polynomial.nttBlock
  dsimp only
  rw [idx_ok _ hz, zeta_table hz, Res.ok_bind, addUsize_ok (by omega), Res.ok_bind, addUsize_ok (by omega)]
  simp only [Res.ok_bind]
  set z := zetaZ (n + b) with hzd
  -- facts about indices in this block
  have hdiv : ∀ r, r < 2 * len → (st + r) / (2 * len) = b ∧ (st + r) % (2 * len) = r := by
    intro r hr
    constructor
    · rw [hst, Nat.add_comm, Nat.add_mul_div_right _ _ (by omega), Nat.div_eq_of_lt hr]; omega
    · rw [hst, Nat.add_comm, Nat.add_mul_mod_self_right, Nat.mod_eq_of_lt hr]
  obtain ⟨s', h1, h2⟩ := forEach_range_inv (lo := st) (hi := st + len)
    (init := vecOf (fun i => if i < st then layerF n len F i else F i))
    (body := Polynomial.nttInner (ofZ z) len)
    (fun j s => s = vecOf (fun i =>
      if i < j then layerF n len F i
      else if st + len ≤ i ∧ i < j + len then layerF n len F i else F i))
    (by omega) (by
      apply vecOf_congr
      intro i _
      by_cases hi : i < st
      · simp [hi]
      · rw [if_neg hi, if_neg hi, if_neg (by omega)])
    (by
      rintro j s hj1 hj2 rfl
      refine ⟨_, nttInner_ok z _ (by omega) hl, ?_⟩
      have hA := hdiv (j - st) (by omega)
      have hB := hdiv (j + len - st) (by omega)
      rw [show st + (j - st) = j by omega] at hA
      rw [show st + (j + len - st) = j + len by omega] at hB
      apply vecOf_congr
      intro i hi
      have e1 : ¬ (j < j) := by omega
      have e2 : ¬ (st + len ≤ j ∧ j < j + len) := by omega
      have e3 : ¬ (j + len < j) := by omega
      have e4 : ¬ (st + len ≤ j + len ∧ j + len < j + len) := by omega
      simp only [e1, e2, e3, e4, if_false]
      by_cases hij : i = j
      · subst hij
        rw [Function.update_self, if_pos (by omega)]
        simp only [layerF, hA.1, hA.2]
        rw [if_pos (by omega)]
      · rw [Function.update_of_ne hij]
        by_cases hijl : i = j + len
        · subst hijl
          rw [Function.update_self, if_neg (by omega), if_pos (by omega)]
          simp only [layerF, hB.1, hB.2]
          rw [if_neg (by omega), show j + len - len = j by omega]
        · rw [Function.update_of_ne hijl]
          by_cases c1 : i < j
          · rw [if_pos c1, if_pos (by omega)]
          · rw [if_neg c1, if_neg (show ¬ i < j + 1 by omega)]
            by_cases c2 : st + len ≤ i ∧ i < j + len
            · rw [if_pos c2, if_pos (by omega)]
            · rw [if_neg c2, if_neg (by omega)])
  rw [h1]
  simp only [Res.ok_bind]
  rw [h2]
  refine ok_pair (vecOf_congr ?_) (by omega)
  intro i _
  have : (b + 1) * (2 * len) = st + 2 * len := by rw [Nat.add_mul]; omega
  rw [this]
  by_cases c : i < st + len
  · rw [if_pos c, if_pos (by omega)]
  · rw [if_neg c]
    by_cases c2 : i < st + 2 * len
    · rw [if_pos (by omega), if_pos c2]
    · rw [if_neg (by omega), if_neg c2]

omit [Build] in
theorem rangeStep_eq {n s : Nat} (hs : 0 < s) (h : s * n = 256) :
    rangeStep 0 256 s = (List.range n).map (· * s) := by
  have : (256 - 0 + s - 1) / s = n := by
    rw [← h, Nat.sub_zero, Nat.add_sub_assoc (by omega), Nat.add_comm, Nat.add_mul_div_left _ _ hs,
      Nat.div_eq_of_lt (by omega)]; omega
  rw [rangeStep, this]
  apply List.ext_getElem
  · simp
  · intro i h1 h2
    simp [Nat.mul_comm]

theorem nttLayer_ok {n len : Nat} (F : Nat → Zq) (hl : 0 < len) (hn : 2 * len * n = 256)
    (hz : 2 * n ≤ 128) :
    Polynomial.nttLayer (vecOf F, n) len = .ok (vecOf (layerF n len F), 2 * n) := by
  unfold Polynomial.nttLayer
  have hle : 2 * len ≤ 256 := hn ▸ Nat.le_mul_of_pos_right _ (Nat.pos_of_ne_zero fun h0 => by simp [h0] at hn)
  rw [mulUsize_ok (by omega), Res.ok_bind, rangeStep_eq (by omega) hn]
  obtain ⟨s', h1, h2⟩ := forEach_list_inv ((List.range n).map (· * (2 * len)))
    (init := (vecOf F, n)) (body := Polynomial.nttBlock len)
    (fun b s => s = (vecOf (fun i => if i < b * (2 * len) then layerF n len F i else F i), n + b))
    (by
      refine pair_eq (vecOf_congr ?_) (by omega)
      intro i _; simp)
    (by
      rintro b hb s rfl
      simp only [List.length_map, List.length_range] at hb
      simp only [List.getElem_map, List.getElem_range]
      exact ⟨_, nttBlock_ok F hl hn hb (by omega), rfl⟩)
  rw [h1, h2]
  simp only [List.length_map, List.length_range]
  refine ok_pair (vecOf_congr ?_) (by omega)
  intro i hi
  rw [if_pos (by rw [Nat.mul_comm]; omega)]

/-- The composition of the seven forward layers -/
def nttF (F : Nat → Zq) : Nat → Zq :=
  layerF 64 2 (layerF 32 4 (layerF 16 8 (layerF 8 16 (layerF 4 32 (layerF 2 64 (layerF 1 128 F))))))

theorem ntt_loop_ok (F : Nat → Zq) :
    Polynomial.ntt ⟨vecOf F⟩ = .ok ⟨vecOf (nttF F)⟩ := by
  unfold Polynomial.ntt
  simp only [forEach_cons, forEach_nil]
  rw [nttLayer_ok (n := 1) _ (by omega) (by omega) (by omega)]
  simp only [Res.ok_bind]
  rw [nttLayer_ok (n := 2) _ (by omega) (by omega) (by omega)]
  simp only [Res.ok_bind]
  rw [nttLayer_ok (n := 4) _ (by omega) (by omega) (by omega)]
  simp only [Res.ok_bind]
  rw [nttLayer_ok (n := 8) _ (by omega) (by omega) (by omega)]
  simp only [Res.ok_bind]
  rw [nttLayer_ok (n := 16) _ (by omega) (by omega) (by omega)]
  simp only [Res.ok_bind]
  rw [nttLayer_ok (n := 32) _ (by omega) (by omega) (by omega)]
  simp only [Res.ok_bind]
  rw [nttLayer_ok (n := 64) _ (by omega) (by omega) (by omega)]
  simp only [Res.ok_bind]
  rfl

/-! ### Inverse layer -/

theorem invInner_ok (z : Zq) {len j : Nat} (F : Nat → Zq) (h : j + len < 256) (hl : 0 < len) :
    NttPolynomial.invInner (ofZ z) len (vecOf F) j =
      .ok (vecOf (Function.update (Function.update F j (F j + F (j + len))) (j + len)
        (z * (F (j + len) - F j)))) := by
  unfold NttPolynomial.invInner
  have hj : j < 256 := by omega
  have hne : j + len ≠ j := by omega
  have hu : addUsize j len = .ok (j + len) := addUsize_ok (by omega)
  simp only [hu]
  rw [idx_ok _ hj]
  simp only [Res.ok_bind, vecOf_getElem]
  rw [idx_ok _ h]
  simp only [Res.ok_bind, vecOf_getElem, add_ofZ]
  rw [setIdx_ok _ _ hj, vecOf_set _ hj]
  simp only [Res.ok_bind]
  rw [idx_ok _ h]
  simp only [Res.ok_bind, vecOf_getElem, Function.update_of_ne hne, sub_ofZ, mul_ofZ]
  rw [setIdx_ok _ _ h, vecOf_set _ h]

/-- The effect of one inverse layer with `n` blocks of length `2*len` -/
def invLayerF (n len : Nat) (F : Nat → Zq) : Nat → Zq := fun i =>
  if i % (2 * len) < len then F i + F (i + len)
  else zetaZ (2 * n - 1 - i / (2 * len)) * (F i - F (i - len))

theorem invBlock_ok {n len b : Nat} (F : Nat → Zq) (hl : 0 < len) (hn : 2 * len * n = 256)
    (hb : b < n) (hz : 2 * n ≤ 128) :
    NttPolynomial.invBlock len
        (vecOf (fun i => if i < b * (2 * len) then invLayerF n len F i else F i), 2 * n - 1 - b)
        (b * (2 * len))
      = .ok (vecOf (fun i => if i < (b + 1) * (2 * len) then invLayerF n len F i else F i),
          2 * n - 1 - (b + 1)) := by
  set st := b * (2 * len) with hst
  have hst2 : st + 2 * len ≤ 256 := by
    have : (b + 1) * (2 * len) ≤ n * (2 * len) := Nat.mul_le_mul_right _ hb
    rw [Nat.add_mul] at this
    rw [Nat.mul_comm n] at this
    omega
  unfold NttPolynomial.invBlock
  dsimp only
  have hz' : 2 * n - 1 - b < 128 := by omega
  rw [idx_ok _ hz', zeta_table hz']
  simp only [Res.ok_bind]
  rw [decUsize, if_pos (by omega), Res.ok_bind, addUsize_ok (by omega)]
  simp only [Res.ok_bind]
  set z := zetaZ (2 * n - 1 - b) with hzd
  have hdiv : ∀ r, r < 2 * len → (st + r) / (2 * len) = b ∧ (st + r) % (2 * len) = r := by
    intro r hr
    constructor
    · rw [hst, Nat.add_comm, Nat.add_mul_div_right _ _ (by omega), Nat.div_eq_of_lt hr]; omega
    · rw [hst, Nat.add_comm, Nat.add_mul_mod_self_right, Nat.mod_eq_of_lt hr]
  obtain ⟨s', h1, h2⟩ := forEach_range_inv (lo := st) (hi := st + len)
    (init := vecOf (fun i => if i < st then invLayerF n len F i else F i))
    (body := NttPolynomial.invInner (ofZ z) len)
    (fun j s => s = vecOf (fun i =>
      if i < j then invLayerF n len F i
      else if st + len ≤ i ∧ i < j + len then invLayerF n len F i else F i))
    (by omega) (by
      apply vecOf_congr
      intro i _
      by_cases hi : i < st
      · simp [hi]
      · rw [if_neg hi, if_neg hi, if_neg (by omega)])
    (by
      rintro j s hj1 hj2 rfl
      refine ⟨_, invInner_ok z _ (by omega) hl, ?_⟩
      have hA := hdiv (j - st) (by omega)
      have hB := hdiv (j + len - st) (by omega)
      rw [show st + (j - st) = j by omega] at hA
      rw [show st + (j + len - st) = j + len by omega] at hB
      apply vecOf_congr
      intro i hi
      have e1 : ¬ (j < j) := by omega
      have e2 : ¬ (st + len ≤ j ∧ j < j + len) := by omega
      have e3 : ¬ (j + len < j) := by omega
      have e4 : ¬ (st + len ≤ j + len ∧ j + len < j + len) := by omega
      simp only [e1, e2, e3, e4, if_false]
      by_cases hijl : i = j + len
      · subst hijl
        rw [Function.update_self, if_neg (by omega), if_pos (by omega)]
        simp only [invLayerF, hB.1, hB.2]
        rw [if_neg (by omega), show j + len - len = j by omega]
      · rw [Function.update_of_ne hijl]
        by_cases hij : i = j
        · subst hij
          rw [Function.update_self, if_pos (by omega)]
          simp only [invLayerF, hA.1, hA.2]
          rw [if_pos (by omega)]
        · rw [Function.update_of_ne hij]
          by_cases c1 : i < j
          · rw [if_pos c1, if_pos (by omega)]
          · rw [if_neg c1, if_neg (show ¬ i < j + 1 by omega)]
            by_cases c2 : st + len ≤ i ∧ i < j + len
            · rw [if_pos c2, if_pos (by omega)]
            · rw [if_neg c2, if_neg (by omega)])
  rw [h1]
  simp only [Res.ok_bind]
  rw [h2]
  refine ok_pair (vecOf_congr ?_) (by omega)
  intro i _
  have : (b + 1) * (2 * len) = st + 2 * len := by rw [Nat.add_mul]; omega
  rw [this]
  by_cases c : i < st + len
  · rw [if_pos c, if_pos (by omega)]
  · rw [if_neg c]
    by_cases c2 : i < st + 2 * len
    · rw [if_pos (by omega), if_pos c2]
    · rw [if_neg (by omega), if_neg c2]

theorem invLayer_ok {n len : Nat} (F : Nat → Zq) (hl : 0 < len) (hn : 2 * len * n = 256)
    (hz : 2 * n ≤ 128) :
    NttPolynomial.invLayer (vecOf F, 2 * n - 1) len = .ok (vecOf (invLayerF n len F), n - 1) := by
  unfold NttPolynomial.invLayer
  have hle : 2 * len ≤ 256 := hn ▸ Nat.le_mul_of_pos_right _ (Nat.pos_of_ne_zero fun h0 => by simp [h0] at hn)
  rw [mulUsize_ok (by omega), Res.ok_bind, rangeStep_eq (by omega) hn]
  obtain ⟨s', h1, h2⟩ := forEach_list_inv ((List.range n).map (· * (2 * len)))
    (init := (vecOf F, 2 * n - 1)) (body := NttPolynomial.invBlock len)
    (fun b s => s = (vecOf (fun i => if i < b * (2 * len) then invLayerF n len F i else F i),
      2 * n - 1 - b))
    (by
      refine pair_eq (vecOf_congr ?_) (by omega)
      intro i _; simp)
    (by
      rintro b hb s rfl
      simp only [List.length_map, List.length_range] at hb
      simp only [List.getElem_map, List.getElem_range]
      exact ⟨_, invBlock_ok F hl hn hb (by omega), rfl⟩)
  rw [h1, h2]
  simp only [List.length_map, List.length_range]
  refine ok_pair (vecOf_congr ?_) (by omega)
  intro i hi
  rw [if_pos (by rw [Nat.mul_comm]; omega)]

/-- The composition of the seven inverse layers -/
def invF (F : Nat → Zq) : Nat → Zq :=
  invLayerF 1 128 (invLayerF 2 64 (invLayerF 4 32 (invLayerF 8 16 (invLayerF 16 8 (invLayerF 32 4
    (invLayerF 64 2 F))))))

theorem ntt_inverse_loop_ok (F : Nat → Zq) :
    NttPolynomial.ntt_inverse ⟨vecOf F⟩ = .ok ⟨vecOf (fun i => 3303 * invF F i)⟩ := by
  unfold NttPolynomial.ntt_inverse
  simp only [forEach_cons, forEach_nil]
  rw [invLayer_ok (n := 64) _ (by omega) (by omega) (by omega)]
  simp only [Res.ok_bind]
  rw [invLayer_ok (n := 32) _ (by omega) (by omega) (by omega)]
  simp only [Res.ok_bind]
  rw [invLayer_ok (n := 16) _ (by omega) (by omega) (by omega)]
  simp only [Res.ok_bind]
  rw [invLayer_ok (n := 8) _ (by omega) (by omega) (by omega)]
  simp only [Res.ok_bind]
  rw [invLayer_ok (n := 4) _ (by omega) (by omega) (by omega)]
  simp only [Res.ok_bind]
  rw [invLayer_ok (n := 2) _ (by omega) (by omega) (by omega)]
  simp only [Res.ok_bind]
  rw [invLayer_ok (n := 1) _ (by omega) (by omega) (by omega)]
  simp only [Res.ok_bind]
  unfold Polynomial.smul
  have h3303 : (⟨3303⟩ : FieldElement) = ofZ 3303 := by decide
  rw [h3303]
  rw [mapVec_ok (g := fun i : Fin 256 => ofZ (3303 * invF F i.val))]
  · simp only [Res.ok_bind, vecOf]
  · intro i
    simp only [Fin.getElem_fin, vecOf_getElem, mul_ofZ]
    rfl

end MlKem
