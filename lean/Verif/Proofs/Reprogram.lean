import Verif.Spec.MlweUniform
import Verif.Props.Mlwe
import Verif.Props.Hang
/-! Planting a uniform matrix in a random table of SHAKE128 gives a random table. -/
namespace MlKem
open Rust Fips203 Finset BigOperators Fo

/-! ### Sequences of candidates -/

/-- `replaceKept` on functions -/
def repF : {M : Nat} → (Fin M → Fin 4096) → List Zq → Fin M → Fin 4096
  | 0, c, _ => c
  | _ + 1, c, [] => c
  | _ + 1, c, a :: as =>
    if Kept (c 0) then Fin.cons ⟨a.val, by have := ZMod.val_lt a; omega⟩ (repF (Fin.tail c) as)
    else Fin.cons (c 0) (repF (Fin.tail c) (a :: as))

theorem repF_nil {M : Nat} (c : Fin M → Fin 4096) : repF c [] = c := by cases M <;> rfl

theorem repF_kept_cons {M : Nat} {h : Fin 4096} (hk : Kept h) (t : Fin M → Fin 4096) (a : Zq) (as : List Zq) :
    repF (Fin.cons h t : Fin (M + 1) → Fin 4096) (a :: as)
      = Fin.cons ⟨a.val, by have := ZMod.val_lt a; omega⟩ (repF t as) := by
  rw [repF, Fin.cons_zero, if_pos hk, Fin.tail_cons]

theorem repF_rejected_cons {M : Nat} {h : Fin 4096} (hk : ¬ Kept h) (t : Fin M → Fin 4096) (as : List Zq) :
    repF (Fin.cons h t : Fin (M + 1) → Fin 4096) as = Fin.cons h (repF t as) := by
  cases as with
  | nil => rw [repF_nil, repF_nil]
  | cons a as => rw [repF, Fin.cons_zero, if_neg hk, Fin.tail_cons]

theorem repF_list {M : Nat} (c : Fin M → Fin 4096) (as : List Zq) :
    (List.ofFn (repF c as)).map Fin.val = replaceKept ((List.ofFn c).map Fin.val) as := by
  induction M generalizing as with
  | zero => cases as <;> rfl
  | succ M ih =>
    cases as with
    | nil => rw [repF_nil]; cases h : (List.ofFn c).map Fin.val <;> rfl
    | cons a as =>
      rw [repF, List.ofFn_succ (f := c), List.map_cons, replaceKept]
      split
      · rw [List.ofFn_succ, List.map_cons]
        simp only [Fin.cons_zero, Fin.cons_succ, ih]
        rfl
      · rw [List.ofFn_succ, List.map_cons]
        simp only [Fin.cons_zero, Fin.cons_succ, ih]
        rfl

/-- The planted values are read. -/
theorem repF_kept {M : Nat} (c : Fin M → Fin 4096) (as : List Zq) (h : as.length ≤ (keptOf c).length) :
    as.map ZMod.val <+: (keptOf (repF c as)).map Fin.val := by
  induction M generalizing as with
  | zero =>
    cases as with
    | nil => exact List.nil_prefix
    | cons a as => simp [keptOf] at h
  | succ M ih =>
    cases as with
    | nil => exact List.nil_prefix
    | cons a as =>
      rw [← Fin.cons_self_tail c, keptOf_cons] at h
      rw [repF]
      split
      · next hk =>
        rw [if_pos hk] at h
        rw [keptOf_cons, if_pos (show Kept _ from ZMod.val_lt a), List.map_cons, List.map_cons]
        exact List.cons_prefix_cons.2 ⟨rfl, ih _ _ (Nat.le_of_succ_le_succ h)⟩
      · next hk =>
        rw [if_neg hk] at h
        rw [keptOf_cons, if_neg hk]
        exact ih _ _ h

/-- A number below 4096: a uniform number below q, or a rejected one -/
theorem expect_mix (F : Fin 4096 → ℝ) :
    𝔼 a : Fin 4096, (if Kept a then 𝔼 x : Zq, F ⟨x.val, by have := ZMod.val_lt x; omega⟩ else F a) = 𝔼 a, F a := by
  have h1 : ∑ a : Fin 4096, (if Kept a then F a else 0) = ∑ x : Zq, F ⟨x.val, by have := ZMod.val_lt x; omega⟩ := by
    rw [← Finset.sum_filter]
    symm
    refine Finset.sum_bij (fun x _ => ⟨x.val, by have := ZMod.val_lt x; omega⟩) ?_ ?_ ?_ ?_
    · intro x _
      exact Finset.mem_filter.2 ⟨Finset.mem_univ _, ZMod.val_lt x⟩
    · intro x _ y _ h
      exact ZMod.val_injective 3329 (Fin.mk.inj h)
    · intro a ha
      have ha := (Finset.mem_filter.1 ha).2
      refine ⟨(a.val : Zq), Finset.mem_univ _, Fin.ext ?_⟩
      exact ZMod.val_cast_of_lt ha
    · intro x _; rfl
  have hc : (Finset.univ.filter fun a : Fin 4096 => Kept a).card = 3329 := by decide +kernel
  have h2 : ∀ E : ℝ, ∑ a : Fin 4096, (if Kept a then E else 0) = 3329 * E := by
    intro E
    rw [← Finset.sum_filter, Finset.sum_const, hc, nsmul_eq_mul]
    norm_num
  have h3 : ∀ E : Fin 4096 → ℝ, ∑ a : Fin 4096, (if Kept a then E a else F a)
      = ∑ a : Fin 4096, (if Kept a then E a else 0) + ∑ a : Fin 4096, (if Kept a then 0 else F a) := by
    intro E
    rw [← Finset.sum_add_distrib]
    refine Finset.sum_congr rfl fun a _ => ?_
    split <;> simp
  have h4 := h3 F
  simp only [ite_self] at h4
  rw [Fintype.expect_eq_sum_div_card, Fintype.expect_eq_sum_div_card, h3, h2, Fintype.expect_eq_sum_div_card, h4, h1]
  rw [show Fintype.card Zq = 3329 from ZMod.card 3329]
  rw [show ∀ X : ℝ, 3329 * (X / (3329 : Nat)) = X from fun X => by push_cast; ring]

/-- Planting uniform values in uniform candidates gives uniform candidates. -/
theorem expect_rep {M m : Nat} (F : (Fin M → Fin 4096) → ℝ) :
    𝔼 c : Fin M → Fin 4096, 𝔼 a : Fin m → Zq, F (repF c (List.ofFn a)) = 𝔼 c, F c := by
  induction M generalizing m with
  | zero =>
    refine Finset.expect_congr rfl fun c _ => ?_
    exact (Finset.expect_congr rfl fun a _ => rfl).trans (Fintype.expect_const (F c))
  | succ M ih =>
    cases m with
    | zero =>
      refine Finset.expect_congr rfl fun c _ => ?_
      refine (Finset.expect_congr rfl fun a _ => ?_).trans (Fintype.expect_const (F c))
      rw [List.ofFn_zero, repF_nil]
    | succ m =>
      have hc : ∀ {X : Type} [Fintype X] (k : Nat) (f : (Fin (k + 1) → X) → ℝ),
          𝔼 c, f c = 𝔼 a, 𝔼 t : Fin k → X, f (Fin.cons a t) := by
        intro X _ k f
        rw [← expect_prod_type fun x : X × (Fin k → X) => f (Fin.cons x.1 x.2)]
        exact (Fintype.expect_equiv (Fin.consEquiv fun _ => X) _ _ fun x => rfl).symm
      refine (hc M _).trans (Eq.trans ?_ ((expect_mix fun h => 𝔼 t : Fin M → Fin 4096, F (Fin.cons h t)).trans (hc M F).symm))
      refine Finset.expect_congr rfl fun h _ => ?_
      by_cases hk : Kept h
      · rw [if_pos hk]
        refine (Finset.expect_congr rfl fun t _ => hc m _).trans ?_
        rw [Finset.expect_comm]
        refine Finset.expect_congr rfl fun x _ => ?_
        refine (Finset.expect_congr rfl fun t _ => Finset.expect_congr rfl fun as _ => ?_).trans
          (ih (m := m) fun t => F (Fin.cons ⟨x.val, by have := ZMod.val_lt x; omega⟩ t))
        rw [List.ofFn_cons, repF_kept_cons hk]
      · rw [if_neg hk]
        refine (Finset.expect_congr rfl fun t _ => Finset.expect_congr rfl fun as _ => ?_).trans
          (ih (m := m + 1) fun t => F (Fin.cons h t))
        rw [repF_rejected_cons hk]

/-! ### Byte strings -/

theorem candidate_pack (L : List Nat) (N : Nat) (hl : L.length = 2 * N) (h : ∀ x ∈ L, x < 4096) (n : Nat)
    (hn : n < L.length) : candidate (fun i => (packCandidates L).getD i 0) n = L[n] := by
  induction N generalizing L n with
  | zero => omega
  | succ N ih =>
    match L, hl, h, hn with
    | a :: b :: l, hl, h, hn =>
      have ha := h a (by simp)
      have hb := h b (by simp)
      match n, hn with
      | 0, _ =>
        simp only [candidate, packCandidates]
        simp [UInt8.toNat_ofNat']
        omega
      | 1, _ =>
        simp only [candidate, packCandidates]
        simp [UInt8.toNat_ofNat']
        omega
      | n + 2, hn =>
        have := ih l (by simp at hl; omega) (fun x hx => h x (by simp [hx])) n (by simpa using hn)
        rw [List.getElem_cons_succ, List.getElem_cons_succ, ← this]
        unfold candidate
        rw [show 3 * ((n + 2) / 2) = 3 * (n / 2) + 3 by omega, show (n + 2) % 2 = n % 2 by omega]
        rfl

theorem candidates_list {N : Nat} (s : Bytes (3 * N)) :
    (List.range (2 * N)).map (candidate fun i => s.toList.getD i 0) = (List.ofFn (candidatesOf s)).map Fin.val := by
  rw [List.map_ofFn]
  apply List.ext_getElem
  · simp
  · intro i h1 h2
    simp only [List.length_map, List.length_range] at h1
    simp only [List.getElem_map, List.getElem_range, List.getElem_ofFn, Function.comp, candidatesOf]
    refine candidate_padded (fun i => ?_) h1
    rw [List.getD_eq_getElem?_getD, List.getElem?_eq_getElem (by simp), Option.getD_some, Vector.getElem_toList]
    rfl

theorem candidatesOf_pack {N : Nat} (s : Bytes (3 * N)) (as : List Zq) :
    candidatesOf (Fips203.bytes (3 * N) (packCandidates
      (replaceKept ((List.range (2 * N)).map (candidate fun i => s.toList.getD i 0)) as))) = repF (candidatesOf s) as := by
  have hL := repF_list (candidatesOf s) as
  rw [← candidates_list] at hL
  generalize replaceKept ((List.range (2 * N)).map (candidate fun i => s.toList.getD i 0)) as = L at hL
  have hl : L.length = 2 * N := by rw [← hL]; simp
  funext n
  apply Fin.ext
  show candidate (padded (Fips203.bytes (3 * N) (packCandidates L))) n.val = _
  have h := candidate_pack L N hl
    (by rw [← hL]; intro x hx; obtain ⟨a, -, rfl⟩ := List.mem_map.1 hx; exact a.isLt) n.val (by rw [hl]; exact n.isLt)
  rw [← candidate_padded (s := fun i => (packCandidates L).getD i 0) (b := Fips203.bytes (3 * N) (packCandidates L))
    (fun i => ?_) n.isLt, h]
  · simp only [← hL, List.getElem_map, List.getElem_ofFn]
  · unfold Fips203.bytes
    simp

theorem candidatesOf_plant {N : Nat} (s : Bytes (3 * N)) (f : Poly) :
    candidatesOf (plant s f) = repF (candidatesOf s) (List.ofFn f) := candidatesOf_pack s _

/-- Planting a uniform polynomial in a uniform string gives a uniform string. -/
theorem expect_plant {N : Nat} (G : Bytes (3 * N) → ℝ) :
    𝔼 s, 𝔼 f : Poly, G (plant s f) = 𝔼 s, G s := by
  let e := Equiv.ofBijective _ (candidatesOf_bijective N)
  have h := expect_rep (M := 2 * N) (m := 256) fun c => G (e.symm c)
  rw [Fintype.expect_equiv e (fun s => G s) (fun c => G (e.symm c)) fun s => by simp, ← h]
  refine Fintype.expect_equiv e _ _ fun s => Finset.expect_congr rfl fun f _ => ?_
  refine congrArg G (e.injective ?_)
  rw [Equiv.apply_symm_apply]
  exact candidatesOf_plant s f

/-! ### Tables -/

/-- Transforming the values at all points independently -/
theorem expect_pi_map {ι α γ : Type} [Fintype ι] [Fintype α] [Fintype γ] [DecidableEq ι] (r : ι → γ → α)
    (h : ∀ i (G : α → ℝ), 𝔼 x, G (r i x) = 𝔼 a, G a) (Φ : (ι → α) → ℝ) :
    𝔼 f : ι → γ, Φ (fun i => r i (f i)) = 𝔼 g, Φ g := by
  classical
  have e : ∀ f : ι → α, Φ f = ∑ g : ι → α, Φ g * ∏ i, (if f i = g i then (1 : ℝ) else 0) := by
    intro f
    rw [Finset.sum_eq_single f]
    · simp
    · intro g _ hg
      obtain ⟨i, hi⟩ := Function.ne_iff.1 (Ne.symm hg)
      rw [Finset.prod_eq_zero (Finset.mem_univ i) (if_neg hi), mul_zero]
    · intro h; exact absurd (Finset.mem_univ f) h
  rw [Finset.expect_congr rfl fun f _ => e fun i => r i (f i), Finset.expect_congr (s := Finset.univ) rfl fun g _ => e g,
    Finset.expect_sum_comm, Finset.expect_sum_comm]
  refine Finset.sum_congr rfl fun g _ => ?_
  rw [← Finset.mul_expect, ← Finset.mul_expect, expect_pi_prod fun i x => if r i x = g i then (1 : ℝ) else 0,
    expect_pi_prod fun i a => if a = g i then (1 : ℝ) else 0]
  refine congrArg _ (Finset.prod_congr rfl fun i _ => ?_)
  exact h i fun a => if a = g i then (1 : ℝ) else 0

theorem expect_pi_map2 {ι α β : Type} [Fintype ι] [Fintype α] [Fintype β] [DecidableEq ι] (r : ι → α → β → α)
    (h : ∀ i (G : α → ℝ), 𝔼 a, 𝔼 b, G (r i a b) = 𝔼 a, G a) (Φ : (ι → α) → ℝ) :
    𝔼 f : ι → α, 𝔼 g : ι → β, Φ (fun i => r i (f i) (g i)) = 𝔼 f, Φ f := by
  rw [← expect_pi_map (fun i (x : α × β) => r i x.1 x.2) (fun i G => by rw [expect_prod_type]; exact h i G) Φ]
  refine (expect_prod_type fun y : (ι → α) × (ι → β) => Φ fun i => r i (y.1 i) (y.2 i)).symm.trans ?_
  exact Fintype.expect_equiv (Equiv.arrowProdEquivProdArrow ι (fun _ => α) (fun _ => β)).symm _ _ fun y => rfl

theorem expect_curry {κ μ β : Type} [Fintype κ] [Fintype μ] [Fintype β] [DecidableEq κ] [DecidableEq μ]
    (f : (κ → μ → β) → ℝ) : 𝔼 A, f A = 𝔼 A : κ × μ → β, f (Function.curry A) :=
  Fintype.expect_equiv (Equiv.curry κ μ β).symm _ _ fun _ => rfl

theorem xofPoint_eq (x : Bytes 34) : xofPoint (Fips203.bytes 32 x.toList).toList x[33].toNat x[32].toNat = x := by
  apply bytes_ext
  unfold xofPoint
  rw [toList_bytesOf (by simp)]
  unfold Fips203.bytes
  apply List.ext_getElem
  · simp
  · intro i h1 h2
    simp only [List.length_append, Vector.length_toList, List.length_cons, List.length_nil] at h1
    rcases (by omega : i < 32 ∨ i = 32 ∨ i = 33) with hi | rfl | rfl
    · rw [List.getElem_append_left (by simpa using hi)]
      simp [show i < 34 by omega]
    · simp
    · simp

theorem xofPoint_get {rho : B32} {i j : Nat} (hi : i < 256) (hj : j < 256) :
    Fips203.bytes 32 (xofPoint rho.toList i j).toList = rho ∧ (xofPoint rho.toList i j)[32].toNat = j
      ∧ (xofPoint rho.toList i j)[33].toNat = i := by
  have e : (xofPoint rho.toList i j).toList = rho.toList ++ [UInt8.ofNat j, UInt8.ofNat i] := by
    unfold xofPoint
    rw [toList_bytesOf (by simp)]
  refine ⟨?_, ?_, ?_⟩
  · apply Vector.ext
    intro n hn
    unfold Fips203.bytes
    rw [Vector.getElem_ofFn, e, List.getD_eq_getElem?_getD, List.getElem?_append_left (by simpa using hn)]
    simp [hn]
  · rw [← Vector.getElem_toList (xs := xofPoint rho.toList i j) (i := 32) (by simp)]
    simp only [e]
    rw [List.getElem_append_right (by simp)]
    simp [UInt8.toNat_ofNat', Nat.mod_eq_of_lt hj]
  · rw [← Vector.getElem_toList (xs := xofPoint rho.toList i j) (i := 33) (by simp)]
    simp only [e]
    rw [List.getElem_append_right (by simp)]
    simp [UInt8.toNat_ofNat', Nat.mod_eq_of_lt hi]

variable {N k : Nat}

theorem plantTable_point (T : Bytes 34 → Bytes (3 * N)) (rho : B32) (A : Fin k → Fin k → Poly) (hk : k ≤ 255)
    (i j : Fin k) : plantTable T rho A (xofPoint rho.toList i.val j.val) = plant (T (xofPoint rho.toList i.val j.val)) (A i j) := by
  obtain ⟨h1, h2, h3⟩ := xofPoint_get (rho := rho) (i := i.val) (j := j.val) (by omega) (by omega)
  unfold plantTable
  rw [dif_pos ⟨h1, by rw [h2]; exact j.isLt, by rw [h3]; exact i.isLt⟩]
  simp only [h2, h3]

/-- Planting a uniform matrix in a random table gives a random table. -/
theorem expect_plantTable (hk : k ≤ 255) (rho : B32) (Φ : (Bytes 34 → Bytes (3 * N)) → ℝ) :
    𝔼 T, 𝔼 A : Fin k → Fin k → Poly, Φ (plantTable T rho A) = 𝔼 T, Φ T := by
  classical
  have hj : Function.Injective fun t : Fin k × Fin k => xofPoint rho.toList t.1.val t.2.val := by
    rintro ⟨i, j⟩ ⟨i', j'⟩ h
    dsimp only at h
    obtain ⟨-, h2, h3⟩ := xofPoint_get (rho := rho) (i := i.val) (j := j.val) (by omega) (by omega)
    obtain ⟨-, h2', h3'⟩ := xofPoint_get (rho := rho) (i := i'.val) (j := j'.val) (by omega) (by omega)
    rw [h] at h2 h3
    rw [Prod.mk.injEq]
    exact ⟨Fin.ext (h3.symm.trans h3'), Fin.ext (h2.symm.trans h2')⟩
  let r : Bytes 34 → Bytes (3 * N) → Poly → Bytes (3 * N) := fun x s f =>
    if Fips203.bytes 32 x.toList = rho ∧ x[32].toNat < k ∧ x[33].toNat < k then plant s f else s
  have hr : ∀ x (G : Bytes (3 * N) → ℝ), 𝔼 s, 𝔼 f, G (r x s f) = 𝔼 s, G s := by
    intro x G
    by_cases hx : Fips203.bytes 32 x.toList = rho ∧ x[32].toNat < k ∧ x[33].toNat < k
    · simp only [r]
      simp only [if_pos hx]
      exact expect_plant G
    · simp only [r]
      simp only [if_neg hx]
      exact Finset.expect_congr rfl fun s _ => Fintype.expect_const (G s)
  refine Eq.trans (Finset.expect_congr rfl fun T _ => ?_) (expect_pi_map2 r hr Φ)
  refine (expect_curry fun A => Φ (plantTable T rho A)).trans ?_
  refine (expect_comp_injective hj fun A => Φ (plantTable T rho (Function.curry A))).symm.trans ?_
  refine Finset.expect_congr rfl fun A _ => congrArg Φ (funext fun x => ?_)
  unfold plantTable
  by_cases hx : Fips203.bytes 32 x.toList = rho ∧ x[32].toNat < k ∧ x[33].toNat < k
  · have hp := xofPoint_eq x
    rw [hx.1] at hp
    simp only [r]
    rw [dif_pos hx, if_pos hx]
    simp only [Function.curry, Function.comp, hp]
  · simp only [r]
    rw [dif_neg hx, if_neg hx]

/-! ### The matrix -/

/-- `SampleNTT` reads the planted polynomial. -/
theorem sample_plant {b : Bytes (3 * N)} (hb : 256 ≤ (keptOf (candidatesOf b)).length) (f : Poly) {s : Nat → UInt8}
    (hs : ∀ i : Fin (3 * N), s i.val = (plant b f)[i]) : SampleNTT s = f := by
  have hp : ((List.ofFn f).map ZMod.val) <+: keptUpTo s (2 * N) := by
    rw [keptUpTo_padded hs, candidatesOf_plant]
    exact repF_kept _ _ (by rw [List.length_ofFn]; exact hb)
  have hl : 256 ≤ Nat.count (fun n => candidate s n < 3329) (2 * N) := by
    rw [← keptUpTo_length]
    refine le_trans (le_of_eq ?_) hp.length_le
    rw [List.length_map, List.length_ofFn]
  funext i
  unfold SampleNTT
  have hi : i.val < Nat.count (fun n => candidate s n < 3329) (2 * N) := lt_of_lt_of_le i.isLt hl
  have hn : Nat.nth (fun n => candidate s n < 3329) i.val < 2 * N := Nat.nth_lt_of_lt_count hi
  have ha : candidate s (Nat.nth (fun n => candidate s n < 3329) i.val) < 3329 :=
    Nat.nth_mem i.val fun hf => hi.trans_le (Nat.count_le_card hf _)
  have hg := keptUpTo_get s hn ha
  rw [Nat.count_nth fun hf => hi.trans_le (Nat.count_le_card hf _)] at hg
  obtain ⟨t, ht⟩ := hp
  rw [← ht, List.getElem?_append_left (by rw [List.length_map, List.length_ofFn]; exact i.isLt), List.getElem?_map,
    List.getElem?_ofFn, dif_pos i.isLt, Option.map_some] at hg
  rw [← Option.some.inj hg]
  exact ZMod.natCast_rightInverse (f i)

/-- All the streams for `ρ` determine their matrix entry. -/
def Full (k : Nat) (rho : B32) (T : Bytes 34 → Bytes (3 * N)) : Prop :=
  ∀ i j : Fin k, 256 ≤ (keptOf (candidatesOf (T (xofPoint rho.toList i.val j.val)))).length

theorem matA_plant (S : Sha3) {rho : B32} {T : Bytes 34 → Bytes (3 * N)} (hT : Full k rho T) (hk : k ≤ 255)
    (A : Fin k → Fin k → Poly) (i j : Fin k) :
    matA (withXof S (plantTable T rho A)) rho.toList i.val j.val = A i j := by
  refine sample_plant (hT i j) _ fun n => ?_
  rw [withXof_stream S _ (by simp), plantTable_point T rho A hk]

theorem prob_full [Build] (k : Nat) (rho : B32) :
    prob (fun T : Bytes 34 → Bytes (3 * 280) => ¬ Full k rho T) ≤ k ^ 2 * (2 : ℝ) ^ (-261 : ℤ) := by
  have hc : prob (fun b : Bytes (3 * 280) => ¬ ∃ f, Determines b f) ≤ (2 : ℝ) ^ (-261 : ℤ) := by
    refine (ratio_real C53_appendix_b).trans (le_of_eq ?_)
    rw [zpow_neg, Rat.cast_div, Rat.cast_pow]
    simp
  have h1 : ∀ x : Bytes 34, prob (fun T : Bytes 34 → Bytes (3 * 280) => ¬ ∃ f, Determines (T x) f) ≤ (2 : ℝ) ^ (-261 : ℤ) := by
    intro x
    rw [prob_apply x fun b : Bytes (3 * 280) => ¬ ∃ f, Determines b f]
    exact hc
  refine (prob_mono (E' := fun T : Bytes 34 → Bytes (3 * 280) => ∃ t ∈ (List.range k ×ˢ List.range k),
    ¬ ∃ f, Determines (T (xofPoint rho.toList t.1 t.2)) f) ?_).trans
    ((prob_exists_le _ (fun t : Nat × Nat => h1 (xofPoint rho.toList t.1 t.2)) _).trans (le_of_eq ?_))
  · intro T h
    unfold Full at h
    push Not at h
    obtain ⟨i, j, h⟩ := h
    refine ⟨(i.val, j.val), by simp, ?_⟩
    rintro ⟨f, hf⟩
    have := (determines_iff.1 hf).length_le
    rw [asCandidates, List.length_ofFn] at this
    exact absurd this (not_le.2 h)
  · rw [List.length_product, List.length_range]
    push_cast
    ring

/-- A random table with the matrix it expands `ρ` to is, but for a negligible error, a random table in which a
uniform matrix was planted, with this matrix. -/
theorem expect_matrix [Build] (S : Sha3) (hk : k ≤ 255) (rho : B32)
    (F : (Bytes 34 → Bytes (3 * 280)) → (Fin k → Fin k → Poly) → ℝ) (h0 : ∀ T A, 0 ≤ F T A) (h1 : ∀ T A, F T A ≤ 1) :
    |𝔼 T, F T (fun i j => matA (withXof S T) rho.toList i.val j.val)
      - 𝔼 T, 𝔼 A : Fin k → Fin k → Poly, F (plantTable T rho A) A| ≤ k ^ 2 * (2 : ℝ) ^ (-261 : ℤ) := by
  classical
  rw [← expect_plantTable hk rho fun T => F T (fun i j => matA (withXof S T) rho.toList i.val j.val)]
  refine le_trans ?_ (prob_full k rho)
  rw [prob_eq_expect]
  refine abs_expect_sub fun T => ?_
  by_cases hT : Full k rho T
  · rw [if_neg (not_not.2 hT)]
    simp only [matA_plant S hT hk, sub_self, abs_zero, le_refl]
  · rw [if_pos hT]
    have b : ∀ f : (Fin k → Fin k → Poly) → ℝ, (∀ A, 0 ≤ f A) → (∀ A, f A ≤ 1) → 0 ≤ 𝔼 A, f A ∧ 𝔼 A, f A ≤ 1 := fun f h0 h1 =>
      ⟨Finset.expect_nonneg fun A _ => h0 A, (Finset.expect_le_expect fun A _ => h1 A).trans (le_of_eq (Fintype.expect_const 1))⟩
    have b1 := b _ (fun A => h0 (plantTable T rho A) fun i j => matA (withXof S (plantTable T rho A)) rho.toList i.val j.val)
      fun A => h1 _ _
    have b2 := b _ (fun A => h0 (plantTable T rho A) A) fun A => h1 _ _
    rw [abs_le]
    constructor <;> linarith [b1.1, b1.2, b2.1, b2.2]

end MlKem
