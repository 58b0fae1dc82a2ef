import Verif.Proofs.Sample
import Mathlib.Data.Fintype.BigOperators
import Mathlib.SetTheory.Cardinal.Finite
import Mathlib.Data.Nat.Choose.Sum
/-! Counting byte strings: lemmas for the distributions of the samplers. -/
namespace MlKem
open Rust Fips203

/-! ### Byte strings and bits -/

/-- A vector is the function of its entries. -/
def vecEquiv (α : Type) (n : Nat) : Vector α n ≃ (Fin n → α) where
  toFun v i := v[i]
  invFun f := Vector.ofFn f
  left_inv v := by apply Vector.ext; intro i hi; simp
  right_inv f := by funext i; simp

/-- A byte is a number below 256. -/
def u8Equiv : UInt8 ≃ Fin 256 where
  toFun := UInt8.toFin
  invFun := UInt8.ofFin
  left_inv _ := rfl
  right_inv _ := rfl

instance : Finite UInt8 := Finite.of_equiv _ u8Equiv.symm
instance (n : Nat) : Finite (Bytes n) := Finite.of_equiv _ (vecEquiv UInt8 n).symm

theorem card_bytes (n : Nat) : Nat.card (Bytes n) = 256 ^ n := by
  rw [Nat.card_congr (vecEquiv UInt8 n), Nat.card_congr (Equiv.piCongrRight fun _ => u8Equiv)]
  simp

/-- The bits of a byte string, in 256 groups of `e` -/
def bitGroups {n : Nat} (e : Nat) (b : Bytes n) : Fin 256 → Fin e → Bool :=
  fun i j => bit b.toList (i.val * e + j.val)

theorem bitGroups_bijective {n e : Nat} (h : 8 * n = 256 * e) :
    Function.Bijective (bitGroups (n := n) e) := by
  refine Function.Injective.bijective_of_nat_card_le ?_ ?_
  · intro a b hab
    have hb : ∀ t, t < 8 * n → bit a.toList t = bit b.toList t := by
      intro t ht
      have he : 0 < e := by
        rcases Nat.eq_zero_or_pos e with rfl | h'
        · omega
        · exact h'
      have h1 : t / e < 256 := Nat.div_lt_of_lt_mul (by rw [Nat.mul_comm, ← h]; exact ht)
      have h2 := congrFun (congrFun hab ⟨t / e, h1⟩) ⟨t % e, Nat.mod_lt _ he⟩
      simp only [bitGroups] at h2
      rwa [Nat.div_add_mod'] at h2
    apply Vector.ext
    intro i hi
    apply u8_ext
    intro s hs
    have := hb (8 * i + s) (by omega)
    unfold bit at this
    rw [show (8 * i + s) / 8 = i by omega, show (8 * i + s) % 8 = s by omega] at this
    simpa [List.getD_eq_getElem?_getD, hi] using this
  · rw [card_bytes]
    have h1 : Nat.card (Fin 256 → Fin e → Bool) = 2 ^ (256 * e) := by
      simp [Nat.card_eq_fintype_card, ← pow_mul, Nat.mul_comm]
    rw [h1, ← h, show (256 : Nat) = 2 ^ 8 by norm_num, ← pow_mul]

/-- Choosing the groups independently -/
theorem card_groups {n e : Nat} (h : 8 * n = 256 * e) (Q : Fin 256 → (Fin e → Bool) → Prop) :
    Nat.card {b : Bytes n // ∀ i, Q i (bitGroups e b i)} = ∏ i, Nat.card {x : Fin e → Bool // Q i x} := by
  have e : {b : Bytes n // ∀ i, Q i (bitGroups e b i)} ≃ {g : Fin 256 → Fin e → Bool // ∀ i, Q i (g i)} :=
    (Equiv.ofBijective _ (bitGroups_bijective h)).subtypeEquiv fun b => Iff.rfl
  rw [Nat.card_congr e, Nat.card_congr (Equiv.subtypePiEquivPi (p := Q)), Nat.card_pi]

/-! ### Rejection sampling -/

/-- A 12-bit candidate that is kept -/
abbrev Kept (a : Fin 4096) : Prop := a.val < 3329

/-- The kept candidates of a sequence, in order -/
def keptOf {M : Nat} (c : Fin M → Fin 4096) : List (Fin 4096) := (List.ofFn c).filter fun a => Kept a

/-- How many sequences of `M` candidates start with `k` given kept ones -/
def hitCount : Nat → Nat → Nat
  | M, 0 => 4096 ^ M
  | 0, _ + 1 => 0
  | M + 1, k + 1 => 767 * hitCount M (k + 1) + hitCount M k

theorem keptOf_cons {M : Nat} (a : Fin 4096) (c : Fin M → Fin 4096) :
    keptOf (Fin.cons a c : Fin (M + 1) → Fin 4096) = if Kept a then a :: keptOf c else keptOf c := by
  unfold keptOf
  rw [List.ofFn_succ, Fin.cons_zero, List.filter_cons]
  simp only [Fin.cons_succ, decide_eq_true_eq]

theorem rejected_card : (Finset.univ.filter fun a : Fin 4096 => ¬ Kept a).card = 767 := by
  decide +kernel

theorem sum_choice (x : Fin 4096) (hx : Kept x) (X Y : Nat) :
    (∑ a : Fin 4096, if Kept a then (if a = x then Y else 0) else X) = 767 * X + Y := by
  have h : ∀ a : Fin 4096, (if Kept a then (if a = x then Y else 0) else X)
      = (if a = x then Y else 0) + (if ¬ Kept a then X else 0) := by
    intro a
    by_cases h1 : a = x
    · subst h1; simp [hx]
    · by_cases h2 : Kept a <;> simp [h1, h2]
  rw [Finset.sum_congr rfl fun a _ => h a, Finset.sum_add_distrib, Finset.sum_ite_eq' Finset.univ x,
    if_pos (Finset.mem_univ _), ← Finset.sum_filter, Finset.sum_const, rejected_card, smul_eq_mul,
    Nat.add_comm]

theorem card_hits (M : Nat) (L : List (Fin 4096)) (hL : ∀ x ∈ L, Kept x) :
    (Finset.univ.filter fun c : Fin M → Fin 4096 => L <+: keptOf c).card = hitCount M L.length := by
  induction M generalizing L with
  | zero =>
    cases L with
    | nil => simp [hitCount]
    | cons x L =>
      have : ∀ c : Fin 0 → Fin 4096, ¬ (x :: L) <+: keptOf c := by
        intro c h
        simp [keptOf] at h
      simp [hitCount, this]
  | succ M ih =>
    cases L with
    | nil => simp [hitCount]
    | cons x L =>
      have hx : Kept x := hL x (by simp)
      rw [Finset.card_filter, ← (Fin.consEquiv fun _ => Fin 4096).sum_comp, Fintype.sum_prod_type]
      have h : ∀ a : Fin 4096, (∑ c : Fin M → Fin 4096,
          if (x :: L) <+: keptOf (Fin.consEquiv (fun _ => Fin 4096) (a, c)) then 1 else 0)
          = if Kept a then (if a = x then hitCount M L.length else 0)
            else hitCount M (L.length + 1) := by
        intro a
        have e : ∀ c : Fin M → Fin 4096, keptOf (Fin.consEquiv (fun _ => Fin 4096) (a, c))
            = if Kept a then a :: keptOf c else keptOf c := fun c => keptOf_cons a c
        simp only [e]
        by_cases h1 : Kept a
        · simp only [h1, if_true, List.cons_prefix_cons]
          by_cases h2 : a = x
          · subst h2
            simp only [true_and, if_true]
            rw [← Finset.card_filter]
            exact ih L fun y hy => hL y (by simp [hy])
          · rw [if_neg h2]
            simp [Ne.symm h2]
        · simp only [h1, if_false]
          rw [← Finset.card_filter]
          exact ih (x :: L) hL
      rw [Finset.sum_congr rfl fun a _ => h a, sum_choice x hx]
      rfl

/-- All but a `3^k / 2^M` fraction of the sequences hold `k` kept candidates. -/
theorem hitCount_bound (M k : Nat) :
    4096 ^ M * 2 ^ M ≤ 3329 ^ k * hitCount M k * 2 ^ M + 3 ^ k * 4096 ^ M := by
  induction M generalizing k with
  | zero =>
    cases k with
    | zero => simp [hitCount]
    | succ k =>
      have : 1 ≤ 3 ^ (k + 1) := Nat.one_le_pow _ _ (by norm_num)
      simpa [hitCount] using this
  | succ M ih =>
    cases k with
    | zero => simp [hitCount]
    | succ k =>
      have h1 := ih (k + 1)
      have h2 := ih k
      simp only [hitCount, pow_succ] at h1 h2 ⊢
      nlinarith [h1, h2, Nat.zero_le (3 ^ k * 4096 ^ M)]

/-- Sequences of `M` candidates of which fewer than `k` are kept, counted by how many are kept -/
theorem hitCount_exact (M k : Nat) :
    3329 ^ k * hitCount M k + ∑ j ∈ Finset.range k, M.choose j * 3329 ^ j * 767 ^ (M - j) = 4096 ^ M := by
  induction M generalizing k with
  | zero =>
    cases k with
    | zero => simp [hitCount]
    | succ k =>
      rw [Finset.sum_range_succ']
      simp [hitCount]
  | succ M ih =>
    cases k with
    | zero => simp [hitCount]
    | succ k =>
      have h1 := ih (k + 1)
      have h2 := ih k
      rw [Finset.sum_range_succ'] at h1 ⊢
      have e : ∀ j, (M + 1).choose (j + 1) * 3329 ^ (j + 1) * 767 ^ (M + 1 - (j + 1))
          = 3329 * (M.choose j * 3329 ^ j * 767 ^ (M - j))
            + 767 * (M.choose (j + 1) * 3329 ^ (j + 1) * 767 ^ (M - (j + 1))) := by
        intro j
        rw [Nat.choose_succ_succ, Nat.add_sub_add_right]
        rcases Nat.lt_or_ge j M with hj | hj
        · obtain ⟨t, ht⟩ : ∃ t, M - j = t + 1 := ⟨M - j - 1, by omega⟩
          rw [show M - (j + 1) = t by omega, ht]
          ring
        · rw [Nat.choose_eq_zero_of_lt (show M < j + 1 by omega)]
          ring
      simp only [e, Finset.sum_add_distrib, ← Finset.mul_sum]
      simp only [hitCount, Nat.choose_zero_right, pow_zero, Nat.sub_zero, mul_one, one_mul] at h1 ⊢
      generalize ∑ j ∈ Finset.range k, M.choose j * 3329 ^ j * 767 ^ (M - j) = a at *
      generalize ∑ j ∈ Finset.range k, M.choose (j + 1) * 3329 ^ (j + 1) * 767 ^ (M - (j + 1)) = b at *
      generalize hitCount M (k + 1) = x at *
      generalize hitCount M k = y at *
      rw [pow_succ 4096, pow_succ 767, ← h1, pow_succ 3329]
      rw [← h1, pow_succ 3329] at h2
      have h3 : 3329 ^ k * y + a = 3329 ^ k * 3329 * x + (b + 767 ^ M) := h2
      generalize (3329 : Nat) ^ k = u at *
      generalize (767 : Nat) ^ M = v at *
      have h4 : u * 3329 * (767 * x + y) = 767 * (u * 3329 * x) + 3329 * (u * y) := by ring
      rw [h4]
      generalize u * 3329 * x = p at *
      generalize u * y = q at *
      omega

/-- The terms of the sum, each from the one before -/
def tailLoop (M : Nat) : Nat → Nat → Nat → Nat → Nat
  | 0, _, _, acc => acc
  | n + 1, j, t, acc => tailLoop M n (j + 1) (t * (M - j) * 3329 / ((j + 1) * 767)) (acc + t)

theorem tailLoop_eq (M n j acc : Nat) (h : j + n ≤ M) :
    tailLoop M n j (Nat.choose M j * 3329 ^ j * 767 ^ (M - j)) acc
      = acc + ∑ i ∈ Finset.range n, Nat.choose M (j + i) * 3329 ^ (j + i) * 767 ^ (M - (j + i)) := by
  induction n generalizing j acc with
  | zero => simp [tailLoop]
  | succ n ih =>
    rw [tailLoop]
    have e : Nat.choose M j * 3329 ^ j * 767 ^ (M - j) * (M - j) * 3329 / ((j + 1) * 767)
        = Nat.choose M (j + 1) * 3329 ^ (j + 1) * 767 ^ (M - (j + 1)) := by
      obtain ⟨t, ht⟩ : ∃ t, M - j = t + 1 := ⟨M - j - 1, by omega⟩
      have h1 := Nat.choose_succ_right_eq M j
      refine Nat.div_eq_of_eq_mul_right (by positivity) ?_
      rw [show M - (j + 1) = t by omega]
      rw [ht] at h1 ⊢
      calc Nat.choose M j * 3329 ^ j * 767 ^ (t + 1) * (t + 1) * 3329
          = (Nat.choose M j * (t + 1)) * 3329 ^ j * 767 ^ (t + 1) * 3329 := by ring
        _ = (Nat.choose M (j + 1) * (j + 1)) * 3329 ^ j * 767 ^ (t + 1) * 3329 := by rw [h1]
        _ = _ := by ring
    rw [e, ih (j + 1) _ (by omega), Finset.sum_range_succ' _ n]
    simp only [Nat.add_zero]
    have : ∀ i, j + 1 + i = j + (i + 1) := fun i => by omega
    simp only [this]
    ring

theorem tail_value : tailLoop 560 256 0 (767 ^ 560) 0 * 2 ^ 261 ≤ 4096 ^ 560 := by decide +kernel

theorem tail_bound_560 {M : Nat} (hM : M = 560) :
    (∑ j ∈ Finset.range 256, M.choose j * 3329 ^ j * 767 ^ (M - j)) * 2 ^ 261 ≤ 4096 ^ M := by
  subst hM
  have h := tailLoop_eq 560 256 0 0 (by decide)
  simp only [Nat.choose_zero_right, pow_zero, mul_one, one_mul, Nat.sub_zero, Nat.zero_add] at h
  rw [← h]
  exact tail_value
/-- A byte string continued with 0xff, whose candidates are all rejected -/
def padded {n : Nat} (b : Bytes n) : Nat → UInt8 := fun i => if h : i < n then b[i] else 0xff

/-- The `2N` candidates in `3N` bytes -/
def candidatesOf {N : Nat} (b : Bytes (3 * N)) : Fin (2 * N) → Fin 4096 :=
  fun n => ⟨candidate (padded b) n.val, candidate_lt _ _⟩

theorem candidatesOf_bijective (N : Nat) : Function.Bijective (candidatesOf (N := N)) := by
  refine Function.Injective.bijective_of_nat_card_le ?_ ?_
  · intro a b hab
    have hc : ∀ k, k < N → candidate (padded a) (2 * k) = candidate (padded b) (2 * k) ∧
        candidate (padded a) (2 * k + 1) = candidate (padded b) (2 * k + 1) := fun k hk =>
      ⟨congrArg Fin.val (congrFun hab ⟨2 * k, by omega⟩),
        congrArg Fin.val (congrFun hab ⟨2 * k + 1, by omega⟩)⟩
    apply Vector.ext
    intro i hi
    obtain ⟨h0, h1⟩ := hc (i / 3) (by omega)
    unfold candidate at h0 h1
    rw [show 2 * (i / 3) / 2 = i / 3 by omega, if_pos (by omega), if_pos (by omega)] at h0
    rw [show (2 * (i / 3) + 1) / 2 = i / 3 by omega, if_neg (by omega), if_neg (by omega)] at h1
    simp only [padded] at h0 h1
    rw [dif_pos (by omega), dif_pos (by omega), dif_pos (by omega), dif_pos (by omega)] at h0
    rw [dif_pos (by omega), dif_pos (by omega), dif_pos (by omega), dif_pos (by omega)] at h1
    have a0 := (a[3 * (i / 3)]'(by omega)).toNat_lt
    have a1 := (a[3 * (i / 3) + 1]'(by omega)).toNat_lt
    have b0 := (b[3 * (i / 3)]'(by omega)).toNat_lt
    have b1 := (b[3 * (i / 3) + 1]'(by omega)).toNat_lt
    apply UInt8.toNat_inj.1
    have hm : i % 3 < 3 := Nat.mod_lt _ (by decide)
    have hi3 := Nat.div_add_mod i 3
    rcases (by omega : i % 3 = 0 ∨ i % 3 = 1 ∨ i % 3 = 2) with h | h | h
    · have : i = 3 * (i / 3) := by omega
      simp only [← this] at h0 a0 b0
      omega
    · have : i = 3 * (i / 3) + 1 := by omega
      simp only [← this] at h0 h1 a1 b1
      omega
    · have : i = 3 * (i / 3) + 2 := by omega
      simp only [← this] at h1
      omega
  · rw [card_bytes]
    have : Nat.card (Fin (2 * N) → Fin 4096) = 4096 ^ (2 * N) := by simp
    rw [this, show (4096 : Nat) = 2 ^ 12 by norm_num, show (256 : Nat) = 2 ^ 8 by norm_num, ← pow_mul,
      ← pow_mul]
    exact Nat.pow_le_pow_right (by norm_num) (by omega)

theorem card_bytes_hits (N : Nat) (L : List (Fin 4096)) (hL : ∀ x ∈ L, Kept x) :
    Nat.card {b : Bytes (3 * N) // L <+: keptOf (candidatesOf b)} = hitCount (2 * N) L.length := by
  have e : {b : Bytes (3 * N) // L <+: keptOf (candidatesOf b)}
      ≃ {c : Fin (2 * N) → Fin 4096 // L <+: keptOf c} :=
    (Equiv.ofBijective _ (candidatesOf_bijective N)).subtypeEquiv fun b => Iff.rfl
  rw [Nat.card_congr e, Nat.card_eq_fintype_card, Fintype.card_subtype, card_hits _ _ hL]

/-- The kept candidates among the first `M` of a stream -/
def keptUpTo (s : Nat → UInt8) (M : Nat) : List Nat :=
  ((List.range M).map (candidate s)).filter fun a => a < 3329

theorem keptUpTo_succ (s : Nat → UInt8) (M : Nat) :
    keptUpTo s (M + 1) = keptUpTo s M ++ (if candidate s M < 3329 then [candidate s M] else []) := by
  unfold keptUpTo
  rw [List.range_succ, List.map_append, List.filter_append]
  congr 1
  simp only [List.map_cons, List.map_nil, List.filter_cons, List.filter_nil, decide_eq_true_eq]

theorem keptUpTo_length (s : Nat → UInt8) (M : Nat) :
    (keptUpTo s M).length = Nat.count (fun n => candidate s n < 3329) M := by
  induction M with
  | zero => simp [keptUpTo]
  | succ M ih =>
    rw [keptUpTo_succ, List.length_append, ih, Nat.count_succ]
    split <;> rfl

theorem keptUpTo_get (s : Nat → UInt8) {M n : Nat} (hn : n < M) (ha : candidate s n < 3329) :
    (keptUpTo s M)[Nat.count (fun n => candidate s n < 3329) n]? = some (candidate s n) := by
  induction M with
  | zero => omega
  | succ M ih =>
    rw [keptUpTo_succ]
    rcases Nat.lt_succ_iff_lt_or_eq.1 hn with h | h
    · have := ih h
      rw [List.getElem?_append_left (List.getElem?_eq_some_iff.1 this).1, this]
    · subst h
      rw [if_pos ha, List.getElem?_append_right (by rw [keptUpTo_length]), keptUpTo_length,
        Nat.sub_self]
      rfl

theorem candidate_padded {N : Nat} {b : Bytes (3 * N)} {s : Nat → UInt8}
    (hs : ∀ i : Fin (3 * N), s i.val = b[i]) {n : Nat} (hn : n < 2 * N) :
    candidate s n = candidate (padded b) n := by
  have h : ∀ i, i < 3 * N → s i = padded b i := by
    intro i hi
    rw [padded, dif_pos hi]
    exact hs ⟨i, hi⟩
  unfold candidate
  rw [h _ (by omega), h _ (by omega), h _ (by omega)]

theorem keptUpTo_padded {N : Nat} {b : Bytes (3 * N)} {s : Nat → UInt8}
    (hs : ∀ i : Fin (3 * N), s i.val = b[i]) :
    keptUpTo s (2 * N) = (keptOf (candidatesOf b)).map Fin.val := by
  have h : (List.range (2 * N)).map (candidate s) = (List.ofFn (candidatesOf b)).map Fin.val := by
    rw [List.map_ofFn]
    apply List.ext_getElem
    · simp
    · intro i h1 h2
      simp only [List.length_map, List.length_range] at h1
      simp only [List.getElem_map, List.getElem_range, List.getElem_ofFn, Function.comp, candidatesOf]
      exact candidate_padded hs h1
  unfold keptUpTo keptOf
  rw [h, List.filter_map]
  rfl

theorem candidate_beyond {N : Nat} (b : Bytes (3 * N)) {n : Nat} (hn : 2 * N ≤ n) :
    candidate (padded b) n = 4095 := by
  unfold candidate padded
  rw [dif_neg (by omega), dif_neg (by omega), dif_neg (by omega)]
  split <;> rfl

end MlKem
