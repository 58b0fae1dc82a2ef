import Verif.Spec.Fips203Algorithms
import Verif.Proofs.NttSpec
import Verif.Proofs.Mul
import Verif.Proofs.Bits
import Mathlib.Algebra.BigOperators.Fin
import Mathlib.Tactic.IntervalCases
import Verif.Proofs.Sample
/-! The loops of FIPS 203 compute what Spec/Fips203.lean says. -/
set_option linter.unusedSimpArgs false
namespace Fips203.Alg
open MlKem (Sha3 extend vecOf)
open Finset (range)

/-! ### Loops and lists -/

theorem foldl_inv {σ : Type} (I : Nat → σ → Prop) {f : σ → Nat → σ} {n : Nat} {lo : Nat} {s : σ} (h0 : I lo s)
    (hs : ∀ i s, lo ≤ i → i < lo + n → I i s → I (i + 1) (f s i)) : I (lo + n) ((List.range' lo n).foldl f s) := by
  induction n with
  | zero => exact h0
  | succ n ih =>
    rw [List.range'_1_concat, List.foldl_append]
    exact hs (lo + n) _ (Nat.le_add_right _ _) (by omega) (ih fun i s h1 h2 => hs i s h1 (by omega))

theorem get_set {α : Type} [Inhabited α] (l : List α) (i j : Nat) (x : α) :
    (l.set i x)[j]! = if i = j ∧ i < l.length then x else l[j]! := by
  simp only [List.getElem!_eq_getElem?_getD, List.getElem?_set]
  by_cases h : i = j
  · subst h
    by_cases hi : i < l.length
    · simp [hi]
    · simp [hi]
  · simp [h]

theorem get_ge {α : Type} [Inhabited α] {l : List α} {i : Nat} (h : l.length ≤ i) : l[i]! = default := by
  simp [List.getElem!_eq_getElem?_getD, List.getElem?_eq_none h]

theorem get_replicate_zero {α : Type} [Inhabited α] (n i : Nat) : (List.replicate n (default : α))[i]! = default := by
  simp only [List.getElem!_eq_getElem?_getD, List.getElem?_replicate]
  split <;> rfl

theorem ext_get {α : Type} [Inhabited α] {l l' : List α} (h : l.length = l'.length)
    (hi : ∀ i, i < l.length → l[i]! = l'[i]!) : l = l' := by
  refine List.ext_getElem h fun i h1 h2 => ?_
  have := hi i h1
  rwa [getElem!_pos l i h1, getElem!_pos l' i h2] at this

theorem get_ofFn {α : Type} [Inhabited α] {n : Nat} (g : Fin n → α) {i : Nat} (h : i < n) :
    (List.ofFn g)[i]! = g ⟨i, h⟩ := by
  rw [getElem!_pos _ i (by simpa using h), List.getElem_ofFn]

theorem toNat_decide (x : Nat) : (decide (x % 2 = 1)).toNat = x % 2 := by
  rcases Nat.mod_two_eq_zero_or_one x with h | h <;> rw [h] <;> rfl

/-! ### Bits and bytes -/

theorem bitOf (B : List UInt8) (t : Nat) : (bit B t).toNat = (B[t / 8]!).toNat / 2 ^ (t % 8) % 2 := by
  have : B.getD (t / 8) 0 = B[t / 8]! := by
    rw [List.getElem!_eq_getElem?_getD, List.getD_eq_getElem?_getD]; rfl
  rw [bit, this, Nat.testBit_eq_decide_div_mod_eq, toNat_decide]

theorem bytesToBits_length (B : List UInt8) : (BytesToBits B).length = 8 * B.length ∧
    ∀ t, t < 8 * B.length → (BytesToBits B)[t]! = (bit B t).toNat := by
  have e : BytesToBits B = ((List.range' 0 B.length).foldl (fun st i => (List.range' 0 8).foldl
      (fun st j => (st.1.set i (st.1[i]! / 2), st.2.set (8 * i + j) (st.1[i]! % 2).toNat)) st)
      (B, List.replicate (8 * B.length) 0)).2 := by
    simp only [BytesToBits, Std.Legacy.Range.forIn_eq_forIn_range', Std.Legacy.Range.size, Nat.sub_zero, Nat.add_sub_cancel,
      Nat.div_one, List.forIn_pure_yield_eq_foldl, bind_pure_comp, map_pure, pure_bind, Id.run_pure]
  rw [e]
  have key := foldl_inv (lo := 0) (n := B.length) (s := (B, List.replicate (8 * B.length) 0))
    (f := fun st i => (List.range' 0 8).foldl
      (fun st j => (st.1.set i (st.1[i]! / 2), st.2.set (8 * i + j) (st.1[i]! % 2).toNat)) st)
    (fun i st => st.1.length = B.length ∧ st.2.length = 8 * B.length ∧ (∀ i', i ≤ i' → st.1[i']! = B[i']!) ∧
      ∀ t, t < 8 * i → st.2[t]! = (bit B t).toNat)
    ⟨rfl, List.length_replicate, fun _ _ => rfl, fun t ht => absurd ht (by omega)⟩
    (by
      rintro i st - hi ⟨h1, h2, h3, h4⟩
      have inner := foldl_inv (lo := 0) (n := 8) (s := st)
        (f := fun st j => (st.1.set i (st.1[i]! / 2), st.2.set (8 * i + j) (st.1[i]! % 2).toNat))
        (fun j st => st.1.length = B.length ∧ st.2.length = 8 * B.length ∧ (∀ i', i + 1 ≤ i' → st.1[i']! = B[i']!) ∧
          (st.1[i]!).toNat = (B[i]!).toNat / 2 ^ j ∧ ∀ t, t < 8 * i + j → st.2[t]! = (bit B t).toNat)
        ⟨h1, h2, fun i' hi' => h3 i' (by omega), by rw [h3 i (le_refl _)]; simp, h4⟩
        (by
          rintro j st - hj ⟨g1, g2, g3, g4, g5⟩
          refine ⟨by simpa using g1, by simpa using g2, fun i' hi' => ?_, ?_, fun t ht => ?_⟩
          · rw [get_set, if_neg (by omega)]; exact g3 i' hi'
          · rw [get_set, if_pos ⟨rfl, by omega⟩, UInt8.toNat_div, g4, Nat.pow_succ, ← Nat.div_div_eq_div_mul]; rfl
          · rw [get_set]
            by_cases hti : 8 * i + j = t
            · rw [if_pos ⟨hti, by omega⟩, bitOf, UInt8.toNat_mod, g4, ← hti, show (8 * i + j) / 8 = i by omega,
                show (8 * i + j) % 8 = j by omega]; rfl
            · rw [if_neg fun h => hti h.1]; exact g5 t (by omega))
      obtain ⟨g1, g2, g3, -, g5⟩ := inner
      exact ⟨g1, g2, g3, fun t ht => g5 t (by omega)⟩)
  rw [Nat.zero_add] at key
  exact ⟨key.2.1, key.2.2.2⟩

theorem bytesToBits_get (B : List UInt8) (t : Nat) : (BytesToBits B)[t]! = (bit B t).toNat := by
  by_cases h : t < 8 * B.length
  · exact (bytesToBits_length B).2 t h
  · rw [get_ge (by rw [(bytesToBits_length B).1]; omega), bitOf, get_ge (by omega)]
    show 0 = 0 / _ % 2
    simp

theorem bitsToBytes_eq (b : List Nat) : BitsToBytes b =
    List.ofFn (n := b.length / 8) fun k => UInt8.ofNat (∑ s ∈ range 8, b[8 * k.val + s]! * 2 ^ s) := by
  have e : BitsToBytes b = (List.range' 0 (8 * (b.length / 8))).foldl
      (fun B i => B.set (i / 8) (B[i / 8]! + UInt8.ofNat (b[i]! * 2 ^ (i % 8)))) (List.replicate (b.length / 8) 0) := by
    simp only [BitsToBytes, Std.Legacy.Range.forIn_eq_forIn_range', Std.Legacy.Range.size, Nat.sub_zero, Nat.add_sub_cancel,
      Nat.div_one, List.forIn_pure_yield_eq_foldl, bind_pure_comp, map_pure, pure_bind, Id.run_pure]
  have key := foldl_inv (lo := 0) (n := 8 * (b.length / 8)) (s := List.replicate (b.length / 8) (0 : UInt8))
    (f := fun B i => B.set (i / 8) (B[i / 8]! + UInt8.ofNat (b[i]! * 2 ^ (i % 8))))
    (fun i B => B.length = b.length / 8 ∧ ∀ k, k < b.length / 8 →
      B[k]! = UInt8.ofNat (∑ s ∈ range (min 8 (i - 8 * k)), b[8 * k + s]! * 2 ^ s))
    ⟨List.length_replicate, fun k _ => by
      rw [show min 8 (0 - 8 * k) = 0 by omega, Finset.sum_range_zero]
      exact get_replicate_zero (α := UInt8) _ _⟩
    (by
      rintro i B - hi ⟨h1, h2⟩
      refine ⟨by simpa using h1, fun k hk => ?_⟩
      rw [get_set]
      by_cases hik : i / 8 = k
      · rw [if_pos ⟨hik, by omega⟩, hik, h2 k hk, ← UInt8.ofNat_add, show min 8 (i + 1 - 8 * k) = min 8 (i - 8 * k) + 1 by omega,
          Finset.sum_range_succ, show min 8 (i - 8 * k) = i % 8 by omega, show 8 * k + i % 8 = i by omega]
      · rw [if_neg fun h => hik h.1, h2 k hk]
        rw [show min 8 (i + 1 - 8 * k) = min 8 (i - 8 * k) by omega])
  rw [Nat.zero_add, ← e] at key
  refine ext_get (by rw [key.1, List.length_ofFn]) fun k hk => ?_
  rw [key.1] at hk
  rw [key.2 k hk, get_ofFn _ hk, show min 8 (8 * (b.length / 8) - 8 * k) = 8 by omega]

theorem byteEncode_eq (d : Nat) (F : List Nat) : ByteEncode d F = Fips203.ByteEncode d fun i => F[i.val]! := by
  have e : ByteEncode d F = BitsToBytes ((List.range' 0 256).foldl (fun b i =>
      ((List.range' 0 d).foldl (fun st j =>
        (st.1.set (i * d + j) (st.2 % 2), (st.2 - (st.1.set (i * d + j) (st.2 % 2))[i * d + j]!) / 2))
        (b, F[i]!)).1) (List.replicate (256 * d) 0)) := by
    simp only [ByteEncode, Std.Legacy.Range.forIn_eq_forIn_range', Std.Legacy.Range.size, Nat.sub_zero, Nat.add_sub_cancel,
      Nat.div_one, List.forIn_pure_yield_eq_foldl, bind_pure_comp, map_pure, pure_bind, Id.run_pure]
  have key := foldl_inv (lo := 0) (n := 256) (s := List.replicate (256 * d) 0)
    (f := fun b i => ((List.range' 0 d).foldl (fun st j =>
        (st.1.set (i * d + j) (st.2 % 2), (st.2 - (st.1.set (i * d + j) (st.2 % 2))[i * d + j]!) / 2)) (b, F[i]!)).1)
    (fun i b => b.length = 256 * d ∧ ∀ t, t < i * d → b[t]! = F[t / d]! / 2 ^ (t % d) % 2)
    ⟨List.length_replicate, fun t ht => absurd ht (by omega)⟩
    (by
      rintro i b - hi ⟨h1, h2⟩
      have inner := foldl_inv (lo := 0) (n := d) (s := (b, F[i]!))
        (f := fun st j => (st.1.set (i * d + j) (st.2 % 2), (st.2 - (st.1.set (i * d + j) (st.2 % 2))[i * d + j]!) / 2))
        (fun j st => st.1.length = 256 * d ∧ st.2 = F[i]! / 2 ^ j ∧
          ∀ t, t < i * d + j → st.1[t]! = F[t / d]! / 2 ^ (t % d) % 2)
        ⟨h1, by simp, h2⟩
        (by
          rintro j st - hj ⟨g1, g2, g3⟩
          have hb : i * d + j < 256 * d := by
            have : (i + 1) * d ≤ 256 * d := Nat.mul_le_mul_right _ (by omega)
            rw [Nat.add_mul] at this; omega
          refine ⟨by simpa using g1, ?_, fun t ht => ?_⟩
          · rw [get_set, if_pos ⟨rfl, by omega⟩, g2, Nat.pow_succ, ← Nat.div_div_eq_div_mul]
            omega
          · rw [get_set]
            by_cases hti : i * d + j = t
            · have hp := MlKem.block_pos (L := d) (b := i) (r := j) (by omega) (by omega)
              rw [Nat.mul_comm, hti] at hp
              rw [if_pos ⟨hti, by omega⟩, g2, hp.1, hp.2]
            · rw [if_neg fun h => hti h.1]; exact g3 t (by omega))
      refine ⟨inner.1, fun t ht => inner.2.2 t ?_⟩
      rw [Nat.add_mul] at ht
      omega)
  rw [Nat.zero_add] at key
  rw [e, bitsToBytes_eq, key.1, show 256 * d / 8 = 32 * d by omega, Fips203.ByteEncode]
  refine congrArg (List.ofFn (n := 32 * d)) (funext fun k => ?_)
  rw [ofBits]
  refine congrArg UInt8.ofNat (Finset.sum_congr rfl fun s hs => ?_)
  have hs' := Finset.mem_range.1 hs
  have hlt : 8 * k.val + s < 256 * d := by have := k.isLt; omega
  have hd : (8 * k.val + s) / d < 256 := Nat.div_lt_of_lt_mul (by omega)
  rw [key.2 _ hlt, Fin.val_ofNat, Nat.mod_eq_of_lt hd, Nat.testBit_eq_decide_div_mod_eq, toNat_decide]

theorem fill_eq {α : Type} [Inhabited α] (n : Nat) (l : List α) (hl : l.length = n) (g : Nat → α) :
    (List.range' 0 n).foldl (fun F i => F.set i (g i)) l = List.ofFn (n := n) fun i => g i.val := by
  have key := foldl_inv (lo := 0) (n := n) (s := l) (f := fun F i => F.set i (g i))
    (fun i F => F.length = n ∧ ∀ t, t < i → F[t]! = g t) ⟨hl, fun t ht => absurd ht (by omega)⟩
    (by
      rintro i F - hi ⟨h1, h2⟩
      refine ⟨by simpa using h1, fun t ht => ?_⟩
      rw [get_set]
      by_cases hti : i = t
      · rw [if_pos ⟨hti, by omega⟩, hti]
      · rw [if_neg fun h => hti h.1]; exact h2 t (by omega))
  rw [Nat.zero_add] at key
  refine ext_get (by rw [key.1, List.length_ofFn]) fun t ht => ?_
  rw [key.1] at ht
  rw [key.2 t ht, get_ofFn _ ht]

theorem byteDecode_eq {d : Nat} (hd : d ≤ 12) (B : List UInt8) : ByteDecode d B = List.ofFn (Fips203.ByteDecode d B) := by
  have e : ByteDecode d B = (List.range' 0 256).foldl (fun F i => F.set i ((∑ j ∈ range d, (BytesToBits B)[i * d + j]! * 2 ^ j) %
      if d < 12 then 2 ^ d else q)) (List.replicate 256 0) := by
    unfold ByteDecode
    simp only [Std.Legacy.Range.forIn_eq_forIn_range', Std.Legacy.Range.size, Nat.sub_zero, Nat.add_sub_cancel,
      Nat.div_one, List.forIn_pure_yield_eq_foldl, bind_pure_comp, map_pure, pure_bind, Id.run_pure]
  rw [e, fill_eq 256 _ List.length_replicate]
  refine congrArg List.ofFn (funext fun i => ?_)
  rw [Fips203.ByteDecode, ofBits]
  congr 1
  · exact Finset.sum_congr rfl fun j _ => by rw [bytesToBits_get]
  · by_cases h : d < 12
    · rw [if_pos h, if_neg (by omega)]
    · rw [if_neg h, if_pos (by omega)]

theorem samplePolyCBD_eq (eta : Nat) (B : List UInt8) : SamplePolyCBD eta B = List.ofFn (Fips203.SamplePolyCBD eta B) := by
  have e : SamplePolyCBD eta B = (List.range' 0 256).foldl (fun (F : List Zq) i => F.set i
      (((∑ j ∈ range eta, (BytesToBits B)[2 * i * eta + j]! : Nat) : Zq) -
        ((∑ j ∈ range eta, (BytesToBits B)[2 * i * eta + eta + j]! : Nat) : Zq))) (List.replicate 256 0) := by
    unfold SamplePolyCBD
    simp only [Std.Legacy.Range.forIn_eq_forIn_range', Std.Legacy.Range.size, Nat.sub_zero, Nat.add_sub_cancel,
      Nat.div_one, List.forIn_pure_yield_eq_foldl, bind_pure_comp, map_pure, pure_bind, Id.run_pure]
  rw [e, fill_eq 256 _ List.length_replicate]
  refine congrArg List.ofFn (funext fun i => ?_)
  rw [Fips203.SamplePolyCBD, Nat.cast_sum, Nat.cast_sum]
  congr 1 <;> exact Finset.sum_congr rfl fun j _ => by rw [bytesToBits_get]

/-! ### The number-theoretic transform -/

/-- A loop of the model that does what a loop of the standard does -/
theorem forEach_sim {ι σ τ : Type} (φ : σ → τ) {f : σ → ι → σ} {body : τ → ι → Rust.Res τ} {xs : List ι}
    (I : Nat → σ → Prop)
    (h : ∀ (i : Nat) (hi : i < xs.length) s, I i s → body (φ s) xs[i] = .ok (φ (f s xs[i])) ∧ I (i + 1) (f s xs[i])) :
    ∀ s, I 0 s → Rust.forEach xs (φ s) body = .ok (φ (xs.foldl f s)) ∧ I xs.length (xs.foldl f s) := by
  induction xs generalizing I with
  | nil => intro s hs; exact ⟨rfl, hs⟩
  | cons x xs ih =>
    intro s hs
    obtain ⟨h1, h2⟩ := h 0 (by simp) s hs
    rw [List.getElem_cons_zero] at h1 h2
    obtain ⟨g1, g2⟩ := ih (fun i s => I (i + 1) s) (fun i hi s hI => h (i + 1) (Nat.succ_lt_succ hi) s hI) (f s x) h2
    rw [Rust.forEach_cons, h1, Rust.Res.ok_bind]
    exact ⟨g1, g2⟩

/-- A list as an array of the model -/
def vecL (l : List Zq) : Vector MlKem.FieldElement 256 := vecOf fun t => l[t]!

theorem vecL_set {l : List Zq} (hl : l.length = 256) {F : Nat → Zq} (hF : ∀ t, t < 256 → F t = l[t]!) {i : Nat} (hi : i < 256)
    (x : Zq) : ∀ t, t < 256 → Function.update F i x t = (l.set i x)[t]! := by
  intro t ht
  rw [get_set]
  by_cases h : i = t
  · subst h; rw [Function.update_self, if_pos ⟨rfl, by omega⟩]
  · rw [Function.update_of_ne (Ne.symm h), if_neg fun h' => h h'.1]; exact hF t ht

section
variable [Rust.Build]

/-- The innermost loop of Algorithm 9 -/
def inner (z : Zq) (len : Nat) (f : List Zq) (j : Nat) : List Zq :=
  (f.set (j + len) (f[j]! - z * f[j + len]!)).set j ((f.set (j + len) (f[j]! - z * f[j + len]!))[j]! + z * f[j + len]!)

theorem inner_sim (z : Zq) {len j : Nat} {l : List Zq} (hl : l.length = 256) (h : j + len < 256) (h0 : 0 < len) :
    MlKem.Polynomial.nttInner (MlKem.FieldElement.ofZ z) len (vecL l) j = .ok (vecL (inner z len l j)) ∧
      (inner z len l j).length = 256 := by
  refine ⟨?_, by simpa [inner] using hl⟩
  rw [vecL, MlKem.nttInner_ok z _ h h0]
  refine congrArg Rust.Res.ok (MlKem.vecOf_congr fun t ht => ?_)
  have h1 := vecL_set hl (F := fun t => l[t]!) (fun _ _ => rfl) h (l[j]! - z * l[j + len]!)
  have h2 := vecL_set (l := l.set (j + len) (l[j]! - z * l[j + len]!)) (by simpa using hl) h1 (i := j) (by omega)
    (l[j]! + z * l[j + len]!) t ht
  rw [h2, inner, get_set l (j + len) j, if_neg (by omega)]

/-- The loop over `start` of Algorithm 9 -/
def block (len : Nat) (st : List Zq × Nat) (start : Nat) : List Zq × Nat :=
  ((List.range' start len).foldl (inner (17 ^ BitRev7 st.2) len) st.1, st.2 + 1)

def vecN (st : List Zq × Nat) : Vector MlKem.FieldElement 256 × Nat := (vecL st.1, st.2)

theorem layer_sim {n len : Nat} (h0 : 0 < len) (hn : 2 * len * n = 256) (hz : 2 * n ≤ 128) (l : List Zq)
    (hl : l.length = 256) :
    MlKem.Polynomial.nttLayer (vecN (l, n)) len =
      .ok (vecN ((List.range' 0 (128 / len) (2 * len)).foldl (block len) (l, n))) ∧
    ((List.range' 0 (128 / len) (2 * len)).foldl (block len) (l, n)).1.length = 256 ∧
    ((List.range' 0 (128 / len) (2 * len)).foldl (block len) (l, n)).2 = 2 * n := by
  have hd : 128 / len = n := by
    rw [show 128 = len * n by have : 2 * len * n = 2 * (len * n) := by ring
                              omega]
    exact Nat.mul_div_cancel_left _ h0
  have hr : Rust.rangeStep 0 256 (2 * len) = List.range' 0 (128 / len) (2 * len) := by
    rw [MlKem.rangeStep_eq (by omega) hn, hd]
    apply List.ext_getElem
    · simp
    · intro i h1 h2
      simp [Nat.mul_comm]
  have hle : 2 * len ≤ 256 := hn ▸ Nat.le_mul_of_pos_right _ (Nat.pos_of_ne_zero fun h0 => by simp [h0] at hn)
  rw [MlKem.Polynomial.nttLayer, Rust.mulUsize_ok (by omega), Rust.Res.ok_bind, hr]
  obtain ⟨h1, h2, h3⟩ := forEach_sim (xs := List.range' 0 (128 / len) (2 * len)) vecN (f := block len)
    (body := MlKem.Polynomial.nttBlock len) (fun b st => st.1.length = 256 ∧ st.2 = n + b) (by
      rintro b hb ⟨f, k⟩ ⟨g1, g2⟩
      dsimp only at g1 g2
      subst g2
      rw [List.length_range', hd] at hb
      have hbn : 2 * len * (b + 1) ≤ 256 := hn ▸ Nat.mul_le_mul_left _ hb
      rw [Nat.mul_add, Nat.mul_one] at hbn
      have hk : n + b < 128 := by omega
      rw [List.getElem_range', Nat.zero_add]
      have := forEach_sim (xs := List.range' (2 * len * b) len) vecL (f := inner (17 ^ BitRev7 (n + b)) len)
        (body := MlKem.Polynomial.nttInner (MlKem.FieldElement.ofZ (17 ^ BitRev7 (n + b))) len)
        (fun _ l => l.length = 256) (by
          intro j hj l hl
          rw [List.length_range'] at hj
          rw [List.getElem_range']
          exact inner_sim _ hl (by omega) h0) f g1
      refine ⟨?_, this.2, ?_⟩
      · unfold MlKem.Polynomial.nttBlock vecN
        dsimp only
        rw [Rust.idx_ok _ hk, MlKem.zeta_table hk, Rust.Res.ok_bind, Rust.addUsize_ok (by omega), Rust.Res.ok_bind,
          Rust.addUsize_ok (by omega)]
        simp only [Rust.Res.ok_bind]
        rw [Rust.range, Nat.add_sub_cancel_left]
        erw [this.1]
        rfl
      · show n + b + 1 = n + (b + 1)
        omega) (l, n) ⟨hl, rfl⟩
  refine ⟨h1, h2, ?_⟩
  rw [h3, List.length_range', hd]
  omega

/-- The innermost loop of Algorithm 10 -/
def invInner (z : Zq) (len : Nat) (f : List Zq) (j : Nat) : List Zq :=
  (f.set j (f[j]! + f[j + len]!)).set (j + len) (z * ((f.set j (f[j]! + f[j + len]!))[j + len]! - f[j]!))

theorem invInner_sim (z : Zq) {len j : Nat} {l : List Zq} (hl : l.length = 256) (h : j + len < 256) (h0 : 0 < len) :
    MlKem.NttPolynomial.invInner (MlKem.FieldElement.ofZ z) len (vecL l) j = .ok (vecL (invInner z len l j)) ∧
      (invInner z len l j).length = 256 := by
  refine ⟨?_, by simpa [invInner] using hl⟩
  rw [vecL, MlKem.invInner_ok z _ h h0]
  refine congrArg Rust.Res.ok (MlKem.vecOf_congr fun t ht => ?_)
  have h1 := vecL_set hl (F := fun t => l[t]!) (fun _ _ => rfl) (i := j) (by omega) (l[j]! + l[j + len]!)
  have h2 := vecL_set (l := l.set j (l[j]! + l[j + len]!)) (by simpa using hl) h1 (i := j + len) h
    (z * (l[j + len]! - l[j]!)) t ht
  rw [h2, invInner, get_set l j (j + len), if_neg (by omega)]

/-- The loop over `start` of Algorithm 10 -/
def invBlock (len : Nat) (st : List Zq × Nat) (start : Nat) : List Zq × Nat :=
  ((List.range' start len).foldl (invInner (17 ^ BitRev7 st.2) len) st.1, st.2 - 1)

theorem invLayer_sim {n len : Nat} (h0 : 0 < len) (hn : 2 * len * n = 256) (hz : 2 * n ≤ 128) (l : List Zq)
    (hl : l.length = 256) :
    MlKem.NttPolynomial.invLayer (vecN (l, 2 * n - 1)) len =
      .ok (vecN ((List.range' 0 (128 / len) (2 * len)).foldl (invBlock len) (l, 2 * n - 1))) ∧
    ((List.range' 0 (128 / len) (2 * len)).foldl (invBlock len) (l, 2 * n - 1)).1.length = 256 ∧
    ((List.range' 0 (128 / len) (2 * len)).foldl (invBlock len) (l, 2 * n - 1)).2 = n - 1 := by
  have hd : 128 / len = n := by
    rw [show 128 = len * n by have : 2 * len * n = 2 * (len * n) := by ring
                              omega]
    exact Nat.mul_div_cancel_left _ h0
  have hr : Rust.rangeStep 0 256 (2 * len) = List.range' 0 (128 / len) (2 * len) := by
    rw [MlKem.rangeStep_eq (by omega) hn, hd]
    apply List.ext_getElem
    · simp
    · intro i h1 h2
      simp [Nat.mul_comm]
  have hle : 2 * len ≤ 256 := hn ▸ Nat.le_mul_of_pos_right _ (Nat.pos_of_ne_zero fun h0 => by simp [h0] at hn)
  rw [MlKem.NttPolynomial.invLayer, Rust.mulUsize_ok (by omega), Rust.Res.ok_bind, hr]
  obtain ⟨h1, h2, h3⟩ := forEach_sim (xs := List.range' 0 (128 / len) (2 * len)) vecN (f := invBlock len)
    (body := MlKem.NttPolynomial.invBlock len) (fun b st => st.1.length = 256 ∧ st.2 = 2 * n - 1 - b) (by
      rintro b hb ⟨f, k⟩ ⟨g1, g2⟩
      dsimp only at g1 g2
      subst g2
      rw [List.length_range', hd] at hb
      have hbn : 2 * len * (b + 1) ≤ 256 := hn ▸ Nat.mul_le_mul_left _ hb
      rw [Nat.mul_add, Nat.mul_one] at hbn
      have hk : 2 * n - 1 - b < 128 := by omega
      rw [List.getElem_range', Nat.zero_add]
      have := forEach_sim (xs := List.range' (2 * len * b) len) vecL (f := invInner (17 ^ BitRev7 (2 * n - 1 - b)) len)
        (body := MlKem.NttPolynomial.invInner (MlKem.FieldElement.ofZ (17 ^ BitRev7 (2 * n - 1 - b))) len)
        (fun _ l => l.length = 256) (by
          intro j hj l hl
          rw [List.length_range'] at hj
          rw [List.getElem_range']
          exact invInner_sim _ hl (by omega) h0) f g1
      refine ⟨?_, this.2, ?_⟩
      · unfold MlKem.NttPolynomial.invBlock vecN
        dsimp only
        rw [Rust.idx_ok _ hk, MlKem.zeta_table hk, Rust.Res.ok_bind, Rust.decUsize, if_pos (by omega), Rust.Res.ok_bind,
          Rust.addUsize_ok (by omega)]
        simp only [Rust.Res.ok_bind]
        rw [Rust.range, Nat.add_sub_cancel_left]
        erw [this.1]
        rfl
      · show 2 * n - 1 - b - 1 = 2 * n - 1 - (b + 1)
        omega) (l, 2 * n - 1) ⟨hl, rfl⟩
  refine ⟨h1, h2, ?_⟩
  rw [h3, List.length_range', hd]
  omega

end

/-- Coefficients in a list -/
def ofPoly (f : Poly) : List Zq := List.ofFn f

theorem ofPoly_length (f : Poly) : (ofPoly f).length = 256 := List.length_ofFn
theorem ofPoly_get (f : Poly) {i : Nat} (h : i < 256) : (ofPoly f)[i]! = f ⟨i, h⟩ := get_ofFn f h

theorem ofPoly_eq (f : Poly) : ofPoly f = List.ofFn f := rfl

attribute [irreducible] ofPoly

theorem vecL_ofPoly (f : Poly) : vecL (ofPoly f) = MlKem.polyVec f := by
  rw [vecL, MlKem.vecOf_eq_polyVec]
  congr 1
  funext i
  exact ofPoly_get f i.isLt

theorem vecL_inj {l l' : List Zq} (h1 : l.length = 256) (h2 : l'.length = 256) (h : vecL l = vecL l') : l = l' :=
  ext_get (by omega) fun i hi => MlKem.vecOf_inj h i (by omega)

theorem NTT_eq (f : Poly) : NTT (ofPoly f) = ofPoly (Fips203.NTT f) := by
  have e : NTT (ofPoly f) = ([128, 64, 32, 16, 8, 4, 2].foldl (fun st len =>
      (List.range' 0 (128 / len) (2 * len)).foldl (block len) st) (ofPoly f, 1)).1 := by
    unfold NTT
    simp only [List.forIn_pure_yield_eq_foldl, bind_pure_comp, map_pure, pure_bind, Id.run_pure]
    rfl
  have : Rust.Build := ⟨true, 64, by decide⟩
  have h0 (x y : Nat) (hxy : x = y) : (ofPoly f).length = 256 ∧ x = y := ⟨ofPoly_length f, hxy⟩
  obtain ⟨h1, h2, -⟩ := forEach_sim (xs := [128, 64, 32, 16, 8, 4, 2]) vecN
    (f := fun st len => (List.range' 0 (128 / len) (2 * len)).foldl (block len) st) (body := MlKem.Polynomial.nttLayer)
    (fun i st => st.1.length = 256 ∧ st.2 = 2 ^ i) (by
      rintro i hi ⟨l, k⟩ ⟨g1, g2⟩
      dsimp only at g1 g2
      subst g2
      have hi' : i < 7 := hi
      interval_cases i
      · exact layer_sim (n := 1) (len := 128) (by omega) (by omega) (by omega) l g1
      · exact layer_sim (n := 2) (len := 64) (by omega) (by omega) (by omega) l g1
      · exact layer_sim (n := 4) (len := 32) (by omega) (by omega) (by omega) l g1
      · exact layer_sim (n := 8) (len := 16) (by omega) (by omega) (by omega) l g1
      · exact layer_sim (n := 16) (len := 8) (by omega) (by omega) (by omega) l g1
      · exact layer_sim (n := 32) (len := 4) (by omega) (by omega) (by omega) l g1
      · exact layer_sim (n := 64) (len := 2) (by omega) (by omega) (by omega) l g1)
    (ofPoly f, 1) (by dsimp only; exact h0 1 (2 ^ 0) (by norm_num))
  generalize ([128, 64, 32, 16, 8, 4, 2].foldl (fun st len =>
      (List.range' 0 (128 / len) (2 * len)).foldl (block len) st) (ofPoly f, 1)) = g at e h1 h2
  have h := MlKem.ntt_ok f
  rw [← vecL_ofPoly, ← vecL_ofPoly, MlKem.Polynomial.ntt] at h
  have h1' : Rust.forEach [128, 64, 32, 16, 8, 4, 2] (vecL (ofPoly f), 1) MlKem.Polynomial.nttLayer =
      .ok (vecL g.1, g.2) := h1
  rw [h1', Rust.Res.ok_bind] at h
  rw [e]
  exact vecL_inj h2 (ofPoly_length _) (MlKem.NttPolynomial.mk.inj (Rust.Res.ok.inj h))

theorem mapVec_mul [Rust.Build] (c : Zq) {l : List Zq} (h2 : l.length = 256) :
    Rust.mapVec (fun x => (MlKem.FieldElement.ofZ c).mul x) (vecL l) = .ok (vecL (l.map (· * c))) := by
  rw [vecL, vecL, MlKem.vecOf.eq_1 (fun n => (l.map (· * c))[n]!)]
  apply Rust.mapVec_ok
  intro i
  rw [Fin.getElem_fin, MlKem.vecOf_getElem, MlKem.FieldElement.mul_ofZ,
    getElem!_pos l _ (by omega), getElem!_pos _ _ (by rw [List.length_map]; omega), List.getElem_map, mul_comm]

theorem ofZ_3303 : (⟨3303⟩ : MlKem.FieldElement) = MlKem.FieldElement.ofZ 3303 := by decide

theorem NTTinv_eq (f : Poly) : NTTinv (ofPoly f) = ofPoly (Fips203.NTTinv f) := by
  have e : NTTinv (ofPoly f) = ([2, 4, 8, 16, 32, 64, 128].foldl (fun st len =>
      (List.range' 0 (128 / len) (2 * len)).foldl (invBlock len) st) (ofPoly f, 127)).1.map (· * 3303) := by
    unfold NTTinv
    simp only [List.forIn_pure_yield_eq_foldl, bind_pure_comp, map_pure, pure_bind, Id.run_pure]
    rfl
  have : Rust.Build := ⟨true, 64, by decide⟩
  have h0 (x y : Nat) (hxy : x = y) : (ofPoly f).length = 256 ∧ x = y := ⟨ofPoly_length f, hxy⟩
  obtain ⟨h1, h2, -⟩ := forEach_sim (xs := [2, 4, 8, 16, 32, 64, 128]) vecN
    (f := fun st len => (List.range' 0 (128 / len) (2 * len)).foldl (invBlock len) st)
    (body := MlKem.NttPolynomial.invLayer)
    (fun i st => st.1.length = 256 ∧ st.2 = 2 ^ (7 - i) - 1) (by
      rintro i hi ⟨l, k⟩ ⟨g1, g2⟩
      dsimp only at g1 g2
      subst g2
      have hi' : i < 7 := hi
      interval_cases i
      · exact invLayer_sim (n := 64) (len := 2) (by omega) (by omega) (by omega) l g1
      · exact invLayer_sim (n := 32) (len := 4) (by omega) (by omega) (by omega) l g1
      · exact invLayer_sim (n := 16) (len := 8) (by omega) (by omega) (by omega) l g1
      · exact invLayer_sim (n := 8) (len := 16) (by omega) (by omega) (by omega) l g1
      · exact invLayer_sim (n := 4) (len := 32) (by omega) (by omega) (by omega) l g1
      · exact invLayer_sim (n := 2) (len := 64) (by omega) (by omega) (by omega) l g1
      · exact invLayer_sim (n := 1) (len := 128) (by omega) (by omega) (by omega) l g1)
    (ofPoly f, 127) (by dsimp only; exact h0 127 (2 ^ (7 - 0) - 1) (by norm_num))
  generalize hg : ([2, 4, 8, 16, 32, 64, 128].foldl (fun st len =>
      (List.range' 0 (128 / len) (2 * len)).foldl (invBlock len) st) (ofPoly f, 127)) = g at e h1 h2
  have h := MlKem.ntt_inverse_ok f
  rw [← vecL_ofPoly, ← vecL_ofPoly, MlKem.NttPolynomial.ntt_inverse] at h
  have h1' : Rust.forEach [2, 4, 8, 16, 32, 64, 128] (vecL (ofPoly f), 127) MlKem.NttPolynomial.invLayer =
      .ok (vecL g.1, g.2) := h1
  rw [h1', Rust.Res.ok_bind] at h
  have h : MlKem.Polynomial.smul ⟨3303⟩ ⟨vecL g.1⟩ = .ok ⟨vecL (ofPoly (Fips203.NTTinv f))⟩ := h
  have hm := mapVec_mul 3303 h2
  rw [MlKem.Polynomial.smul, ofZ_3303, hm,
    Rust.Res.ok_bind] at h
  rw [e]
  exact vecL_inj (by rw [List.length_map]; exact h2) (ofPoly_length _) (MlKem.Polynomial.mk.inj (Rust.Res.ok.inj h))

/-! ### Products -/

theorem multiplyNTTs_eq (f g : Poly) : MultiplyNTTs (ofPoly f) (ofPoly g) = ofPoly (Fips203.MultiplyNTTs f g) := by
  have e : MultiplyNTTs (ofPoly f) (ofPoly g) = (List.range' 0 128).foldl (fun (h : List Zq) i =>
      (h.set (2 * i) ((ofPoly f)[2 * i]! * (ofPoly g)[2 * i]! + (ofPoly f)[2 * i + 1]! * (ofPoly g)[2 * i + 1]! *
        17 ^ (2 * BitRev7 i + 1))).set (2 * i + 1)
        ((ofPoly f)[2 * i]! * (ofPoly g)[2 * i + 1]! + (ofPoly f)[2 * i + 1]! * (ofPoly g)[2 * i]!))
      (List.replicate 256 0) := by
    unfold MultiplyNTTs
    simp only [Std.Legacy.Range.forIn_eq_forIn_range', Std.Legacy.Range.size, Nat.sub_zero, Nat.add_sub_cancel,
      Nat.div_one, List.forIn_pure_yield_eq_foldl, bind_pure_comp, map_pure, pure_bind, Id.run_pure, BaseCaseMultiply]
  have key := foldl_inv (lo := 0) (n := 128) (s := List.replicate 256 (0 : Zq)) (f := fun (h : List Zq) i =>
      (h.set (2 * i) ((ofPoly f)[2 * i]! * (ofPoly g)[2 * i]! + (ofPoly f)[2 * i + 1]! * (ofPoly g)[2 * i + 1]! *
        17 ^ (2 * BitRev7 i + 1))).set (2 * i + 1)
        ((ofPoly f)[2 * i]! * (ofPoly g)[2 * i + 1]! + (ofPoly f)[2 * i + 1]! * (ofPoly g)[2 * i]!))
    (fun i h => h.length = 256 ∧ ∀ t (ht : t < 256), t < 2 * i → h[t]! = Fips203.MultiplyNTTs f g ⟨t, ht⟩)
    ⟨List.length_replicate, fun t _ ht => absurd ht (by omega)⟩
    (by
      rintro i h - hi ⟨h1, h2⟩
      refine ⟨by simpa using h1, fun t ht hti => ?_⟩
      rw [get_set, get_set, List.length_set, h1, ofPoly_get f (show 2 * i < 256 by omega),
        ofPoly_get f (show 2 * i + 1 < 256 by omega), ofPoly_get g (show 2 * i < 256 by omega),
        ofPoly_get g (show 2 * i + 1 < 256 by omega)]
      by_cases hb : 2 * i + 1 = t
      · subst hb
        have e1 : (2 * i + 1) / 2 = i := by omega
        have e2 : ¬ (2 * i + 1) % 2 = 0 := by omega
        rw [if_pos ⟨rfl, by omega⟩, Fips203.MultiplyNTTs]
        simp only [e1, if_neg e2]
      · rw [if_neg fun h => hb h.1]
        by_cases ha : 2 * i = t
        · subst ha
          have e1 : 2 * i / 2 = i := by omega
          have e2 : 2 * i % 2 = 0 := by omega
          rw [if_pos ⟨rfl, by omega⟩, Fips203.MultiplyNTTs]
          simp only [e1, if_pos e2, gamma]
        · rw [if_neg fun h => ha h.1]
          exact h2 t ht (by omega))
  rw [Nat.zero_add, ← e] at key
  refine ext_get (by rw [key.1, ofPoly_length]) fun t ht => ?_
  rw [key.1] at ht
  rw [key.2 t ht (by omega), ofPoly_get _ ht]

/-! ### Rejection sampling -/

section
variable (S : Sha3) (B : List UInt8)

/-- The candidates before `m` that are accepted -/
def accepted (m : Nat) : Nat := Nat.count (fun n => candidate (S.shake128 B) n < 3329) m

/-- What the loop of Algorithm 7 has done after `n` rounds -/
structure Sampled (n : Nat) (st : Ctx × List Zq × Nat) : Prop where
  ctx : st.1 = ⟨B, 3 * n⟩
  len : st.2.1.length = 256
  j : st.2.2 = min 256 (accepted S B (2 * n))
  a : ∀ t, t < st.2.2 → st.2.1[t]! = (candidate (S.shake128 B) (Nat.nth (fun n => candidate (S.shake128 B) n < 3329) t) : Zq)

/-- One candidate -/
def one (aj : List Zq × Nat) (c : Nat) : List Zq × Nat :=
  if c < 3329 ∧ aj.2 < 256 then (aj.1.set aj.2 (c : Zq), aj.2 + 1) else aj

theorem sampled_one {m : Nat} {aj : List Zq × Nat} (hl : aj.1.length = 256) (hj : aj.2 = min 256 (accepted S B m))
    (ha : ∀ t, t < aj.2 →
      aj.1[t]! = (candidate (S.shake128 B) (Nat.nth (fun n => candidate (S.shake128 B) n < 3329) t) : Zq)) :
    (one aj (candidate (S.shake128 B) m)).1.length = 256 ∧
    (one aj (candidate (S.shake128 B) m)).2 = min 256 (accepted S B (m + 1)) ∧
    ∀ t, t < (one aj (candidate (S.shake128 B) m)).2 → (one aj (candidate (S.shake128 B) m)).1[t]! =
      (candidate (S.shake128 B) (Nat.nth (fun n => candidate (S.shake128 B) n < 3329) t) : Zq) := by
  obtain ⟨a, j⟩ := aj
  dsimp only at hl hj ha
  have hs : accepted S B (m + 1) = accepted S B m + if candidate (S.shake128 B) m < 3329 then 1 else 0 :=
    Nat.count_succ _ _
  by_cases hc : candidate (S.shake128 B) m < 3329 ∧ j < 256
  · rw [show one (a, j) (candidate (S.shake128 B) m) = (a.set j (candidate (S.shake128 B) m : Zq), j + 1) from if_pos hc]
    rw [if_pos hc.1] at hs
    have hj' : j = accepted S B m := by omega
    refine ⟨by simpa using hl, by dsimp only; omega, fun t ht => ?_⟩
    dsimp only at ht ⊢
    rw [get_set]
    by_cases hjt : j = t
    · rw [if_pos ⟨hjt, by omega⟩, ← hjt, hj', accepted,
        Nat.nth_count (p := fun n => candidate (S.shake128 B) n < 3329) hc.1]
    · rw [if_neg fun h => hjt h.1]; exact ha t (by omega)
  · rw [show one (a, j) (candidate (S.shake128 B) m) = (a, j) from if_neg hc]
    refine ⟨hl, ?_, ha⟩
    dsimp only
    by_cases h1 : candidate (S.shake128 B) m < 3329
    · rw [if_pos h1] at hs; omega
    · rw [if_neg h1] at hs; omega

theorem sampleBody_eq (n : Nat) (a : List Zq) {j : Nat} (hj : j < 256) :
    sampleBody S (⟨B, 3 * n⟩, a, j) = (⟨B, 3 * (n + 1)⟩,
      one (one (a, j) ((S.shake128 B (3 * n)).toNat + 256 * ((S.shake128 B (3 * n + 1)).toNat % 16)))
        ((S.shake128 B (3 * n + 1)).toNat / 16 + 16 * (S.shake128 B (3 * n + 2)).toNat)) := by
  have hC : Ctx.squeeze S ⟨B, 3 * n⟩ 3 = (⟨B, 3 * (n + 1)⟩,
      [S.shake128 B (3 * n), S.shake128 B (3 * n + 1), S.shake128 B (3 * n + 2)]) := rfl
  unfold sampleBody
  dsimp only
  rw [hC]
  generalize h1 : S.shake128 B (3 * n) = b0
  generalize S.shake128 B (3 * n + 1) = b1
  generalize S.shake128 B (3 * n + 2) = b2
  simp only [show ([b0, b1, b2] : List UInt8)[0]! = b0 from rfl, show ([b0, b1, b2] : List UInt8)[1]! = b1 from rfl,
    show ([b0, b1, b2] : List UInt8)[2]! = b2 from rfl]
  generalize b0.toNat + 256 * (b1.toNat % 16) = d1
  generalize b1.toNat / 16 + 16 * b2.toNat = d2
  unfold one
  by_cases hd1 : d1 < 3329
  · by_cases hd2 : d2 < 3329 ∧ j + 1 < 256
    · simp [hd1, hj, hd2]
    · simp [hd1, hj, hd2]
  · by_cases hd2 : d2 < 3329
    · simp [hd1, hj, hd2]
    · simp [hd1, hj, hd2]

theorem Sampled.step {n : Nat} {st : Ctx × List Zq × Nat} (h : Sampled S B n st) (hj : st.2.2 < 256) :
    Sampled S B (n + 1) (sampleBody S st) := by
  obtain ⟨ctx, a, j⟩ := st
  obtain ⟨h1, h2, h3, h4⟩ := h
  dsimp only at h1 h2 h3 h4 hj
  subst h1
  have hc1 : candidate (S.shake128 B) (2 * n) =
      (S.shake128 B (3 * n)).toNat + 256 * ((S.shake128 B (3 * n + 1)).toNat % 16) := by
    simp only [candidate, show 2 * n / 2 = n by omega, show 2 * n % 2 = 0 by omega, if_true]
  have hc2 : candidate (S.shake128 B) (2 * n + 1) =
      (S.shake128 B (3 * n + 1)).toNat / 16 + 16 * (S.shake128 B (3 * n + 2)).toNat := by
    simp only [candidate, show (2 * n + 1) / 2 = n by omega, show ¬ (2 * n + 1) % 2 = 0 by omega, if_false]
  have k1 := sampled_one S B (m := 2 * n) (aj := (a, j)) h2 h3 h4
  have k2 := sampled_one S B (m := 2 * n + 1) k1.1 k1.2.1 k1.2.2
  rw [hc1, hc2] at k2
  rw [sampleBody_eq S B n a hj]
  exact ⟨rfl, k2.1, k2.2.1, k2.2.2⟩

/-- The loop after `n` rounds -/
noncomputable def rounds (n : Nat) : Ctx × List Zq × Nat := (sampleBody S)^[n] (⟨B, 0⟩, List.replicate 256 0, 0)

theorem sampled (n : Nat) (h : ∀ n', n' < n → accepted S B (2 * n') < 256) : Sampled S B n (rounds S B n) := by
  induction n with
  | zero =>
    exact ⟨rfl, List.length_replicate, (show 0 = min 256 (accepted S B 0) by simp [accepted]),
      fun t ht => absurd ht (Nat.not_lt_zero t)⟩
  | succ n ih =>
    have hn := ih fun n' h' => h n' (by omega)
    rw [rounds, Function.iterate_succ_apply']
    refine hn.step S B ?_
    rw [hn.j]
    have := h n (by omega)
    omega

theorem sampleNTT_eq (h : Accepts (S.shake128 B)) : SampleNTT S B = some (ofPoly (Fips203.SampleNTT (S.shake128 B))) := by
  have hex : ∃ n, 256 ≤ accepted S B (2 * n) := by
    obtain ⟨N, hN⟩ := h
    exact ⟨N, hN.trans (Nat.count_monotone _ (by omega))⟩
  have hmin : ∀ n', n' < Nat.find hex → accepted S B (2 * n') < 256 := fun n' h' => by
    have := Nat.find_min hex h'; omega
  have hs := sampled S B (Nat.find hex) hmin
  have hj : (rounds S B (Nat.find hex)).2.2 = 256 := by
    rw [hs.j]; have := Nat.find_spec hex; omega
  have hcond : ∀ n', n' < Nat.find hex → (rounds S B n').2.2 < 256 := fun n' h' => by
    rw [(sampled S B n' fun m hm => hmin m (by omega)).j]; have := hmin n' h'; omega
  have hw : whileDo (fun st : Ctx × List Zq × Nat => decide (st.2.2 < 256)) (sampleBody S)
      (⟨B, 0⟩, List.replicate 256 0, 0) = some (rounds S B (Nat.find hex)) := by
    have hc : ∃ n, decide (((sampleBody S)^[n] (⟨B, 0⟩, List.replicate 256 0, 0)).2.2 < 256) = false :=
      ⟨Nat.find hex, by
        have : ¬ (rounds S B (Nat.find hex)).2.2 < 256 := by omega
        exact decide_eq_false this⟩
    unfold whileDo
    rw [dif_pos hc]
    have : Nat.find hc = Nat.find hex := by
      rw [Nat.find_eq_iff]
      refine ⟨decide_eq_false (show ¬ (rounds S B (Nat.find hex)).2.2 < 256 by omega), fun n' h' => ?_⟩
      intro hf
      exact of_decide_eq_false hf (hcond n' h')
    rw [rounds]
    congr 3
  have hS : SampleNTT S B = (whileDo (fun st : Ctx × List Zq × Nat => decide (st.2.2 < 256)) (sampleBody S)
      (⟨B, 0⟩, List.replicate 256 0, 0)).bind fun st => some st.2.1 := rfl
  rw [hS, hw]
  refine congrArg some (ext_get (by rw [hs.len, ofPoly_length]) fun t ht => ?_)
  rw [hs.len] at ht
  rw [hs.a t (by omega), ofPoly_get _ ht, Fips203.SampleNTT]

theorem sampleNTT_none (h : ¬ Accepts (S.shake128 B)) : SampleNTT S B = none := by
  have hlt : ∀ n, accepted S B (2 * n) < 256 := fun n => by
    by_contra hc
    exact h ⟨2 * n, by simpa [accepted] using hc⟩
  have hw : whileDo (fun st : Ctx × List Zq × Nat => decide (st.2.2 < 256)) (sampleBody S)
      (⟨B, 0⟩, List.replicate 256 0, 0) = none := by
    unfold whileDo
    rw [dif_neg]
    rintro ⟨n, hn⟩
    have h1 : ¬ (rounds S B n).2.2 < 256 := of_decide_eq_false hn
    rw [(sampled S B n fun n' _ => hlt n').j] at h1
    have := hlt n
    omega
  have hS : SampleNTT S B = (whileDo (fun st : Ctx × List Zq × Nat => decide (st.2.2 < 256)) (sampleBody S)
      (⟨B, 0⟩, List.replicate 256 0, 0)).bind fun st => some st.2.1 := rfl
  rw [hS, hw]
  rfl

end

end Fips203.Alg
