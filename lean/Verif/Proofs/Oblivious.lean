import Verif.Proofs.Leak
import Verif.Spec.Leakage
import Mathlib.Data.List.Forall2
/-! Two runs side by side: what an observer sees of both is the same. -/
namespace Rust.Leak
variable {O : Type} {v : Event → Option O}

/-- If both runs return, the observer saw the same, and the results are related. -/
def Rel (v : Event → Option O) {α β : Type} (R : α → β → Prop) (x : Leak α) (y : Leak β) : Prop :=
  ∀ a b, x.res = .ok a → y.res = .ok b → seen v x = seen v y ∧ R a b

/-- The results are not compared. -/
abbrev Eqv (v : Event → Option O) {α β : Type} (x : Leak α) (y : Leak β) : Prop := Rel v (fun _ _ => True) x y

variable {α β γ δ ι κ : Type}

theorem seen_bind {x : Leak α} {f : α → Leak β} {a : α} (h : x.res = .ok a) :
    seen v (x >>= f) = seen v x ++ seen v (f a) := by
  show (Leak.bind x f).trace.filterMap v = _
  unfold Leak.bind
  rw [h]
  exact List.filterMap_append ..

theorem Rel.bind {R : α → β → Prop} {S : γ → δ → Prop} {x : Leak α} {y : Leak β} {f : α → Leak γ} {g : β → Leak δ}
    (h : Rel v R x y) (h' : ∀ a b, R a b → Rel v S (f a) (g b)) : Rel v S (x >>= f) (y >>= g) := by
  intro c d hx hy
  rw [res_bind] at hx hy
  obtain ⟨a, ha, hc⟩ := Res.bind_eq_ok.mp hx
  obtain ⟨b, hb, hd⟩ := Res.bind_eq_ok.mp hy
  obtain ⟨h1, hR⟩ := h a b ha hb
  obtain ⟨h2, hS⟩ := h' a b hR c d hc hd
  exact ⟨by rw [seen_bind ha, seen_bind hb, h1, h2], hS⟩

theorem Rel.mono {R S : α → β → Prop} {x : Leak α} {y : Leak β} (h : Rel v R x y) (hs : ∀ a b, R a b → S a b) :
    Rel v S x y := fun a b ha hb => ⟨(h a b ha hb).1, hs _ _ (h a b ha hb).2⟩

theorem Rel.eqv {R : α → β → Prop} {x : Leak α} {y : Leak β} (h : Rel v R x y) : Eqv v x y := h.mono fun _ _ _ => trivial

/-- Results of runs that return may be used. -/
theorem Rel.with_res {R : α → β → Prop} {x : Leak α} {y : Leak β} (h : Rel v R x y) :
    Rel v (fun a b => R a b ∧ x.res = .ok a ∧ y.res = .ok b) x y :=
  fun a b ha hb => ⟨(h a b ha hb).1, (h a b ha hb).2, ha, hb⟩

theorem Rel.op {r : Res α} {s : Res β} {R : α → β → Prop} (h : ∀ a b, r = .ok a → s = .ok b → R a b) :
    Rel v R (op r) (op s) := fun a b ha hb => ⟨rfl, h a b ha hb⟩

theorem Eqv.op (r : Res α) (s : Res β) : Eqv v (op r) (op s) := Rel.op fun _ _ _ _ => trivial

/-- The same operation on both sides -/
theorem Rel.pass {R : β → γ → Prop} (r : Res α) {f : α → Leak β} {g : α → Leak γ} (h : ∀ a, Rel v R (f a) (g a)) :
    Rel v R (Leak.op r >>= f) (Leak.op r >>= g) :=
  Rel.bind (R := fun a b => a = b) (Rel.op fun _ _ ha hb => Res.ok.inj (ha.symm.trans hb)) fun a _ hab => hab ▸ h a

theorem Rel.ok {R : α → β → Prop} {a : α} {b : β} (h : R a b) : Rel v R (Leak.op (.ok a)) (Leak.op (.ok b)) := by
  refine Rel.op fun a' b' ha hb => ?_
  cases ha
  cases hb
  exact h

theorem Eqv.emit {e e' : Event} (h : v e = v e') : Eqv v (emit e) (emit e') := by
  intro _ _ _ _
  refine ⟨?_, trivial⟩
  show List.filterMap v [e] = List.filterMap v [e']
  rw [List.filterMap_cons, List.filterMap_cons, h]

theorem Eqv.bind {S : γ → δ → Prop} {x : Leak α} {y : Leak β} {f : α → Leak γ} {g : β → Leak δ} (h : Eqv v x y)
    (h' : ∀ a b, Rel v S (f a) (g b)) : Rel v S (x >>= f) (y >>= g) := Rel.bind h fun a b _ => h' a b

theorem Rel.emit {S : γ → δ → Prop} {e : Event} {f : Unit → Leak γ} {g : Unit → Leak δ}
    (h' : Rel v S (f ()) (g ())) : Rel v S (Leak.emit e >>= f) (Leak.emit e >>= g) :=
  Eqv.bind (Eqv.emit rfl) fun _ _ => h'

/-- An event whose visibility depends on the operation behind it succeeding -/
theorem Eqv.emit_op {e e' : Event} {r : Res α} {s : Res β} (h : ∀ a b, r = .ok a → s = .ok b → v e = v e') :
    Eqv v (Leak.emit e >>= fun _ => Leak.op r) (Leak.emit e' >>= fun _ => Leak.op s) := by
  intro a b ha hb
  rw [res_bind] at ha hb
  exact (Eqv.bind (Eqv.emit (h a b ha hb)) fun _ _ => Eqv.op r s) a b (by rw [res_bind]; exact ha)
    (by rw [res_bind]; exact hb)

theorem Eqv.idx {m n : Nat} (a : Vector α m) (b : Vector β n) (i : Nat) : Eqv v (Leak.idx a i) (Leak.idx b i) :=
  Rel.emit (Eqv.op _ _)

theorem Eqv.setIdx {m n : Nat} (a : Vector α m) (b : Vector β n) (i : Nat) (x : α) (y : β) :
    Eqv v (Leak.setIdx a i x) (Leak.setIdx b i y) := Rel.emit (Eqv.op _ _)

theorem Eqv.elements {n : Nat} {f : Fin n → Leak α} {g : Fin n → Leak β} (h : ∀ i, Eqv v (f i) (g i)) :
    Eqv v (elements n f) (elements n g) := by
  induction n with
  | zero => exact Eqv.op _ _
  | succ n ih =>
    unfold Leak.elements
    exact Eqv.bind (ih fun i => h _) fun _ _ => Eqv.bind (h _) fun _ _ => Eqv.op _ _

theorem Eqv.tabulate {n : Nat} {f : Fin n → Leak α} {g : Fin n → Leak β} (h : ∀ i, Eqv v (f i) (g i)) :
    Eqv v (tabulate n f) (tabulate n g) := Rel.emit (Eqv.elements h)

theorem Eqv.mapVec {n : Nat} {f : α → Leak γ} {g : β → Leak δ} (h : ∀ a b, Eqv v (f a) (g b)) (x : Vector α n)
    (y : Vector β n) : Eqv v (mapVec f x) (mapVec g y) := Eqv.tabulate fun _ => h _ _

theorem Eqv.zipVec {α' β' : Type} {n : Nat} {f : α → α' → Leak γ} {g : β → β' → Leak δ}
    (h : ∀ a a' b b', Eqv v (f a a') (g b b')) (x : Vector α n) (x' : Vector α' n) (y : Vector β n) (y' : Vector β' n) :
    Eqv v (zipVec f x x') (zipVec g y y') := Eqv.tabulate fun _ => h _ _ _ _

/-- A loop over lists of the same length, with an invariant between the states -/
theorem Rel.forEach {σ τ : Type} {Q : ι → κ → Prop} {R : σ → τ → Prop} {xs : List ι} {ys : List κ}
    (hq : List.Forall₂ Q xs ys) {f : σ → ι → Leak σ} {g : τ → κ → Leak τ}
    (h : ∀ s t x y, R s t → Q x y → Rel v R (f s x) (g t y)) {s : σ} {t : τ} (hs : R s t) :
    Rel v R (forEach xs s f) (forEach ys t g) := by
  unfold Leak.forEach
  rw [hq.length_eq]
  refine Rel.emit ?_
  induction hq generalizing s t with
  | nil => exact Rel.ok hs
  | cons hxy _ ih =>
    unfold iterations
    exact Rel.bind (h _ _ _ _ hs hxy) fun _ _ hr => ih hr

theorem forall₂_refl (xs : List ι) : List.Forall₂ (fun x y => x = y) xs xs := by
  induction xs with
  | nil => exact .nil
  | cons x xs ih => exact .cons rfl ih

/-- A loop over the same list -/
theorem Rel.loop {σ τ : Type} {R : σ → τ → Prop} (xs : List ι) {f : σ → ι → Leak σ} {g : τ → ι → Leak τ}
    (h : ∀ s t x, R s t → Rel v R (f s x) (g t x)) {s : σ} {t : τ} (hs : R s t) :
    Rel v R (Leak.forEach xs s f) (Leak.forEach xs t g) :=
  Rel.forEach (forall₂_refl xs) (fun s t x _ hr hxy => hxy ▸ h s t x hr) hs

theorem Eqv.mapList {Q : ι → κ → Prop} {xs : List ι} {ys : List κ} (hq : List.Forall₂ Q xs ys) {f : ι → Leak γ}
    {g : κ → Leak δ} (h : ∀ x y, Q x y → Eqv v (f x) (g y)) : Eqv v (mapList f xs) (mapList g ys) := by
  unfold Leak.mapList
  rw [hq.length_eq]
  refine Rel.emit ?_
  induction hq with
  | nil => exact Eqv.op _ _
  | cons hxy _ ih =>
    unfold results
    exact Eqv.bind (h _ _ hxy) fun _ _ => Eqv.bind ih fun _ _ => Eqv.op _ _

/-- Lists of the same length, related in no other way -/
theorem forall₂_length : ∀ {xs : List ι} {ys : List κ}, xs.length = ys.length →
    List.Forall₂ (fun _ _ => True) xs ys
  | [], [], _ => .nil
  | x :: xs, y :: ys, h => .cons trivial (forall₂_length (by simpa using h))

end Rust.Leak

namespace MlKem.Leaky
open Rust Rust.Leak

variable [Build] {O : Type} {v : Event → Option O}

section
variable (hr : HidesReduce v)
include hr

theorem small_reduce_eqv (x y : UInt16) : Eqv v (small_reduce x) (small_reduce y) :=
  Eqv.bind (Eqv.emit (hr _ _)) fun _ _ => Eqv.op _ _

theorem barrett_reduce_eqv (x y : UInt32) : Eqv v (barrett_reduce x) (barrett_reduce y) :=
  Eqv.bind (Eqv.op _ _) fun _ _ => Eqv.bind (Eqv.op _ _) fun _ _ => Eqv.bind (Eqv.op _ _) fun _ _ =>
    Eqv.bind (Eqv.op _ _) fun _ _ => Eqv.bind (Eqv.op _ _) fun _ _ => Eqv.bind (Eqv.op _ _) fun _ _ =>
    small_reduce_eqv hr _ _

theorem add_eqv (x y x' y' : FieldElement) : Eqv v (add x y) (add x' y') :=
  Eqv.bind (Eqv.op _ _) fun _ _ => Eqv.bind (small_reduce_eqv hr _ _) fun _ _ => Eqv.op _ _
theorem sub_eqv (x y x' y' : FieldElement) : Eqv v (sub x y) (sub x' y') :=
  Eqv.bind (Eqv.op _ _) fun _ _ => Eqv.bind (Eqv.op _ _) fun _ _ => Eqv.bind (small_reduce_eqv hr _ _) fun _ _ =>
    Eqv.op _ _
theorem mul_eqv (x y x' y' : FieldElement) : Eqv v (mul x y) (mul x' y') :=
  Eqv.bind (Eqv.op _ _) fun _ _ => Eqv.bind (barrett_reduce_eqv hr _ _) fun _ _ => Eqv.op _ _
theorem base_case_multiply_eqv (a0 a1 b0 b1 a0' a1' b0' b1' : FieldElement) (i : Nat) :
    Eqv v (base_case_multiply a0 a1 b0 b1 i) (base_case_multiply a0' a1' b0' b1' i) :=
  Eqv.bind (Eqv.idx _ _ _) fun _ _ => Eqv.bind (Eqv.op _ _) fun _ _ => Eqv.bind (barrett_reduce_eqv hr _ _) fun _ _ =>
    Eqv.bind (Eqv.op _ _) fun _ _ => Eqv.bind (Eqv.op _ _) fun _ _ => Eqv.bind (Eqv.op _ _) fun _ _ =>
    Eqv.bind (barrett_reduce_eqv hr _ _) fun _ _ =>
    Eqv.bind (Eqv.op _ _) fun _ _ => Eqv.bind (Eqv.op _ _) fun _ _ => Eqv.bind (Eqv.op _ _) fun _ _ =>
    Eqv.bind (barrett_reduce_eqv hr _ _) fun _ _ => Eqv.op _ _

theorem polyAdd_eqv (x y x' y' : Polynomial) : Eqv v (polyAdd x y) (polyAdd x' y') :=
  Eqv.bind (Eqv.zipVec (add_eqv hr · · · ·) _ _ _ _) fun _ _ => Eqv.op _ _
theorem polySub_eqv (x y x' y' : Polynomial) : Eqv v (polySub x y) (polySub x' y') :=
  Eqv.bind (Eqv.zipVec (sub_eqv hr · · · ·) _ _ _ _) fun _ _ => Eqv.op _ _
theorem smul_eqv (x x' : FieldElement) (y y' : Polynomial) : Eqv v (smul x y) (smul x' y') :=
  Eqv.bind (Eqv.mapVec (fun _ _ => mul_eqv hr _ _ _ _) _ _) fun _ _ => Eqv.op _ _
theorem nttInner_eqv (z z' : FieldElement) (len : Nat) (f f' : Vector FieldElement 256) (j : Nat) :
    Eqv v (nttInner z len f j) (nttInner z' len f' j) :=
  Rel.pass _ fun _ => Eqv.bind (Eqv.idx _ _ _) fun _ _ => Eqv.bind (mul_eqv hr _ _ _ _) fun _ _ =>
    Rel.pass _ fun _ => Eqv.bind (Eqv.idx _ _ _) fun _ _ =>
    Eqv.bind (sub_eqv hr _ _ _ _) fun _ _ => Eqv.bind (Eqv.setIdx _ _ _ _ _) fun _ _ =>
    Eqv.bind (Eqv.idx _ _ _) fun _ _ => Eqv.bind (add_eqv hr _ _ _ _) fun _ _ => Eqv.setIdx _ _ _ _ _
theorem nttBlock_rel (len : Nat) (st st' : Vector FieldElement 256 × Nat) (start : Nat) (h : st.2 = st'.2) :
    Rel v (fun a b => a.2 = b.2) (nttBlock len st start) (nttBlock len st' start) := by
  obtain ⟨f, k⟩ := st
  obtain ⟨f', k'⟩ := st'
  cases h
  unfold nttBlock
  dsimp only
  refine Eqv.bind (Eqv.idx _ _ _) fun z z' => Rel.pass _ fun _ => Rel.pass _ fun _ => ?_
  refine Eqv.bind (Rel.loop (R := fun _ _ => True) _ (fun f f' j _ => nttInner_eqv hr z z' len f f' j) trivial)
    fun _ _ => ?_
  exact Rel.ok rfl
theorem nttLayer_rel (st st' : Vector FieldElement 256 × Nat) (len : Nat) (h : st.2 = st'.2) :
    Rel v (fun a b => a.2 = b.2) (nttLayer st len) (nttLayer st' len) := by
  unfold nttLayer
  refine Rel.pass _ fun _ => ?_
  exact Rel.loop (R := fun a b => a.2 = b.2) _ (fun s t i hst => nttBlock_rel hr len s t i hst) h
theorem ntt_eqv (x y : Polynomial) : Eqv v (ntt x) (ntt y) := by
  unfold ntt
  have h : Rel v (fun a b => a.2 = b.2) (Leak.forEach [128, 64, 32, 16, 8, 4, 2] (x.coeffs, 1) nttLayer)
      (Leak.forEach [128, 64, 32, 16, 8, 4, 2] (y.coeffs, 1) nttLayer) :=
    Rel.loop (R := fun a b => a.2 = b.2) _ (fun s t l hst => nttLayer_rel hr s t l hst) (Eq.refl 1)
  refine Rel.bind h fun _ _ _ => ?_
  exact Eqv.op _ _
theorem nttAdd_eqv (x y x' y' : NttPolynomial) : Eqv v (nttAdd x y) (nttAdd x' y') :=
  Eqv.bind (Eqv.zipVec (add_eqv hr · · · ·) _ _ _ _) fun _ _ => Eqv.op _ _
theorem mulStep_eqv (x y x' y' : NttPolynomial) (o o' : Vector FieldElement 256) (i : Nat) :
    Eqv v (mulStep x y o i) (mulStep x' y' o' i) :=
  Rel.pass _ fun _ => Eqv.bind (Eqv.idx _ _ _) fun _ _ => Rel.pass _ fun _ => Rel.pass _ fun _ =>
    Eqv.bind (Eqv.idx _ _ _) fun _ _ => Rel.pass _ fun _ => Eqv.bind (Eqv.idx _ _ _) fun _ _ =>
    Rel.pass _ fun _ => Rel.pass _ fun _ => Eqv.bind (Eqv.idx _ _ _) fun _ _ =>
    Eqv.bind (base_case_multiply_eqv hr _ _ _ _ _ _ _ _ _) fun _ _ => Rel.pass _ fun _ =>
    Eqv.bind (Eqv.setIdx _ _ _ _ _) fun _ _ => Rel.pass _ fun _ => Rel.pass _ fun _ => Eqv.setIdx _ _ _ _ _
theorem nttMul_eqv (x y x' y' : NttPolynomial) : Eqv v (nttMul x y) (nttMul x' y') := by
  unfold nttMul
  refine Eqv.bind (Rel.loop (R := fun _ _ => True) _ (fun o o' i _ => mulStep_eqv hr x y x' y' o o' i) trivial)
    fun _ _ => ?_
  exact Eqv.op _ _
theorem invInner_eqv (z z' : FieldElement) (len : Nat) (f f' : Vector FieldElement 256) (j : Nat) :
    Eqv v (invInner z len f j) (invInner z' len f' j) :=
  Eqv.bind (Eqv.idx _ _ _) fun _ _ => Rel.pass _ fun _ => Eqv.bind (Eqv.idx _ _ _) fun _ _ =>
    Eqv.bind (add_eqv hr _ _ _ _) fun _ _ => Eqv.bind (Eqv.setIdx _ _ _ _ _) fun _ _ =>
    Rel.pass _ fun _ => Rel.pass _ fun _ => Eqv.bind (Eqv.idx _ _ _) fun _ _ =>
    Eqv.bind (sub_eqv hr _ _ _ _) fun _ _ => Eqv.bind (mul_eqv hr _ _ _ _) fun _ _ => Eqv.setIdx _ _ _ _ _
theorem invBlock_rel (len : Nat) (st st' : Vector FieldElement 256 × Nat) (start : Nat) (h : st.2 = st'.2) :
    Rel v (fun a b => a.2 = b.2) (invBlock len st start) (invBlock len st' start) := by
  obtain ⟨f, k⟩ := st
  obtain ⟨f', k'⟩ := st'
  cases h
  unfold invBlock
  dsimp only
  refine Eqv.bind (Eqv.idx _ _ _) fun z z' => ?_
  refine Rel.bind (R := fun a b => a = b) (Rel.op fun _ _ ha hb => Res.ok.inj (ha.symm.trans hb)) fun k k' hk => ?_
  refine Rel.pass _ fun _ => Eqv.bind (Rel.loop (R := fun _ _ => True) _ (fun f f' j _ => invInner_eqv hr z z' len f f' j) trivial)
    fun _ _ => ?_
  exact Rel.ok hk
theorem invLayer_rel (st st' : Vector FieldElement 256 × Nat) (len : Nat) (h : st.2 = st'.2) :
    Rel v (fun a b => a.2 = b.2) (invLayer st len) (invLayer st' len) := by
  unfold invLayer
  refine Rel.pass _ fun _ => ?_
  exact Rel.loop (R := fun a b => a.2 = b.2) _ (fun s t i hst => invBlock_rel hr len s t i hst) h
theorem ntt_inverse_eqv (x y : NttPolynomial) : Eqv v (ntt_inverse x) (ntt_inverse y) := by
  unfold ntt_inverse
  have h : Rel v (fun a b => a.2 = b.2) (Leak.forEach [2, 4, 8, 16, 32, 64, 128] (x.coeffs, 127) invLayer)
      (Leak.forEach [2, 4, 8, 16, 32, 64, 128] (y.coeffs, 127) invLayer) :=
    Rel.loop (R := fun a b => a.2 = b.2) _ (fun s t l hst => invLayer_rel hr s t l hst) (Eq.refl 127)
  refine Rel.bind h fun _ _ _ => ?_
  exact smul_eqv hr _ _ _ _
end

/-! ### encode.rs, compress.rs -/

omit [Build] in
/-- Chunks of lists of the same length have the same lengths. -/
theorem chunks_forall₂ {α β : Type} (k : Nat) (xs : List α) (ys : List β) (h : xs.length = ys.length) :
    List.Forall₂ (fun a b => a.length = b.length) (chunks k xs) (chunks k ys) := by
  unfold chunks
  rw [List.forall₂_map_left_iff, List.forall₂_map_right_iff, h]
  refine (forall₂_refl _).imp fun a b hab => ?_
  rw [hab, List.length_take, List.length_take, List.length_drop, List.length_drop, h]

omit [Build] in
theorem forall₂_zip {α β γ δ : Type} {Q : α → β → Prop} {R : γ → δ → Prop} {xs : List α} {ys : List β}
    (h : List.Forall₂ Q xs ys) : ∀ {zs : List γ} {ws : List δ}, List.Forall₂ R zs ws →
    List.Forall₂ (fun a b => Q a.1 b.1 ∧ R a.2 b.2) (xs.zip zs) (ys.zip ws) := by
  induction h with
  | nil => intro _ _ _; exact .nil
  | cons hq _ ih =>
    intro zs ws h'
    cases h' with
    | nil => exact .nil
    | cons hr ht => exact .cons ⟨hq, hr⟩ (ih ht)

theorem packChunk_eqv (D : Nat) (x y : List FieldElement) (h : x.length = y.length) :
    Eqv v (packChunk D x) (packChunk D y) :=
  Rel.forEach (forall₂_length (by simpa using h)) (fun _ _ _ _ _ _ => Eqv.bind (Eqv.op _ _) fun _ _ =>
    Eqv.bind (Eqv.op _ _) fun _ _ => Eqv.op _ _) trivial
theorem encodeChunk_eqv (D : Nat) (x y : List FieldElement) (b c : List UInt8) (h : x.length = y.length) :
    Eqv v (encodeChunk D x b) (encodeChunk D y c) :=
  Eqv.bind (packChunk_eqv D x y h) fun _ _ => Eqv.bind (Eqv.op _ _) fun _ _ => Eqv.op _ _
theorem byte_encode_eqv (D : Nat) (x y : DecodedValue) : Eqv v (byte_encode D x) (byte_encode D y) := by
  unfold byte_encode
  refine Eqv.bind (Eqv.mapList (forall₂_zip (chunks_forall₂ _ _ _ ?_) (forall₂_refl _)) ?_) fun _ _ => Eqv.op _ _
  · rw [Vector.length_toList, Vector.length_toList]
  · intro a b h
    exact encodeChunk_eqv D _ _ _ _ h.1
theorem unpackValue_eqv (D : Nat) (hd : D = 12 → HidesDividend v) (x y : U128) (j : Nat) :
    Eqv v (unpackValue D x j) (unpackValue D y j) := by
  unfold unpackValue
  refine Eqv.bind (Eqv.op _ _) fun _ _ => Eqv.bind (Eqv.op _ _) fun _ _ => Eqv.bind (Eqv.op _ _) fun _ _ =>
    Eqv.bind (Eqv.op _ _) fun _ _ => Eqv.bind (Eqv.op _ _) fun _ _ => ?_
  dsimp only
  split
  next h => exact Eqv.bind (Eqv.emit (hd h _ _ _)) fun _ _ => Eqv.bind (Eqv.op _ _) fun _ _ => Eqv.op _ _
  next => exact Eqv.op _ _
theorem decodeChunk_eqv (D : Nat) (hd : D = 12 → HidesDividend v) (x : List FieldElement) (b c : List UInt8) :
    Eqv v (decodeChunk D x b) (decodeChunk D x c) :=
  Eqv.bind (Eqv.op _ _) fun _ _ => Eqv.bind (Eqv.op _ _) fun _ _ =>
    Eqv.mapList (forall₂_refl _) fun _ _ h => h ▸ unpackValue_eqv D hd _ _ _
theorem byte_decode_eqv (D : Nat) (hd : D = 12 → HidesDividend v) (x y : EncodedPolynomial D) :
    Eqv v (byte_decode D x) (byte_decode D y) := by
  unfold byte_decode
  refine Eqv.bind (Eqv.mapList (forall₂_zip (forall₂_refl _) (chunks_forall₂ _ _ _ ?_)) ?_) fun _ _ => Eqv.op _ _
  · rw [Vector.length_toList, Vector.length_toList]
  · rintro ⟨a, b⟩ ⟨a', b'⟩ ⟨h, -⟩
    dsimp only at h
    rw [h]
    exact decodeChunk_eqv D hd _ _ _
theorem encode_eqv (D : Nat) (x y : Polynomial) : Eqv v (encode D x) (encode D y) := byte_encode_eqv D _ _
theorem decode_eqv (D : Nat) (hd : D = 12 → HidesDividend v) (x y : EncodedPolynomial D) :
    Eqv v (decode D x) (decode D y) := Eqv.bind (byte_decode_eqv D hd _ _) fun _ _ => Eqv.op _ _
theorem nttEncode_eqv (D : Nat) (x y : NttPolynomial) : Eqv v (nttEncode D x) (nttEncode D y) := byte_encode_eqv D _ _
theorem nttDecode_eqv (D : Nat) (hd : D = 12 → HidesDividend v) (x y : EncodedPolynomial D) :
    Eqv v (nttDecode D x) (nttDecode D y) := Eqv.bind (byte_decode_eqv D hd _ _) fun _ _ => Eqv.op _ _
omit [Build] in
theorem unflatten_eqv {D K : Nat} (x y : EncodedPolynomialVector D K) : Eqv v (unflatten x) (unflatten y) :=
  Rel.emit (Eqv.op _ _)
theorem vecEncode_eqv (D : Nat) {K : Nat} (x y : PolynomialVector K) : Eqv v (vecEncode D x) (vecEncode D y) :=
  Eqv.bind (Eqv.mapVec (encode_eqv D) _ _) fun _ _ => Eqv.op _ _
theorem vecDecode_eqv (D : Nat) (hd : D = 12 → HidesDividend v) {K : Nat} (x y : EncodedPolynomialVector D K) :
    Eqv v (vecDecode D x) (vecDecode D y) :=
  Eqv.bind (unflatten_eqv _ _) fun _ _ => Eqv.bind (Eqv.mapVec (decode_eqv D hd) _ _) fun _ _ => Eqv.op _ _
theorem nttVecEncode_eqv (D : Nat) {K : Nat} (x y : NttVector K) : Eqv v (nttVecEncode D x) (nttVecEncode D y) :=
  Eqv.bind (Eqv.mapVec (nttEncode_eqv D) _ _) fun _ _ => Eqv.op _ _
theorem nttVecDecode_eqv (D : Nat) (hd : D = 12 → HidesDividend v) {K : Nat} (x y : EncodedPolynomialVector D K) :
    Eqv v (nttVecDecode D x) (nttVecDecode D y) :=
  Eqv.bind (unflatten_eqv _ _) fun _ _ => Eqv.bind (Eqv.mapVec (nttDecode_eqv D hd) _ _) fun _ _ => Eqv.op _ _
theorem polyCompress_eqv (D : Nat) (x y : Polynomial) : Eqv v (polyCompress D x) (polyCompress D y) :=
  Eqv.bind (Eqv.mapVec (fun _ _ => Eqv.op _ _) _ _) fun _ _ => Eqv.op _ _
theorem polyDecompress_eqv (D : Nat) (x y : Polynomial) : Eqv v (polyDecompress D x) (polyDecompress D y) :=
  Eqv.bind (Eqv.mapVec (fun _ _ => Eqv.op _ _) _ _) fun _ _ => Eqv.op _ _
theorem vecCompress_eqv (D : Nat) {K : Nat} (x y : PolynomialVector K) : Eqv v (vecCompress D x) (vecCompress D y) :=
  Eqv.bind (Eqv.mapVec (polyCompress_eqv D) _ _) fun _ _ => Eqv.op _ _
theorem vecDecompress_eqv (D : Nat) {K : Nat} (x y : PolynomialVector K) :
    Eqv v (vecDecompress D x) (vecDecompress D y) :=
  Eqv.bind (Eqv.mapVec (polyDecompress_eqv D) _ _) fun _ _ => Eqv.op _ _

/-! ### Sampling, vectors -/

section
variable (H : Sha3)

omit [Build] in
theorem G_eqv {l l' : List (List UInt8)} (h : l.flatten.length = l'.flatten.length) : Eqv v (G H l) (G H l') :=
  Eqv.bind (Eqv.emit (by rw [h])) fun _ _ => Eqv.op _ _
omit [Build] in
theorem J_eqv {l l' : List (List UInt8)} (h : l.flatten.length = l'.flatten.length) : Eqv v (J H l) (J H l') :=
  Eqv.bind (Eqv.emit (by rw [h])) fun _ _ => Eqv.op _ _
omit [Build] in
theorem Hash_eqv {l l' : List UInt8} (h : l.length = l'.length) : Eqv v (Hash H l) (Hash H l') :=
  Eqv.bind (Eqv.emit (by rw [h])) fun _ _ => Eqv.op _ _
omit [Build] in
theorem PRF_eqv (Eta : CbdSize) (s s' : B32) (b b' : UInt8) : Eqv v (PRF H Eta s b) (PRF H Eta s' b') :=
  Eqv.bind (Eqv.emit (by rw [List.length_append, List.length_append, Vector.length_toList, Vector.length_toList]; rfl))
    fun _ _ => Eqv.op _ _

omit [Build] in
theorem idx_ok_lt {α : Type} {n : Nat} {a : Vector α n} {i : Nat} {x : α} (h : Rust.idx a i = .ok x) : i < n := by
  unfold Rust.idx at h
  split at h
  · assumption
  · cases h

theorem sample_cbd_eqv (Eta : CbdSize) (he : Eta.SampleSize ≠ 12) (ht : HidesTable v Eta.OnesSize)
    (B B' : EncodedPolynomial Eta.SampleSize) : Eqv v (sample_cbd Eta B) (sample_cbd Eta B') := by
  unfold sample_cbd
  refine Eqv.bind (decode_eqv _ (fun h => absurd h he) _ _) fun _ _ => Eqv.bind (Eqv.mapVec (fun x y => ?_) _ _)
    fun _ _ => Eqv.op _ _
  exact Eqv.emit_op fun _ _ ha hb => ht _ _ (idx_ok_lt ha) (idx_ok_lt hb)

theorem vecSampleCbd_eqv (K : Nat) (Eta : CbdSize) (he : Eta.SampleSize ≠ 12) (ht : HidesTable v Eta.OnesSize)
    (s s' : B32) (n n' : UInt8) : Eqv v (vecSampleCbd H K Eta s n) (vecSampleCbd H K Eta s' n') :=
  Eqv.bind (Eqv.tabulate fun _ => Eqv.bind (Eqv.op _ _) fun _ _ => Eqv.bind (Eqv.op _ _) fun _ _ =>
    Eqv.bind (PRF_eqv H _ _ _ _ _) fun _ _ => sample_cbd_eqv _ he ht _ _) fun _ _ => Eqv.op _ _

/-- The seed of the matrix is public: both runs have the same. -/
theorem sample_matrix_eqv (K : Nat) (rho : B32) (t t' : Bool) :
    Eqv v (sample_matrix H K rho t) (sample_matrix H K rho t') := Rel.emit (Eqv.op _ _)

section
variable (hr : HidesReduce v)
include hr

theorem vecAdd_eqv {K : Nat} (x y x' y' : PolynomialVector K) : Eqv v (vecAdd x y) (vecAdd x' y') :=
  Eqv.bind (Eqv.zipVec (polyAdd_eqv hr · · · ·) _ _ _ _) fun _ _ => Eqv.op _ _
theorem nttVecAdd_eqv {K : Nat} (x y x' y' : NttVector K) : Eqv v (nttVecAdd x y) (nttVecAdd x' y') :=
  Eqv.bind (Eqv.zipVec (nttAdd_eqv hr · · · ·) _ _ _ _) fun _ _ => Eqv.op _ _
theorem dot_eqv {K : Nat} (x y x' y' : NttVector K) : Eqv v (dot x y) (dot x' y') := by
  unfold dot
  refine Rel.forEach (Q := fun _ _ => True) (forall₂_length ?_) (fun _ _ _ _ _ _ =>
    Eqv.bind (nttMul_eqv hr _ _ _ _) fun _ _ => nttAdd_eqv hr _ _ _ _) trivial
  simp only [List.length_zip, Vector.length_toList]
theorem vecNttInverse_eqv {K : Nat} (x y : NttVector K) : Eqv v (vecNttInverse x) (vecNttInverse y) :=
  Eqv.bind (Eqv.mapVec (ntt_inverse_eqv hr) _ _) fun _ _ => Eqv.op _ _
theorem vecNtt_eqv {K : Nat} (x y : PolynomialVector K) : Eqv v (vecNtt x) (vecNtt y) :=
  Eqv.bind (Eqv.mapVec (ntt_eqv hr) _ _) fun _ _ => Eqv.op _ _
theorem mulVec_eqv {K : Nat} (A A' : NttMatrix K) (x x' : NttVector K) : Eqv v (mulVec A x) (mulVec A' x') :=
  Eqv.bind (Eqv.mapVec (fun _ _ => dot_eqv hr _ _ _ _) _ _) fun _ _ => Eqv.op _ _

/-! ### pke.rs, kem.rs -/

variable {P : ParameterSet}

/-- The rows of a parameter set that decide whether an observer sees something -/
structure Fit (v : Event → Option O) (P : ParameterSet) : Prop where
  eta1 : P.Eta1.SampleSize ≠ 12
  eta2 : P.Eta2.SampleSize ≠ 12
  du : P.Du ≠ 12
  dv : P.Dv ≠ 12
  table1 : HidesTable v P.Eta1.OnesSize
  table2 : HidesTable v P.Eta2.OnesSize

variable (hp : Fit v P)
include hp

theorem generate_eqv (d d' : B32) (hrho : (MlKem.G H [d.toList, [UInt8.ofNat P.K]]).1 =
    (MlKem.G H [d'.toList, [UInt8.ofNat P.K]]).1) : Eqv v (generate H P d) (generate H P d') := by
  unfold generate
  refine Rel.bind (R := fun a b => a.1 = b.1) ?_ ?_
  · refine Eqv.bind (Eqv.emit ?_) fun _ _ => Rel.ok hrho
    simp only [List.flatten_cons, List.flatten_nil, List.length_append, Vector.length_toList]
  · rintro ⟨rho, sigma⟩ ⟨rho', sigma'⟩ (h : rho = rho')
    subst h
    exact Eqv.bind (sample_matrix_eqv H _ _ _ _) fun _ _ => Eqv.bind (vecSampleCbd_eqv H _ _ hp.eta1 hp.table1 _ _ _ _) fun _ _ =>
      Eqv.bind (vecSampleCbd_eqv H _ _ hp.eta1 hp.table1 _ _ _ _) fun _ _ => Eqv.bind (vecNtt_eqv hr _ _) fun _ _ =>
      Eqv.bind (vecNtt_eqv hr _ _) fun _ _ => Eqv.bind (mulVec_eqv hr _ _ _ _) fun _ _ =>
      Eqv.bind (nttVecAdd_eqv hr _ _ _ _) fun _ _ => Eqv.op _ _

theorem decrypt_eqv (dk dk' : DecryptionKey P) (c c' : P.EncodedCiphertext) : Eqv v (decrypt dk c) (decrypt dk' c') := by
  unfold decrypt
  refine Eqv.bind (vecDecode_eqv _ (fun h => absurd h hp.du) _ _) fun _ _ => Eqv.bind (vecDecompress_eqv _ _ _) fun _ _ =>
    Eqv.bind (decode_eqv _ (fun h => absurd h hp.dv) _ _) fun _ _ => Eqv.bind (polyDecompress_eqv _ _ _) fun _ _ =>
    Eqv.bind (vecNtt_eqv hr _ _) fun _ _ => Eqv.bind (dot_eqv hr _ _ _ _) fun _ _ =>
    Eqv.bind (ntt_inverse_eqv hr _ _) fun _ _ => Eqv.bind (polySub_eqv hr _ _ _ _) fun _ _ =>
    Eqv.bind (polyCompress_eqv _ _ _) fun x y => ?_
  exact encode_eqv 1 x y

theorem encrypt_eqv (ek ek' : EncryptionKey P) (h : ek.rho = ek'.rho) (m r m' r' : B32) :
    Eqv v (encrypt H ek m r) (encrypt H ek' m' r') := by
  unfold encrypt
  rw [h]
  exact Eqv.bind (vecSampleCbd_eqv H _ _ hp.eta1 hp.table1 _ _ _ _) fun _ _ =>
    Eqv.bind (vecSampleCbd_eqv H _ _ hp.eta2 hp.table2 _ _ _ _) fun _ _ => Eqv.bind (Eqv.op _ _) fun _ _ =>
    Eqv.bind (PRF_eqv H _ _ _ _ _) fun _ _ => Eqv.bind (sample_cbd_eqv _ hp.eta2 hp.table2 _ _) fun _ _ =>
    Eqv.bind (sample_matrix_eqv H _ _ _ _) fun _ _ => Eqv.bind (vecNtt_eqv hr _ _) fun _ _ =>
    Eqv.bind (mulVec_eqv hr _ _ _ _) fun _ _ => Eqv.bind (vecNttInverse_eqv hr _ _) fun _ _ =>
    Eqv.bind (vecAdd_eqv hr _ _ _ _) fun _ _ => Eqv.bind (decode_eqv _ (fun h => absurd h (by decide)) _ _) fun _ _ =>
    Eqv.bind (polyDecompress_eqv _ _ _) fun _ _ => Eqv.bind (dot_eqv hr _ _ _ _) fun _ _ =>
    Eqv.bind (ntt_inverse_eqv hr _ _) fun _ _ => Eqv.bind (polyAdd_eqv hr _ _ _ _) fun _ _ =>
    Eqv.bind (polyAdd_eqv hr _ _ _ _) fun _ _ => Eqv.bind (vecCompress_eqv _ _ _) fun _ _ =>
    Eqv.bind (vecEncode_eqv _ _ _) fun _ _ => Eqv.bind (polyCompress_eqv _ _ _) fun _ _ =>
    Eqv.bind (encode_eqv _ _ _) fun _ _ => Eqv.op _ _

theorem encapsulate_deterministic_eqv (ek ek' : EncapsulationKey P) (h : ek.ek_pke.rho = ek'.ek_pke.rho)
    (m m' : B32) : Eqv v (encapsulate_deterministic H ek m) (encapsulate_deterministic H ek' m') := by
  unfold encapsulate_deterministic
  refine Eqv.bind (G_eqv H ?_) fun _ _ => Eqv.bind (encrypt_eqv H hr hp _ _ h _ _ _ _) fun _ _ => Eqv.op _ _
  simp only [List.flatten_cons, List.flatten_nil, List.length_append, Vector.length_toList]

theorem encapsulate_eqv (ek ek' : EncapsulationKey P) (h : ek.ek_pke.rho = ek'.ek_pke.rho) (rng rng' : Rng)
    (s : rng.State) (s' : rng'.State) : Eqv v (encapsulate H ek rng s) (encapsulate H ek' rng' s') :=
  Eqv.bind (Eqv.op _ _) fun _ _ => Eqv.bind (encapsulate_deterministic_eqv H hr hp _ _ h _ _) fun _ _ => Eqv.op _ _

theorem decapsulate_eqv (dk dk' : DecapsulationKey P) (h : dk.ek.ek_pke.rho = dk'.ek.ek_pke.rho)
    (c c' : P.EncodedCiphertext) : Eqv v (decapsulate H dk c) (decapsulate H dk' c') := by
  unfold decapsulate
  refine Eqv.bind (decrypt_eqv hr hp _ _ _ _) fun _ _ => Eqv.bind (G_eqv H ?_) fun _ _ => Eqv.bind (J_eqv H ?_) fun _ _ =>
    Eqv.bind (encrypt_eqv H hr hp _ _ h _ _ _ _) fun _ _ =>
    Eqv.bind (Eqv.bind (Eqv.zipVec (fun _ _ _ _ => Eqv.op _ _) _ _ _ _) fun _ _ => Eqv.op _ _) fun _ _ =>
    Rel.emit (Eqv.op _ _)
  · simp only [List.flatten_cons, List.flatten_nil, List.length_append, Vector.length_toList]
  · simp only [List.flatten_cons, List.flatten_nil, List.length_append, Vector.length_toList]
end

variable {P : ParameterSet}

theorem encryptionKeyAsBytes_eqv (ek ek' : EncryptionKey P) :
    Eqv v (encryptionKeyAsBytes ek) (encryptionKeyAsBytes ek') :=
  Eqv.bind (nttVecEncode_eqv _ _ _) fun _ _ => Eqv.op _ _

theorem newKey_eqv (ek ek' : EncryptionKey P) : Eqv v (newKey H ek) (newKey H ek') :=
  Eqv.bind (encryptionKeyAsBytes_eqv _ _) fun _ _ => Eqv.bind (Hash_eqv H (by
    rw [Vector.length_toList, Vector.length_toList])) fun _ _ => Eqv.op _ _

theorem generate_deterministic_eqv (hr : HidesReduce v) (hp : Fit v P) (d z d' z' : B32)
    (hrho : (MlKem.G H [d.toList, [UInt8.ofNat P.K]]).1 = (MlKem.G H [d'.toList, [UInt8.ofNat P.K]]).1) :
    Eqv v (generate_deterministic H P d z) (generate_deterministic H P d' z') :=
  Eqv.bind (generate_eqv H hr hp _ _ hrho) fun _ _ => Eqv.bind (newKey_eqv H _ _) fun _ _ => Eqv.op _ _

/-- A generated key holds the first half of `G(d ‖ k)` as the seed of its matrix. -/
theorem generate_rho {d z : B32} {r : DecapsulationKey P × EncapsulationKey P}
    (h : Kem.generate_deterministic H P d z = .ok r) :
    r.2 = r.1.ek ∧ r.1.ek.ek_pke.rho = (MlKem.G H [d.toList, [UInt8.ofNat P.K]]).1 := by
  obtain ⟨dk, h1, h2⟩ := Res.bind_eq_ok.mp h
  cases h2
  obtain ⟨⟨dp, ep⟩, h3, h4⟩ := Res.bind_eq_ok.mp h1
  obtain ⟨ek, h5, h6⟩ := Res.bind_eq_ok.mp h4
  obtain ⟨eb, -, h7⟩ := Res.bind_eq_ok.mp h5
  cases h6
  cases h7
  refine ⟨rfl, ?_⟩
  obtain ⟨_, -, g⟩ := Res.bind_eq_ok.mp h3
  obtain ⟨_, -, g⟩ := Res.bind_eq_ok.mp g
  obtain ⟨_, -, g⟩ := Res.bind_eq_ok.mp g
  obtain ⟨_, -, g⟩ := Res.bind_eq_ok.mp g
  obtain ⟨_, -, g⟩ := Res.bind_eq_ok.mp g
  obtain ⟨_, -, g⟩ := Res.bind_eq_ok.mp g
  obtain ⟨_, -, g⟩ := Res.bind_eq_ok.mp g
  cases g
  rfl

theorem decapsulationKeyAsBytes_eqv (dk dk' : DecapsulationKey P) :
    Eqv v (decapsulationKeyAsBytes dk) (decapsulationKeyAsBytes dk') :=
  Eqv.bind (nttVecEncode_eqv _ _ _) fun _ _ => Eqv.bind (encryptionKeyAsBytes_eqv _ _) fun _ _ => Eqv.op _ _

theorem decapsulationKeyFromBytes_eqv (hd : HidesDividend v) (b b' : P.EncodedDecapsulationKey) :
    Eqv v (decapsulationKeyFromBytes b) (decapsulationKeyFromBytes b') :=
  Eqv.bind (Eqv.bind (nttVecDecode_eqv _ (fun _ => hd) _ _) fun _ _ => Eqv.op _ _) fun _ _ =>
    Eqv.bind (Eqv.bind (nttVecDecode_eqv _ (fun _ => hd) _ _) fun _ _ => Eqv.op _ _) fun _ _ => Eqv.op _ _

end
end MlKem.Leaky

namespace XWing.Leaky
open Rust Rust.Leak MlKem MlKem.Leaky

variable [Build] {O : Type} {v : Event → Option O} (H : Sha3) (X : X25519) (hr : HidesReduce v)
  (hp : Fit v MlKem768Params)
include hr hp

theorem encapsulate_eqv (pk pk' : EncapsulationKey) (h : pk.pk_m.ek_pke.rho = pk'.pk_m.ek_pke.rho) (rng rng' : Rng)
    (s : rng.State) (s' : rng'.State) : Eqv v (encapsulate H X pk rng s) (encapsulate H X pk' rng' s') :=
  Eqv.bind (MlKem.Leaky.encapsulate_eqv H hr hp _ _ h _ _ _ _) fun _ _ => Eqv.bind (Eqv.op _ _) fun _ _ =>
    Rel.emit (Rel.emit (Eqv.bind (Rel.emit (Eqv.op _ _)) fun _ _ => Eqv.op _ _))

/-- Two secret keys whose public keys have the same matrix seed -/
theorem expand_key_rel (sk sk' : DecapsulationKey) (h : ∀ a b, sk.expand_key H X = .ok a → sk'.expand_key H X = .ok b →
      a.2.2.1.ek_pke.rho = b.2.2.1.ek_pke.rho) :
    Rel v (fun a b => a.1.ek.ek_pke.rho = b.1.ek.ek_pke.rho) (expand_key H X sk) (expand_key H X sk') := by
  intro a b ha hb
  have hab := h a b ((expand_key_res H X sk).symm.trans ha) ((expand_key_res H X sk').symm.trans hb)
  have ha' := (expand_key_res H X sk).symm.trans ha
  have hb' := (expand_key_res H X sk').symm.trans hb
  obtain ⟨⟨sm, pm⟩, g1, e1⟩ := Res.bind_eq_ok.mp ha'
  obtain ⟨⟨sm', pm'⟩, g1', e1'⟩ := Res.bind_eq_ok.mp hb'
  obtain ⟨r1, r2⟩ := generate_rho H g1
  obtain ⟨r1', r2'⟩ := generate_rho H g1'
  cases e1
  cases e1'
  have hrho := r2.symm.trans (((congrArg (fun k => k.ek_pke.rho) r1).symm.trans hab).trans
    ((congrArg (fun k => k.ek_pke.rho) r1').trans r2'))
  refine ⟨?_, r2.trans (hrho.trans r2'.symm)⟩
  refine (Eqv.bind (Eqv.emit ?_) fun _ _ => ?_ : Eqv v (expand_key H X sk) (expand_key H X sk')) _ _ ha hb |>.1
  · unfold hashUpdate
    rw [List.length_append, List.length_append, Vector.length_toList, Vector.length_toList]
  · exact Eqv.bind (MlKem.Leaky.generate_deterministic_eqv H hr hp _ _ _ _ hrho) fun _ _ => Rel.emit (Eqv.op _ _)

theorem decapsulate_eqv (sk sk' : DecapsulationKey) (h : ∀ a b, sk.expand_key H X = .ok a → sk'.expand_key H X = .ok b →
      a.2.2.1.ek_pke.rho = b.2.2.1.ek_pke.rho) (ct ct' : Ciphertext) :
    Eqv v (decapsulate H X sk ct) (decapsulate H X sk' ct') :=
  Rel.bind (expand_key_rel H X hr hp sk sk' h) fun _ _ hab =>
    Eqv.bind (MlKem.Leaky.decapsulate_eqv H hr hp _ _ hab _ _) fun _ _ => Rel.emit (Rel.emit (Eqv.op _ _))

end XWing.Leaky
