import Verif.Proofs.Oblivious
/-! Two runs that leave the same events have the same results: what the events give away. -/
namespace Rust.Leak

/-- If both runs return and leave the same events, the results are related. -/
def Rev {α β : Type} (R : α → β → Prop) (x : Leak α) (y : Leak β) : Prop :=
  ∀ a b, x.res = .ok a → y.res = .ok b → x.trace = y.trace → R a b

/-- An observer who only counts events -/
def count : Event → Option Unit := fun _ => some ()

theorem count_length {α : Type} (x : Leak α) : (seen count x).length = x.trace.length := by
  unfold seen
  induction x.trace with
  | nil => rfl
  | cons _ _ ih => exact congrArg (· + 1) ih

variable {α β γ δ ι : Type}

theorem trace_bind {x : Leak α} {f : α → Leak β} {a : α} (h : x.res = .ok a) :
    (x >>= f).trace = x.trace ++ (f a).trace := by
  show (Leak.bind x f).trace = _
  unfold Leak.bind
  rw [h]

theorem Rev.bind {R : α → β → Prop} {S : γ → δ → Prop} {x : Leak α} {y : Leak β} {f : α → Leak γ} {g : β → Leak δ}
    (hc : Eqv count x y) (h : Rev R x y) (h' : ∀ a b, R a b → Rev S (f a) (g b)) : Rev S (x >>= f) (y >>= g) := by
  intro c d hx hy ht
  rw [res_bind] at hx hy
  obtain ⟨a, ha, hac⟩ := Res.bind_eq_ok.mp hx
  obtain ⟨b, hb, hbd⟩ := Res.bind_eq_ok.mp hy
  rw [trace_bind ha, trace_bind hb] at ht
  have hl : x.trace.length = y.trace.length := by
    rw [← count_length, ← count_length, (hc a b ha hb).1]
  obtain ⟨h1, h2⟩ := List.append_inj ht hl
  exact h' a b (h a b ha hb h1) c d hac hbd h2

/-- Nothing is concluded from the first part. -/
theorem Rev.skip {S : γ → δ → Prop} {x : Leak α} {y : Leak β} {f : α → Leak γ} {g : β → Leak δ}
    (hc : Eqv count x y) (h' : ∀ a b, Rev S (f a) (g b)) : Rev S (x >>= f) (y >>= g) :=
  Rev.bind (R := fun _ _ => True) hc (fun _ _ _ _ _ => trivial) fun a b _ => h' a b

theorem Rev.emit {S : γ → δ → Prop} {e e' : Event} {f : Unit → Leak γ} {g : Unit → Leak δ}
    (h : e = e' → Rev S (f ()) (g ())) : Rev S (Leak.emit e >>= f) (Leak.emit e' >>= g) :=
  Rev.bind (R := fun _ _ => e = e') (Eqv.emit rfl) (fun _ _ _ _ ht => List.head_eq_of_cons_eq ht) fun _ _ he => h he

theorem Rev.ok {R : α → β → Prop} {a : α} {b : β} (h : R a b) : Rev R (op (.ok a)) (op (.ok b)) := by
  intro a' b' ha hb _
  cases ha
  cases hb
  exact h

theorem Rev.same (r : Res α) : Rev Eq (op r) (op r) := fun _ _ ha hb _ => Res.ok.inj (ha.symm.trans hb)

theorem Rev.elements {n : Nat} {f g : Fin n → Leak α} (hc : ∀ i, Eqv count (f i) (g i)) (h : ∀ i, Rev Eq (f i) (g i)) :
    Rev Eq (elements n f) (elements n g) := by
  induction n with
  | zero => exact Rev.same _
  | succ n ih =>
    unfold Leak.elements
    refine Rev.bind (Eqv.elements fun i => hc _) (ih (fun i => hc _) fun i => h _) fun a b hab => ?_
    subst hab
    refine Rev.bind (hc _) (h _) fun a b hab => ?_
    subst hab
    exact Rev.same _

theorem Rev.tabulate {n : Nat} {f g : Fin n → Leak α} (hc : ∀ i, Eqv count (f i) (g i)) (h : ∀ i, Rev Eq (f i) (g i)) :
    Rev Eq (tabulate n f) (tabulate n g) := Rev.emit fun _ => Rev.elements hc h

theorem Rev.mapList {κ : Type} {Q : ι → κ → Prop} {xs : List ι} {ys : List κ} (hq : List.Forall₂ Q xs ys)
    {f : ι → Leak γ} {g : κ → Leak γ} (hc : ∀ x y, Q x y → Eqv count (f x) (g y))
    (h : ∀ x y, Q x y → Rev Eq (f x) (g y)) : Rev Eq (mapList f xs) (mapList g ys) := by
  unfold Leak.mapList
  refine Rev.emit fun hl => ?_
  clear hl
  induction hq with
  | nil => exact Rev.same _
  | cons hxy ht ih =>
    unfold results
    refine Rev.bind (hc _ _ hxy) (h _ _ hxy) fun a b hab => ?_
    subst hab
    refine Rev.bind ?_ ih fun a b hab => ?_
    · have := Eqv.mapList ht hc
      unfold Leak.mapList at this
      intro a b ha hb
      refine ⟨?_, trivial⟩
      have h2 := this a b (by rw [res_bind]; exact ha) (by rw [res_bind]; exact hb)
      rw [seen_bind rfl, seen_bind rfl] at h2
      exact (List.append_inj h2.1 rfl).2
    · subst hab
      exact Rev.same _

end Rust.Leak

namespace MlKem.Leaky
open Rust Rust.Leak

variable [Build]

omit [Build] in
theorem count_dividend : HidesDividend count := fun _ _ _ => rfl

/-- The remainder's operand shows the value read. -/
theorem unpackValue_rev (x y : U128) (j : Nat) : Rev Eq (unpackValue 12 x j) (unpackValue 12 y j) := by
  unfold unpackValue
  refine Rev.bind (Eqv.op _ _) (Rev.same _) fun s s' hs => ?_
  subst hs
  refine Rev.bind (Eqv.op _ _) (Rev.same _) fun m m' hm => ?_
  subst hm
  refine Rev.skip (Eqv.op _ _) fun _ _ => Rev.skip (Eqv.op _ _) fun _ _ => Rev.skip (Eqv.op _ _) fun a b => ?_
  rw [if_pos rfl, if_pos rfl]
  refine Rev.emit fun he => ?_
  have hv := UInt16.toNat_inj.mp (Event.divide.inj he).1
  rw [hv]
  exact Rev.bind (Eqv.op _ _) (Rev.same _) fun r r' hrr => Rev.ok (congrArg FieldElement.mk hrr)

theorem decodeChunk_rev (x : List FieldElement) (b c : List UInt8) :
    Rev Eq (decodeChunk 12 x b) (decodeChunk 12 x c) :=
  Rev.skip (Eqv.op _ _) fun _ _ => Rev.skip (Eqv.op _ _) fun _ _ =>
    Rev.mapList (forall₂_refl _) (fun _ _ h => h ▸ unpackValue_eqv 12 (fun _ => count_dividend) _ _ _)
      fun _ _ h => h ▸ unpackValue_rev _ _ _

theorem byte_decode_rev (x y : EncodedPolynomial 12) : Rev Eq (byte_decode 12 x) (byte_decode 12 y) := by
  unfold byte_decode
  have hq : List.Forall₂ (fun a b : List FieldElement × List UInt8 => a.1 = b.1 ∧ a.2.length = b.2.length)
      ((chunks (ValueStep 12) (Vector.replicate 256 (⟨0⟩ : FieldElement)).toList).zip (chunks (ByteStep 12) x.toList))
      ((chunks (ValueStep 12) (Vector.replicate 256 (⟨0⟩ : FieldElement)).toList).zip (chunks (ByteStep 12) y.toList)) :=
    forall₂_zip (forall₂_refl _) (chunks_forall₂ _ _ _ (by rw [Vector.length_toList, Vector.length_toList]))
  have hc : ∀ a b : List FieldElement × List UInt8, a.1 = b.1 ∧ a.2.length = b.2.length →
      Eqv count (decodeChunk 12 a.1 a.2) (decodeChunk 12 b.1 b.2) := by
    intro a b h
    rw [h.1]
    exact decodeChunk_eqv 12 (fun _ => count_dividend) _ _ _
  have hr : ∀ a b : List FieldElement × List UInt8, a.1 = b.1 ∧ a.2.length = b.2.length →
      Rev Eq (decodeChunk 12 a.1 a.2) (decodeChunk 12 b.1 b.2) := by
    intro a b h
    rw [h.1]
    exact decodeChunk_rev _ _ _
  refine Rev.bind (Eqv.mapList hq hc) (Rev.mapList hq hc hr) fun a b hab => ?_
  subst hab
  exact Rev.same _

theorem nttDecode_rev (x y : EncodedPolynomial 12) : Rev Eq (nttDecode 12 x) (nttDecode 12 y) := by
  refine Rev.bind (byte_decode_eqv 12 (fun _ => count_dividend) _ _) (byte_decode_rev x y) fun a b hab => ?_
  subst hab
  exact Rev.same _

theorem nttVecDecode_rev {K : Nat} (x y : EncodedPolynomialVector 12 K) :
    Rev Eq (nttVecDecode 12 x) (nttVecDecode 12 y) := by
  refine Rev.skip (unflatten_eqv _ _) fun a b => ?_
  refine Rev.bind (Eqv.mapVec (nttDecode_eqv 12 fun _ => count_dividend) _ _)
    (Rev.tabulate (fun i => nttDecode_eqv 12 (fun _ => count_dividend) _ _) fun i => nttDecode_rev _ _) fun a b hab => ?_
  subst hab
  exact Rev.same _

/-- Parsing shows the secret vector. -/
theorem decapsulationKeyFromBytes_rev {P : ParameterSet} (b b' : P.EncodedDecapsulationKey) :
    Rev (fun k k' => k.dk_pke = k'.dk_pke) (decapsulationKeyFromBytes b) (decapsulationKeyFromBytes b') := by
  refine Rev.skip (Eqv.bind (nttVecDecode_eqv _ (fun _ => count_dividend) _ _) fun _ _ => Eqv.op _ _) fun _ _ => ?_
  refine Rev.bind (R := Eq) (Eqv.bind (nttVecDecode_eqv _ (fun _ => count_dividend) _ _) fun _ _ => Eqv.op _ _) ?_
    fun _ _ h => Rev.ok h
  refine Rev.bind (nttVecDecode_eqv _ (fun _ => count_dividend) _ _) (nttVecDecode_rev _ _) fun a b hab => ?_
  subst hab
  exact Rev.same _

/-- The subscripts of `ONES` show the noise. -/
theorem sample_cbd_rev (Eta : CbdSize) (he : Eta.SampleSize ≠ 12) (B B' : EncodedPolynomial Eta.SampleSize) :
    Rev Eq (sample_cbd Eta B) (sample_cbd Eta B') := by
  unfold sample_cbd
  refine Rev.skip (decode_eqv _ (fun h => absurd h he) _ _) fun a b => ?_
  have hc : ∀ x y : FieldElement, Eqv count
      (emit (.table Eta.OnesSize x.val.toNat) >>= fun _ => op (Rust.idx Eta.ONES x.val.toNat))
      (emit (.table Eta.OnesSize y.val.toNat) >>= fun _ => op (Rust.idx Eta.ONES y.val.toNat)) :=
    fun _ _ => Eqv.emit_op fun _ _ _ _ => Eq.refl (some ())
  refine Rev.bind (Eqv.mapVec hc _ _) (Rev.tabulate (fun i => hc _ _) fun i => Rev.emit fun h => ?_) fun a b hab => ?_
  · rw [(Event.table.inj h).2]
    exact Rev.same _
  · subst hab
    exact Rev.same _

theorem vecSampleCbd_rev (H : Sha3) (K : Nat) (Eta : CbdSize) (he : Eta.SampleSize ≠ 12) (s s' : B32) (n : UInt8) :
    Rev Eq (vecSampleCbd H K Eta s n) (vecSampleCbd H K Eta s' n) := by
  have ht : HidesTable count Eta.OnesSize := fun _ _ _ _ => rfl
  refine Rev.bind (Eqv.tabulate fun i => ?_) (Rev.tabulate (fun i => ?_) fun i => ?_) fun a b hab => ?_
  · exact Eqv.bind (Eqv.op _ _) fun _ _ => Eqv.bind (Eqv.op _ _) fun _ _ => Eqv.bind (PRF_eqv H _ _ _ _ _) fun _ _ =>
      sample_cbd_eqv _ he ht _ _
  · exact Eqv.bind (Eqv.op _ _) fun _ _ => Eqv.bind (Eqv.op _ _) fun _ _ => Eqv.bind (PRF_eqv H _ _ _ _ _) fun _ _ =>
      sample_cbd_eqv _ he ht _ _
  · exact Rev.skip (Eqv.op _ _) fun _ _ => Rev.skip (Eqv.op _ _) fun _ _ => Rev.skip (PRF_eqv H _ _ _ _ _) fun _ _ =>
      sample_cbd_rev _ he _ _
  · subst hab
    exact Rev.same _

end MlKem.Leaky
