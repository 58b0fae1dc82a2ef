import Verif.Model.Compare
import Verif.Spec.Compare
import Verif.Props.KemKeys
import Mathlib.Data.List.Forall2
/-! C97: comparing keys with `==`. -/
namespace Compare

/-- Comparing sequences of numbers, element by element up to the first difference -/
def compareL : List Nat → List Nat → Bool × Nat
  | a :: l, b :: l' => if a = b then ((compareL l l').1, (compareL l l').2 + 1) else (false, 1)
  | _, _ => (true, 0)

theorem compareL_append {l l' : List Nat} (k k' : List Nat) (h : l.length = l'.length) :
    compareL (l ++ k) (l' ++ k') = if (compareL l l').1 then ((compareL k k').1, (compareL l l').2 + (compareL k k').2) else compareL l l' := by
  induction l generalizing l' with
  | nil =>
    obtain rfl := List.length_eq_zero_iff.1 h.symm
    simp [compareL]
  | cons a l ih =>
    cases l' with
    | nil => simp at h
    | cons b l' =>
      simp only [List.cons_append, compareL, ih (by simpa using h)]
      by_cases e : a = b
      · simp only [e, if_true]
        split <;> simp only [Nat.add_right_comm]
      · simp [e]

theorem compareL_fst {l l' : List Nat} (h : l.length = l'.length) : (compareL l l').1 = true ↔ l = l' := by
  induction l generalizing l' with
  | nil =>
    obtain rfl := List.length_eq_zero_iff.1 h.symm
    simp [compareL]
  | cons a l ih =>
    cases l' with
    | nil => simp at h
    | cons b l' =>
      by_cases e : a = b
      · simp [compareL, e, ih (by simpa using h)]
      · simp [compareL, e]

theorem compareL_snd {l l' : List Nat} (h : l.length = l'.length) (hne : l ≠ l') : (compareL l l').2 = commonPrefix l l' + 1 := by
  induction l generalizing l' with
  | nil => exact absurd (List.length_eq_zero_iff.1 h.symm).symm hne
  | cons a l ih =>
    cases l' with
    | nil => simp at h
    | cons b l' =>
      by_cases e : a = b
      · subst e
        simp only [compareL, commonPrefix, if_true]
        rw [ih (by simpa using h) fun e => hne (by rw [e])]
      · simp [compareL, commonPrefix, e]

/-- Do something with what is found. -/
def Procedure.map {α β γ : Type} (f : β → γ) : Procedure α β → Procedure α γ
  | done b => .done (f b)
  | ask a next => .ask a fun r => (next r).map f

theorem Procedure.run_map {α β γ : Type} (f : β → γ) (reply : α → Bool × Nat) (S : Procedure α β) :
    (S.map f).run reply = (f (S.run reply).1, (S.run reply).2) := by
  induction S with
  | done b => rfl
  | ask a next ih => simp only [Procedure.map, Procedure.run, ih]

/-- Try, at the first position that is not known, the values from `v` on. -/
def search {α : Type} (build : List Nat → α) (n : Nat) : Nat → List Nat → Nat → Procedure α (List Nat)
  | 0, known, _ => .done known
  | fuel + 1, known, v =>
    if known.length = n then .done known
    else .ask (build (known ++ v :: List.replicate (n - known.length - 1) 0)) fun r =>
      if r.1 || decide (known.length + 1 < r.2) then search build n fuel (known ++ [v]) 0
      else search build n fuel known (v + 1)

theorem search_spec {α : Type} {build : List Nat → α} {reply : α → Bool × Nat} {q : Nat} {x : List Nat}
    (hq : ∀ a ∈ x, a < q) (hr : ∀ g, List.Forall₂ (· ≤ ·) g x → reply (build g) = compareL g x) :
    ∀ (fuel : Nat) (known y : List Nat) (v : Nat), x = known ++ y → (∀ a ∈ y.head?, v ≤ a) → q * y.length ≤ fuel + v →
      ((search build x.length fuel known v).run reply).1 = x ∧
      ((search build x.length fuel known v).run reply).2 + v ≤ q * y.length + (if y = [] then v else 0) := by
  intro fuel
  induction fuel with
  | zero =>
    intro known y v hx hv hf
    cases y with
    | nil => simp [search, Procedure.run, hx]
    | cons a y =>
      exfalso
      have h1 := hv a (by simp)
      have h2 := hq a (by simp [hx])
      rw [List.length_cons, Nat.mul_succ] at hf
      omega
  | succ fuel ih =>
    intro known y v hx hv hf
    cases y with
    | nil => simp [search, Procedure.run, hx]
    | cons a y =>
      have hva := hv a (by simp)
      have haq := hq a (by simp [hx])
      have hne : known.length ≠ x.length := by simp [hx]
      have hk : x.length - known.length - 1 = y.length := by simp [hx]
      have hg : List.Forall₂ (· ≤ ·) (known ++ v :: List.replicate y.length 0) x := by
        rw [hx]
        refine List.rel_append (List.forall₂_same.2 fun _ _ => le_rfl) (.cons hva ?_)
        clear * -
        induction y with
        | nil => exact .nil
        | cons b y ih => exact .cons (Nat.zero_le _) ih
      simp only [search, if_neg hne, Procedure.run, hk, hr _ hg]
      have hc : compareL (known ++ v :: List.replicate y.length 0) x =
          if v = a then ((compareL (List.replicate y.length 0) y).1,
            (compareL known known).2 + ((compareL (List.replicate y.length 0) y).2 + 1)) else (false, (compareL known known).2 + 1) := by
        rw [hx, compareL_append _ _ rfl, if_pos ((compareL_fst rfl).2 rfl)]
        simp only [compareL]
        split <;> rfl
      have hl : (compareL known known).2 = known.length := by
        clear * -
        induction known with
        | nil => rfl
        | cons b l ih => simp [compareL, ih]
      rw [hc, hl]
      by_cases e : v = a
      · subst e
        have hyes : ((compareL (List.replicate y.length 0) y).1 || decide (known.length + 1 <
            known.length + ((compareL (List.replicate y.length 0) y).2 + 1))) = true := by
          cases h1 : (compareL (List.replicate y.length 0) y).1 with
          | true => rfl
          | false =>
            have : List.replicate y.length 0 ≠ y := fun e => by
              rw [(compareL_fst (by simp)).2 e] at h1
              cases h1
            rw [compareL_snd (by simp) this]
            simp
        simp only [if_true, hyes]
        obtain ⟨h1, h2⟩ := ih (known ++ [v]) y 0 (by simp [hx]) (fun _ _ => Nat.zero_le _) (by
          rw [List.length_cons, Nat.mul_succ] at hf
          omega)
        refine ⟨h1, ?_⟩
        rw [List.length_cons, Nat.mul_succ]
        simp only [ite_self, Nat.add_zero] at h2
        simp only [reduceCtorEq, if_false]
        omega
      · simp only [if_neg e, Bool.false_or, lt_irrefl, decide_false, Bool.false_eq_true, if_false]
        obtain ⟨h1, h2⟩ := ih known (a :: y) (v + 1) hx (fun b hb => by
          simp only [List.head?_cons, Option.mem_some_iff] at hb
          omega) (by omega)
        refine ⟨h1, ?_⟩
        simp only [reduceCtorEq, if_false] at h2 ⊢
        omega

end Compare

namespace MlKem.Compare
open Rust _root_.Compare

/-- A comparison is that of sequences of numbers. -/
structure Flat {α : Type} (eq : α → α → Cmp) (f : α → List Nat) (c : Nat) : Prop where
  len : ∀ a, (f a).length = c
  eq : ∀ a b, eq a b = compareL (f a) (f b)
  inj : ∀ a b, f a = f b → a = b
  below : ∀ a g, List.Forall₂ (· ≤ ·) g (f a) → ∃ a', f a' = g

theorem Flat.seq {α : Type} {eq : α → α → Cmp} {f : α → List Nat} {c : Nat} (h : Flat eq f c) (n : Nat) :
    Flat (fun a b : Vector α n => Compare.seq eq a.toList b.toList) (fun v => v.toList.flatMap f) (n * c) := by
  have hlen : ∀ l : List α, (l.flatMap f).length = l.length * c := by
    intro l
    induction l with
    | nil => simp
    | cons a l ih => rw [List.flatMap_cons, List.length_append, h.len, ih, List.length_cons, Nat.succ_mul, Nat.add_comm]
  refine ⟨fun v => by rw [hlen, Vector.length_toList], fun a b => ?_, fun a b e => ?_, fun a g hg => ?_⟩
  · have : ∀ l l' : List α, l.length = l'.length → Compare.seq eq l l' = compareL (l.flatMap f) (l'.flatMap f) := by
      intro l
      induction l with
      | nil => intro l' e; obtain rfl := List.length_eq_zero_iff.1 e.symm; rfl
      | cons x l ih =>
        intro l' e
        cases l' with
        | nil => simp at e
        | cons y l' =>
          rw [List.flatMap_cons, List.flatMap_cons, compareL_append _ _ (by rw [h.len, h.len])]
          simp only [Compare.seq, both, h.eq, ih l' (by simpa using e)]
    exact this _ _ (by simp)
  · have : ∀ l l' : List α, l.length = l'.length → l.flatMap f = l'.flatMap f → l = l' := by
      intro l
      induction l with
      | nil => intro l' e _; exact (List.length_eq_zero_iff.1 e.symm).symm
      | cons x l ih =>
        intro l' e g
        cases l' with
        | nil => simp at e
        | cons y l' =>
          rw [List.flatMap_cons, List.flatMap_cons] at g
          obtain ⟨g1, g2⟩ := List.append_inj g (by rw [h.len, h.len])
          rw [h.inj _ _ g1, ih l' (by simpa using e) g2]
    exact Vector.toList_inj.1 (this _ _ (by simp) e)
  · have : ∀ (l : List α) (g : List Nat), List.Forall₂ (· ≤ ·) g (l.flatMap f) →
        ∃ l' : List α, l'.length = l.length ∧ l'.flatMap f = g := by
      intro l
      induction l with
      | nil => intro g hg; cases hg; exact ⟨[], rfl, rfl⟩
      | cons x l ih =>
        intro g hg
        rw [List.flatMap_cons] at hg
        obtain ⟨a', ha⟩ := h.below _ _ (List.forall₂_take_append _ _ _ hg)
        obtain ⟨l', e1, e2⟩ := ih _ (List.forall₂_drop_append _ _ _ hg)
        exact ⟨a' :: l', by simp [e1], by rw [List.flatMap_cons, ha, e2, List.take_append_drop]⟩
    obtain ⟨l', e1, e2⟩ := this a.toList g hg
    refine ⟨⟨l'.toArray, by simpa using e1⟩, ?_⟩
    simpa using e2

theorem Flat.both {α β : Type} {γ : Type} {eq : α → α → Cmp} {f : α → List Nat} {c : Nat} (h : Flat eq f c)
    {eq' : β → β → Cmp} {f' : β → List Nat} {c' : Nat} (h' : Flat eq' f' c') {p : γ → α} {p' : γ → β} {mk : α → β → γ}
    (e : ∀ x y, p (mk x y) = x ∧ p' (mk x y) = y) (e' : ∀ z, mk (p z) (p' z) = z) :
    Flat (fun a b : γ => Compare.both (eq (p a) (p b)) fun _ => eq' (p' a) (p' b)) (fun z => f (p z) ++ f' (p' z)) (c + c') := by
  refine ⟨fun a => by rw [List.length_append, h.len, h'.len], fun a b => ?_, fun a b g => ?_, fun a g hg => ?_⟩
  · rw [compareL_append _ _ (by rw [h.len, h.len])]
    simp only [Compare.both, h.eq, h'.eq]
  · obtain ⟨g1, g2⟩ := List.append_inj g (by rw [h.len, h.len])
    rw [← e' a, ← e' b, h.inj _ _ g1, h'.inj _ _ g2]
  · obtain ⟨x, hx⟩ := h.below _ _ (List.forall₂_take_append _ _ _ hg)
    obtain ⟨y, hy⟩ := h'.below _ _ (List.forall₂_drop_append _ _ _ hg)
    exact ⟨mk x y, by rw [(e x y).1, (e x y).2, hx, hy, List.take_append_drop]⟩

theorem Flat.wrap {α γ : Type} {eq : α → α → Cmp} {f : α → List Nat} {c : Nat} (h : Flat eq f c) {p : γ → α} {mk : α → γ}
    (e : ∀ x, p (mk x) = x) (e' : ∀ z, mk (p z) = z) :
    Flat (fun a b : γ => eq (p a) (p b)) (fun z => f (p z)) c :=
  ⟨fun _ => h.len _, fun _ _ => h.eq _ _, fun a b g => by rw [← e' a, ← e' b, h.inj _ _ g], fun a g hg => by
    obtain ⟨x, hx⟩ := h.below _ _ hg
    exact ⟨mk x, by rw [e, hx]⟩⟩

theorem flat_byte : Flat byte (fun b => [b.toNat]) 1 := by
  refine ⟨fun _ => rfl, fun a b => ?_, fun a b e => UInt8.toNat_inj.1 (by simpa using e), fun a g hg => ?_⟩
  · by_cases e : a = b
    · simp [byte, compareL, e]
    · have : a.toNat ≠ b.toNat := fun g => e (UInt8.toNat_inj.1 g)
      simp [byte, compareL, e, this]
  · cases hg with
    | @cons x y l l' h1 h2 =>
      cases h2
      refine ⟨UInt8.ofNat x, ?_⟩
      have := a.toNat_lt
      rw [UInt8.toNat_ofNat', Nat.mod_eq_of_lt (by omega)]

theorem flat_fieldElement : Flat fieldElement (fun x => [x.val.toNat]) 1 := by
  refine ⟨fun _ => rfl, fun a b => ?_, fun a b e => ?_, fun a g hg => ?_⟩
  · by_cases e : a.val = b.val
    · simp [fieldElement, compareL, e]
    · have : a.val.toNat ≠ b.val.toNat := fun g => e (UInt16.toNat_inj.1 g)
      simp [fieldElement, compareL, e, this]
  · cases a; cases b
    exact congrArg _ (UInt16.toNat_inj.1 (by simpa using e))
  · cases hg with
    | @cons x y l l' h1 h2 =>
      cases h2
      refine ⟨⟨UInt16.ofNat x⟩, ?_⟩
      have := a.val.toNat_lt
      show [(UInt16.ofNat x).toNat] = [x]
      rw [UInt16.toNat_ofNat', Nat.mod_eq_of_lt (by omega)]

/-- The numbers in the memory of a key, in order: the secret vector, the public vector, the public seed, the hash and the
rejection secret -/
def numbers {P : ParameterSet} (dk : DecapsulationKey P) : List Nat :=
  (dk.dk_pke.s_hat.polys.toList.flatMap fun f => f.coeffs.toList.flatMap fun x => [x.val.toNat]) ++
  (((dk.ek.ek_pke.t_hat.polys.toList.flatMap fun f => f.coeffs.toList.flatMap fun x => [x.val.toNat]) ++
    dk.ek.ek_pke.rho.toList.flatMap (fun b => [b.toNat])) ++ dk.ek.h.toList.flatMap (fun b => [b.toNat]) ++
  dk.z.toList.flatMap fun b => [b.toNat])

theorem flat_decapsulationKey {P : ParameterSet} : Flat (decapsulationKey (P := P)) numbers
    (P.K * (256 * 1) + (P.K * (256 * 1) + 32 * 1 + 32 * 1 + 32 * 1)) := by
  have hp : Flat nttPolynomial (fun f => f.coeffs.toList.flatMap fun x => [x.val.toNat]) (256 * 1) :=
    (flat_fieldElement.seq 256).wrap (p := NttPolynomial.coeffs) (mk := NttPolynomial.mk) (fun _ => rfl) fun _ => rfl
  have hv : Flat (nttVector (K := P.K)) (fun v => v.polys.toList.flatMap fun f => f.coeffs.toList.flatMap fun x => [x.val.toNat])
      (P.K * (256 * 1)) :=
    (hp.seq P.K).wrap (p := NttVector.polys) (mk := NttVector.mk) (fun _ => rfl) fun _ => rfl
  have hb : Flat b32 (fun b => b.toList.flatMap fun b => [b.toNat]) (32 * 1) := flat_byte.seq 32
  have hd : Flat (decryptionKey (P := P)) _ _ :=
    hv.wrap (p := DecryptionKey.s_hat) (mk := DecryptionKey.mk) (fun _ => rfl) fun _ => rfl
  have he : Flat (encryptionKey (P := P)) _ _ :=
    hv.both hb (p := EncryptionKey.t_hat) (p' := EncryptionKey.rho) (mk := EncryptionKey.mk) (fun _ _ => ⟨rfl, rfl⟩) fun _ => rfl
  have hk : Flat (encapsulationKey (P := P)) _ _ :=
    he.both hb (p := EncapsulationKey.ek_pke) (p' := EncapsulationKey.h) (mk := EncapsulationKey.mk)
      (fun _ _ => ⟨rfl, rfl⟩) fun _ => rfl
  have hr := hk.both hb (γ := EncapsulationKey P × B32) (p := Prod.fst) (p' := Prod.snd) (mk := Prod.mk)
      (fun _ _ => ⟨rfl, rfl⟩) fun _ => rfl
  exact hd.both hr (γ := DecapsulationKey P) (p := DecapsulationKey.dk_pke) (p' := fun dk => (dk.ek, dk.z))
    (mk := fun d r => ⟨d, r.1, r.2⟩) (fun _ _ => ⟨rfl, rfl⟩) fun _ => rfl

variable [Build] (S : Sha3) {P : ParameterSet} {p : Fips203.Params}

omit [Build] in
/-- **C97** `==` says whether the keys are equal, and makes one comparison more than the keys have numbers in common at the
start. -/
theorem C97_equal (a b : DecapsulationKey P) :
    ((decapsulationKey a b).1 = true ↔ a = b) ∧
    (a ≠ b → (decapsulationKey a b).2 = commonPrefix (numbers a) (numbers b) + 1) := by
  have hf := flat_decapsulationKey (P := P)
  have hl : (numbers a).length = (numbers b).length := by rw [hf.len, hf.len]
  rw [hf.eq]
  exact ⟨by rw [compareL_fst hl]; exact ⟨hf.inj a b, fun e => by rw [e]⟩, fun hne => compareL_snd hl fun e => hne (hf.inj a b e)⟩

/-- Keys whose coefficients are reduced are the keys that can be parsed. -/
theorem parse_of_small {dk : DecapsulationKey P} (h : ∀ a ∈ numbers dk, a < 3329) :
    ∃ b : P.EncodedDecapsulationKey, dk.as_bytes = .ok b ∧ DecapsulationKey.from_bytes b = .ok dk := by
  have hnv : ∀ v : NttVector P.K,
      (∀ a ∈ v.polys.toList.flatMap fun f => f.coeffs.toList.flatMap fun x => [x.val.toNat], a < 3329) →
      ∃ s : Fin P.K → Fips203.Poly, v = nv s := by
    intro v hv
    refine ⟨fun i j => v.polys[i].coeffs[j].toZ, ?_⟩
    obtain ⟨v⟩ := v
    refine congrArg _ (Vector.ext fun i hi => ?_)
    rw [Vector.getElem_ofFn]
    refine congrArg (fun c => (⟨c⟩ : NttPolynomial)) (Vector.ext fun j hj => ?_)
    have hred : (v[i].coeffs[j]).Reduced := hv _ (by
      simp only [List.mem_flatMap, List.mem_singleton]
      exact ⟨v[i], by simp, v[i].coeffs[j], by simp, rfl⟩)
    simp [FieldElement.ofZ_toZ hred]
  obtain ⟨⟨s⟩, ⟨⟨t, rho⟩, hh⟩, z⟩ := dk
  simp only [numbers, List.mem_append] at h
  obtain ⟨s, rfl⟩ := hnv s fun a ha => h a (.inl ha)
  obtain ⟨t, rfl⟩ := hnv t fun a ha => h a (.inr (.inl (.inl (.inl ha))))
  exact ⟨_, kem_dk_as_bytes s t rho hh z, dk_from_dkBytes s t rho hh z⟩

theorem small_of_reach (h : Supported P p) {dk : DecapsulationKey P} (hk : DkReach S dk) :
    ∀ a ∈ numbers dk, a < 3329 := by
  obtain rfl := h.eq
  obtain ⟨s, t, rho, hh, z, rfl⟩ := hk.shape S h.valid
  have hnv : ∀ s : Fin P.K → Fips203.Poly, ∀ a ∈ (nv s).polys.toList.flatMap fun f => f.coeffs.toList.flatMap
      fun x => [x.val.toNat], a < 3329 := by
    intro s a ha
    simp only [nv, List.mem_flatMap, List.mem_singleton, Vector.mem_toList_iff, Vector.mem_ofFn, polyVec, vecOf] at ha
    obtain ⟨f, ⟨i, rfl⟩, x, hx, rfl⟩ := ha
    simp only [Vector.mem_ofFn] at hx
    obtain ⟨j, rfl⟩ := hx
    exact FieldElement.ofZ_reduced _
  have hb : ∀ b : B32, ∀ a ∈ b.toList.flatMap (fun b => [b.toNat]), a < 3329 := by
    intro b a ha
    simp only [List.mem_flatMap, List.mem_singleton] at ha
    obtain ⟨x, -, rfl⟩ := ha
    have := x.toNat_lt
    omega
  intro a ha
  simp only [numbers, List.mem_append] at ha
  rcases ha with ha | ((ha | ha) | ha) | ha
  · exact hnv _ a ha
  · exact hnv _ a ha
  · exact hb _ a ha
  · exact hb _ a ha
  · exact hb _ a ha

/-- What a program shows that parses a key it is sent and compares it with its own: the result, and the number of
comparisons -/
def told (dk : DecapsulationKey P) (b : P.EncodedDecapsulationKey) : Bool × Nat :=
  match DecapsulationKey.from_bytes b with
  | .ok guess => decapsulationKey guess dk
  | _ => (false, 0)

/-- **C97** Whoever may have keys of their own compared with a secret key, and sees how many comparisons `==` makes, learns
the secret key, all of it, with at most 3329 tries for each of its numbers. -/
theorem C97_recover (h : Supported P p) : ∃ A : Procedure P.EncodedDecapsulationKey P.EncodedDecapsulationKey,
    ∀ dk : DecapsulationKey P, DkReach S dk →
      dk.as_bytes = .ok (A.run (told dk)).1 ∧ (A.run (told dk)).2 ≤ 3329 * (512 * p.k + 96) := by
  classical
  obtain rfl := h.eq
  have hf := flat_decapsulationKey (P := P)
  let build : List Nat → P.EncodedDecapsulationKey := fun g =>
    if h : ∃ b dk, DecapsulationKey.from_bytes (P := P) b = .ok dk ∧ dk.as_bytes = .ok b ∧ numbers dk = g then h.choose
    else Vector.replicate _ 0
  have hbuild : ∀ dk : DecapsulationKey P, (∀ a ∈ numbers dk, a < 3329) →
      DecapsulationKey.from_bytes (build (numbers dk)) = .ok dk ∧ dk.as_bytes = .ok (build (numbers dk)) := fun dk hs => by
    obtain ⟨b, h1, h2⟩ := parse_of_small hs
    have h : ∃ b dk', DecapsulationKey.from_bytes (P := P) b = .ok dk' ∧ dk'.as_bytes = .ok b ∧ numbers dk' = numbers dk :=
      ⟨b, dk, h2, h1, rfl⟩
    simp only [build, dif_pos h]
    obtain ⟨dk', e1, e2, e3⟩ := h.choose_spec
    obtain rfl := hf.inj _ _ e3
    exact ⟨e1, e2⟩
  let n := P.K * (256 * 1) + (P.K * (256 * 1) + 32 * 1 + 32 * 1 + 32 * 1)
  refine ⟨(search build n (3329 * n) [] 0).map build, fun dk hk => ?_⟩
  have hq := small_of_reach S h hk
  have hn : (numbers dk).length = n := hf.len dk
  obtain ⟨h1, h2⟩ := search_spec (build := build) (reply := told dk) hq
    (fun g hg => by
      obtain ⟨dk', rfl⟩ := hf.below dk g hg
      have hs : ∀ a ∈ numbers dk', a < 3329 := by
        intro a ha
        obtain ⟨i, hi, rfl⟩ := List.getElem_of_mem ha
        have hi' : i < (numbers dk).length := hg.length_eq ▸ hi
        exact (hg.get hi hi').trans_lt (hq _ (List.getElem_mem hi'))
      rw [told, (hbuild dk' hs).1]
      exact hf.eq dk' dk)
    (3329 * n) [] (numbers dk) 0 rfl (fun _ _ => Nat.zero_le _) (by rw [hn]; exact le_rfl)
  rw [hn] at h1 h2
  rw [Procedure.run_map]
  refine ⟨?_, ?_⟩
  · show _ = Res.ok (build _)
    rw [h1]
    exact (hbuild dk hq).2
  · show Prod.snd _ ≤ _
    refine (show _ ≤ 3329 * n from ?_).trans (by simp only [n]; show _ ≤ 3329 * (512 * P.K + 96); omega)
    simpa using h2

/-- Keys to be learnt exist: generated ones, and those of any bytes. -/
example (d z : B32) (b : MlKem768Params.EncodedDecapsulationKey) :
    (∃ dk : DecapsulationKey MlKem768Params, DkReach Toy.S dk) ∧
    (∃ dk : DecapsulationKey MlKem768Params, DecapsulationKey.from_bytes b = .ok dk ∧ DkReach S dk) := by
  constructor
  · obtain ⟨⟨dk, ek⟩, h⟩ := (C04_generate_outcome Toy.S supported_768 d z).2.2 (Toy.seedOk _ _)
    exact ⟨dk, .generated h⟩
  · obtain ⟨s, t, rho, hh, z, -, -, -, -, -, h⟩ := kem_dk_from_bytes (P := MlKem768Params) b
    exact ⟨_, h, .parsed h⟩

/-- Keys that differ in the rejection secret only: everything else is compared first. -/
example {P : ParameterSet} (dk : DecapsulationKey P) (z : B32) (hz : z[0] ≠ dk.z[0]) :
    { dk with z := z } ≠ dk ∧ (decapsulationKey { dk with z := z } dk).2 = 512 * P.K + 65 := by
  have hne : ({ dk with z := z } : DecapsulationKey P) ≠ dk := fun e => hz (by rw [← congrArg DecapsulationKey.z e])
  refine ⟨hne, ?_⟩
  rw [(C97_equal _ _).2 hne]
  have hp : ∀ l x y : List Nat, commonPrefix (l ++ x) (l ++ y) = l.length + commonPrefix x y := by
    intro l x y
    induction l with
    | nil => simp
    | cons a l ih => rw [List.cons_append, List.cons_append, commonPrefix, if_pos rfl, ih, List.length_cons]; omega
  have hh : ∀ z z' : B32, z[0] ≠ z'[0] →
      commonPrefix (z.toList.flatMap fun b => [b.toNat]) (z'.toList.flatMap fun b => [b.toNat]) = 0 := by
    intro z z' h
    have hc : ∀ z : B32, ∃ l, z.toList = z[0] :: l := fun z => by
      rcases e : z.toList with _ | ⟨a, l⟩
      · simpa using congrArg List.length e
      · refine ⟨l, ?_⟩
        have := Vector.getElem_toList (xs := z) (i := 0) (by simp)
        rw [← this]
        simp only [e, List.getElem_cons_zero]
    obtain ⟨l, e⟩ := hc z
    obtain ⟨l', e'⟩ := hc z'
    rw [e, e', List.flatMap_cons, List.flatMap_cons, List.singleton_append, List.singleton_append, commonPrefix,
      if_neg fun g => h (UInt8.toNat_inj.1 g)]
  have hl := flat_decapsulationKey.len dk
  have hlz : (dk.z.toList.flatMap fun b => [b.toNat]).length = 32 * 1 := (flat_byte.seq 32).len dk.z
  simp only [numbers, ← List.append_assoc] at hl ⊢
  rw [List.length_append, hlz] at hl
  rw [hp, hh _ _ hz]
  omega

/-- Short sequences: three elements are compared. -/
example : compareL [5, 7, 1, 9] [5, 7, 2, 9] = (false, 3) ∧ commonPrefix [5, 7, 1, 9] [5, 7, 2, 9] = 2 := by decide

/-- The search, run on a secret of three numbers: 3 + 1 + 5 tries -/
example : ((search id 3 30 [] 0).run fun g => compareL g [2, 0, 4]) = ([2, 0, 4], 9) := by decide

end MlKem.Compare
