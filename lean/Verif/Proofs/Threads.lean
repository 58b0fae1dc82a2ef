import Verif.Model.Threads
/-! Facts about threads, for any API of the shape of Model/Threads. -/
namespace Threads
open Rust MlKem

variable {A : Api} {rngs : Nat → Rng}

namespace World

theorem mapM_mono {α β : Type} {f g : α → Option β} : ∀ {l : List α} {r : List β}, l.mapM f = some r →
    (∀ a ∈ l, ∀ b, f a = some b → g a = some b) → l.mapM g = some r := by
  intro l
  induction l with
  | nil => intro r h _; simpa using h
  | cons a l ih =>
    intro r h hfg
    rw [List.mapM_cons] at h ⊢
    cases ha : f a with
    | none => rw [ha] at h; nomatch h
    | some b =>
      rw [ha] at h
      cases hl : l.mapM f with
      | none => rw [hl] at h; nomatch h
      | some bs =>
        rw [hl] at h
        rw [hfg a List.mem_cons_self b ha, ih hl fun x hx => hfg x (List.mem_cons_of_mem _ hx)]
        exact h

theorem mapM_congr {α β : Type} {f g : α → Option β} {l : List α} (h : ∀ a ∈ l, f a = g a) : l.mapM f = l.mapM g := by
  induction l with
  | nil => rfl
  | cons a l ih =>
    rw [List.mapM_cons, List.mapM_cons, h a List.mem_cons_self, ih fun x hx => h x (List.mem_cons_of_mem _ hx)]

theorem get_append {pool : Nat → List (Option A.Key)} {k : Name} {x : A.Key} (h : get pool k = some x) (t : Nat)
    (new : List (Option A.Key)) : get (Function.update pool t (pool t ++ new)) k = some x := by
  unfold get at h ⊢
  by_cases hk : k.1 = t
  · subst hk
    rw [Function.update_self]
    cases hx : (pool k.1)[k.2]? with
    | none => rw [hx] at h; nomatch h
    | some y =>
      rw [hx] at h
      rw [List.getElem?_append_left (List.getElem?_eq_some_iff.1 hx).1, hx]
      exact h
  · rw [Function.update_of_ne hk]
    exact h

theorem get_set {pool : Nat → List (Option A.Key)} {k l : Name} (h : l ≠ k) :
    get (Function.update pool k.1 ((pool k.1).set k.2 none)) l = get pool l := by
  unfold get
  by_cases hk : l.1 = k.1
  · have h2 : k.2 ≠ l.2 := fun h2 => h (Prod.ext hk h2.symm)
    rw [hk, Function.update_self, List.getElem?_set_ne h2]
  · rw [Function.update_of_ne hk]

/-- What a running call holds is what is in the pool. -/
def Held (w : World A rngs) : Prop := ∀ t r, w.busy t = some r → r.names.mapM (get w.pool) = some r.keys

theorem Quiet.held {w : World A rngs} (h : w.Quiet) : w.Held := fun t r hr => by rw [h t] at hr; nomatch hr

theorem step_begin (w : World A rngs) (t : Nat) (names : List Name) (arg : A.Arg) :
    w.step (.begin t names arg) = w ∨ ∃ keys, w.busy t = none ∧ names.mapM (get w.pool) = some keys ∧
      w.step (.begin t names arg) = { w with busy := Function.update w.busy t (some { names, keys, arg }) } := by
  cases hb : w.busy t with
  | some r => exact Or.inl (by simp only [step, hb])
  | none => cases hn : names.mapM (get w.pool) with
    | none => exact Or.inl (by simp only [step, hb, hn])
    | some keys => exact Or.inr ⟨keys, rfl, rfl, by simp only [step, hb, hn]⟩

theorem step_finish (w : World A rngs) (t : Nat) :
    w.step (.finish t) = w ∨ ∃ r new out s, w.busy t = some r ∧
      A.exec r.keys r.arg (rngs t) (w.st t) = .ok ((new, out), s) ∧
      w.step (.finish t) = w.ended t r.names r.arg new out s := by
  cases hb : w.busy t with
  | none => exact Or.inl (by simp only [step, hb])
  | some r => cases he : A.exec r.keys r.arg (rngs t) (w.st t) with
    | ok x =>
      obtain ⟨⟨new, out⟩, s⟩ := x
      exact Or.inr ⟨r, new, out, s, rfl, he, by simp only [step, hb, he]⟩
    | panic => exact Or.inl (by simp only [step, hb, he])
    | div => exact Or.inl (by simp only [step, hb, he])

theorem step_abandon (w : World A rngs) (t : Nat) (s : (rngs t).State) :
    w.step (.abandon t s) = w ∨ ∃ r, w.busy t = some r ∧ w.step (.abandon t s) =
      { w with st := Function.update w.st t s, busy := Function.update w.busy t none } := by
  cases hb : w.busy t with
  | none => exact Or.inl (by simp only [step, hb])
  | some r => exact Or.inr ⟨r, rfl, by simp only [step, hb]⟩

theorem step_drop (w : World A rngs) (t : Nat) (k : Name) :
    (w.Borrowed k ∧ w.step (.drop t k) = w) ∨ (¬ w.Borrowed k ∧ w.step (.drop t k) =
      { w with pool := Function.update w.pool k.1 ((w.pool k.1).set k.2 none) }) := by
  unfold step
  by_cases hb : w.Borrowed k
  · exact Or.inl ⟨hb, if_pos hb⟩
  · exact Or.inr ⟨hb, if_neg hb⟩

theorem Held.ended {w : World A rngs} (h : w.Held) (t : Nat) (names : List Name) (arg : A.Arg) (new : List A.Key)
    (out : A.Out) (s : (rngs t).State) : (w.ended t names arg new out s).Held := by
  intro u r hr
  simp only [World.ended] at hr ⊢
  by_cases hu : u = t
  · subst hu; rw [Function.update_self] at hr; nomatch hr
  · rw [Function.update_of_ne hu] at hr
    exact mapM_mono (h u r hr) fun k _ x hx => get_append hx t _

theorem Held.step {w : World A rngs} (h : w.Held) (e : Event A rngs) : (w.step e).Held := by
  cases e with
  | begin t names arg =>
    rcases step_begin w t names arg with h1 | ⟨keys, h1, h2, h3⟩
    · rw [h1]; exact h
    · rw [h3]
      intro u r hr
      dsimp only at hr
      by_cases hu : u = t
      · subst hu
        rw [Function.update_self] at hr
        obtain rfl := Option.some.inj hr
        exact h2
      · rw [Function.update_of_ne hu] at hr
        exact h u r hr
  | finish t =>
    rcases step_finish w t with h1 | ⟨r, new, out, s, h1, h2, h3⟩
    · rw [h1]; exact h
    · rw [h3]; exact Held.ended h t r.names r.arg new out s
  | abandon t s =>
    rcases step_abandon w t s with h1 | ⟨r, h1, h2⟩
    · rw [h1]; exact h
    · rw [h2]
      intro u r hr
      dsimp only at hr
      by_cases hu : u = t
      · subst hu; rw [Function.update_self] at hr; nomatch hr
      · rw [Function.update_of_ne hu] at hr
        exact h u r hr
  | drop t k =>
    rcases step_drop w t k with ⟨h1, h2⟩ | ⟨h1, h2⟩
    · rw [h2]; exact h
    · rw [h2]
      intro u r hr
      refine mapM_mono (h u r hr) fun l hl x hx => ?_
      rw [get_set]
      · exact hx
      · rintro rfl
        exact h1 ⟨u, r, hr, hl⟩

theorem run_cons (w : World A rngs) (e : Event A rngs) (es : List (Event A rngs)) : w.run (e :: es) = (w.step e).run es :=
  rfl

/-! ### Every call that ended is explained by one assignment of keys to names -/

/-- The key obtained under a name, dropped or not -/
def look (K : Nat → List A.Key) (k : Name) : Option A.Key := (K k.1)[k.2]?

theorem look_append {K : Nat → List A.Key} {k : Name} {x : A.Key} (h : look K k = some x) (t : Nat)
    (new : List A.Key) : look (Function.update K t (K t ++ new)) k = some x := by
  unfold look at h ⊢
  by_cases hk : k.1 = t
  · subst hk
    rw [Function.update_self, List.getElem?_append_left (List.getElem?_eq_some_iff.1 h).1, h]
  · rw [Function.update_of_ne hk, h]

/-- The call was made on these keys and returned these. -/
def Explains (K : Nat → List A.Key) (rngs : Nat → Rng) (e : Entry A) : Prop :=
  ∃ keys new, ∃ s s' : (rngs e.thread).State, e.names.mapM (look K) = some keys ∧
    A.exec keys e.arg (rngs e.thread) s = .ok ((new, e.out), s') ∧ e.new.mapM (look K) = some new

/-- What any keys returned by a call satisfy, if the keys it was given do -/
def Closed (A : Api) (G : A.Key → Prop) : Prop := ∀ keys arg (rng : Rng) (s s' : rng.State) new out,
  (∀ k ∈ keys, G k) → A.exec keys arg rng s = .ok ((new, out), s') → ∀ k ∈ new, G k

theorem mem_of_mapM {α β : Type} {f : α → Option β} : ∀ {l : List α} {r : List β}, l.mapM f = some r →
    ∀ b ∈ r, ∃ a ∈ l, f a = some b := by
  intro l
  induction l with
  | nil => intro r h b hb; obtain rfl : r = [] := by simpa using h.symm
           nomatch hb
  | cons a l ih =>
    intro r h b hb
    rw [List.mapM_cons] at h
    cases ha : f a with
    | none => rw [ha] at h; nomatch h
    | some x =>
      rw [ha] at h
      cases hl : l.mapM f with
      | none => rw [hl] at h; nomatch h
      | some bs =>
        rw [hl] at h
        obtain rfl : x :: bs = r := Option.some.inj h
        rcases List.mem_cons.1 hb with rfl | hb
        · exact ⟨a, List.mem_cons_self, ha⟩
        · obtain ⟨y, h1, h2⟩ := ih hl b hb
          exact ⟨y, List.mem_cons_of_mem _ h1, h2⟩

structure Inv (w : World A rngs) (K : Nat → List A.Key) (G : A.Key → Prop) : Prop where
  good : ∀ k x, look K k = some x → G x
  len : ∀ t, (w.pool t).length = (K t).length
  live : ∀ k x, get w.pool k = some x → look K k = some x
  held : ∀ t r, w.busy t = some r → r.names.mapM (look K) = some r.keys
  log : ∀ e ∈ w.log, Explains K rngs e
  prov : ∀ k x, look K k = some x → ∃ e ∈ w.log, k ∈ e.new

theorem Explains.append {K : Nat → List A.Key} {e : Entry A} (h : Explains K rngs e) (t : Nat) (new : List A.Key) :
    Explains (Function.update K t (K t ++ new)) rngs e := by
  obtain ⟨keys, ks, s, s', h1, h2, h3⟩ := h
  exact ⟨keys, ks, s, s', mapM_mono h1 fun k _ x hx => look_append hx t new, h2,
    mapM_mono h3 fun k _ x hx => look_append hx t new⟩

theorem mapM_range {β : Type} {f : Nat → Option β} : ∀ {l : List β}, (∀ i (h : i < l.length), f i = some l[i]) →
    (List.range l.length).mapM f = some l := by
  intro l
  induction l generalizing f with
  | nil => intro _; rfl
  | cons b l ih =>
    intro h
    rw [List.length_cons, List.range_succ_eq_map, List.mapM_cons, h 0 (by simp), List.mapM_map]
    have := ih (f := fun i => f (i + 1)) fun i hi => h (i + 1) (by simp; omega)
    rw [show (f ∘ Nat.succ) = fun i => f (i + 1) from rfl, this]
    rfl

theorem Inv.ended {w : World A rngs} {K : Nat → List A.Key} {G} (hG : Closed A G) (h : Inv w K G) {t : Nat} {r : Running A} {new out}
    {s : (rngs t).State} (hb : w.busy t = some r) (he : A.exec r.keys r.arg (rngs t) (w.st t) = .ok ((new, out), s)) :
    Inv (w.ended t r.names r.arg new out s) (Function.update K t (K t ++ new)) G := by
  have hnew : ∀ i (hi : i < new.length), look (Function.update K t (K t ++ new)) (t, (w.pool t).length + i) =
      some new[i] := by
    intro i hi
    unfold look
    rw [Function.update_self, h.len t, List.getElem?_append_right (by omega), Nat.add_sub_cancel_left,
      List.getElem?_eq_getElem hi]
  refine ⟨fun k x hx => ?_, fun u => ?_, fun k x hx => ?_, fun u q hq => ?_, fun e hm => ?_, fun k x hx => ?_⟩
  · have hg : ∀ k ∈ r.keys, G k := fun k hk => by
      obtain ⟨n, -, hn⟩ := mem_of_mapM (h.held t r hb) k hk
      exact h.good n k hn
    unfold look at hx
    by_cases hk : k.1 = t
    · subst hk
      rw [Function.update_self] at hx
      by_cases hl : k.2 < (K k.1).length
      · rw [List.getElem?_append_left hl] at hx
        exact h.good k x hx
      · rw [List.getElem?_append_right (by omega)] at hx
        exact hG _ _ _ _ _ _ _ hg he x (List.mem_of_getElem? hx)
    · rw [Function.update_of_ne hk] at hx
      exact h.good k x hx
  · simp only [World.ended]
    by_cases hu : u = t
    · subst hu
      rw [Function.update_self, Function.update_self, List.length_append, List.length_append, List.length_map, h.len]
    · rw [Function.update_of_ne hu, Function.update_of_ne hu, h.len]
  · simp only [World.ended] at hx
    by_cases hk : k.1 = t
    · subst hk
      unfold get at hx
      rw [Function.update_self] at hx
      by_cases hl : k.2 < (w.pool k.1).length
      · rw [List.getElem?_append_left hl] at hx
        exact look_append (h.live k x hx) _ _
      · rw [List.getElem?_append_right (by omega), List.getElem?_map] at hx
        cases hn : new[k.2 - (w.pool k.1).length]? with
        | none => rw [hn] at hx; nomatch hx
        | some y =>
          rw [hn] at hx
          obtain rfl := Option.some.inj hx
          obtain ⟨hi, rfl⟩ := List.getElem?_eq_some_iff.1 hn
          have := hnew _ hi
          rwa [show (k.1, (w.pool k.1).length + (k.2 - (w.pool k.1).length)) = k from Prod.ext rfl (by simp; omega)]
            at this
    · unfold get at hx
      rw [Function.update_of_ne hk] at hx
      exact look_append (h.live k x hx) _ _
  · simp only [World.ended] at hq
    by_cases hu : u = t
    · subst hu; rw [Function.update_self] at hq; nomatch hq
    · rw [Function.update_of_ne hu] at hq
      exact mapM_mono (h.held u q hq) fun k _ x hx => look_append hx t new
  · rcases List.mem_append.1 hm with hm | hm
    · exact (h.log e hm).append t new
    · obtain rfl := List.mem_singleton.1 hm
      refine ⟨r.keys, new, w.st t, s, mapM_mono (h.held t r hb) fun k _ x hx => look_append hx t new, he, ?_⟩
      rw [List.mapM_map]
      exact mapM_range hnew
  · by_cases hk : k.1 = t
    · subst hk
      unfold look at hx
      rw [Function.update_self] at hx
      by_cases hl : k.2 < (K k.1).length
      · rw [List.getElem?_append_left hl] at hx
        obtain ⟨e, h1, h2⟩ := h.prov k x hx
        exact ⟨e, List.mem_append_left _ h1, h2⟩
      · rw [List.getElem?_append_right (by omega)] at hx
        have hi := (List.getElem?_eq_some_iff.1 hx).1
        refine ⟨_, List.mem_append_right _ (List.mem_singleton.2 rfl), ?_⟩
        refine List.mem_map.2 ⟨k.2 - (K k.1).length, List.mem_range.2 hi, Prod.ext rfl ?_⟩
        simp only [h.len]
        omega
    · unfold look at hx
      rw [Function.update_of_ne hk] at hx
      obtain ⟨e, h1, h2⟩ := h.prov k x hx
      exact ⟨e, List.mem_append_left _ h1, h2⟩

theorem Inv.step {w : World A rngs} {K : Nat → List A.Key} {G} (hG : Closed A G) (h : Inv w K G) (e : Event A rngs) :
    ∃ K', Inv (w.step e) K' G := by
  cases e with
  | begin t names arg =>
    rcases step_begin w t names arg with h1 | ⟨keys, h1, h2, h3⟩
    · rw [h1]; exact ⟨K, h⟩
    · rw [h3]
      refine ⟨K, h.good, h.len, h.live, fun u r hr => ?_, h.log, h.prov⟩
      dsimp only at hr
      by_cases hu : u = t
      · subst hu
        rw [Function.update_self] at hr
        obtain rfl := Option.some.inj hr
        exact mapM_mono h2 fun k _ x hx => h.live k x hx
      · rw [Function.update_of_ne hu] at hr
        exact h.held u r hr
  | finish t =>
    rcases step_finish w t with h1 | ⟨r, new, out, s, h1, h2, h3⟩
    · rw [h1]; exact ⟨K, h⟩
    · rw [h3]; exact ⟨_, h.ended hG h1 h2⟩
  | abandon t s =>
    rcases step_abandon w t s with h1 | ⟨r, h1, h2⟩
    · rw [h1]; exact ⟨K, h⟩
    · rw [h2]
      refine ⟨K, h.good, h.len, h.live, fun u r hr => ?_, h.log, h.prov⟩
      dsimp only at hr
      by_cases hu : u = t
      · subst hu; rw [Function.update_self] at hr; nomatch hr
      · rw [Function.update_of_ne hu] at hr
        exact h.held u r hr
  | drop t k =>
    rcases step_drop w t k with ⟨h1, h2⟩ | ⟨h1, h2⟩
    · rw [h2]; exact ⟨K, h⟩
    · rw [h2]
      refine ⟨K, h.good, fun u => ?_, fun l x hx => ?_, h.held, h.log, h.prov⟩
      · show (Function.update w.pool k.1 ((w.pool k.1).set k.2 none) u).length = _
        by_cases hu : u = k.1
        · subst hu; rw [Function.update_self, List.length_set, h.len]
        · rw [Function.update_of_ne hu, h.len]
      · by_cases hl : l = k
        · subst hl
          exfalso
          simp only [get, Function.update_self, List.getElem?_set_self'] at hx
          cases hy : (w.pool l.1)[l.2]? with
          | none => rw [hy] at hx; nomatch hx
          | some y => rw [hy] at hx; nomatch hx
        · have hx' : get (Function.update w.pool k.1 ((w.pool k.1).set k.2 none)) l = some x := hx
          rw [get_set hl] at hx'
          exact h.live l x hx'

theorem explained {G} (hG : Closed A G) (st : (t : Nat) → (rngs t).State) (es : List (Event A rngs)) :
    ∃ K, Inv ((start (A := A) st).run es) K G := by
  have h0 : Inv (start (A := A) st) (fun _ => []) G :=
    ⟨fun k x hx => by simp [look] at hx, fun _ => rfl, fun k x hx => by simp [start, get] at hx, fun t r hr => by simp [start] at hr,
      fun e he => by simp [start] at he, fun k x hx => by simp [look] at hx⟩
  generalize start (A := A) st = w at h0 ⊢
  revert h0
  generalize (fun _ => [] : Nat → List A.Key) = K
  intro h0
  induction es generalizing w K with
  | nil => exact ⟨K, h0⟩
  | cons e es ih =>
    obtain ⟨K', h1⟩ := h0.step hG e
    exact ih _ _ h1

end World
end Threads
