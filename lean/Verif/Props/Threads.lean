import Verif.Proofs.Threads
/-! C78: threads that share keys, whatever the schedule and wherever calls are abandoned. -/
namespace Threads
open Rust MlKem

variable {A : Api} {rngs : Nat → Rng}

/-! ### One thing at a time -/

variable (A rngs) in
/-- What can happen if calls are made one after the other: a whole call, the loss of a call, which may leave its
thread's generator in any state, and the drop of a key -/
inductive Act
  | call (t : Nat) (names : List Name) (arg : A.Arg)
  | lost (t : Nat) (s : (rngs t).State)
  | drop (k : Name)

/-- The effect: a call reads the keys of the names there and then and ends at once. Its new keys are put after those its
thread has, its generator is left as the call left it, and its results are put at the end of the log. -/
noncomputable def atomically (w : World A rngs) : Act A rngs → World A rngs
  | .call t names arg =>
    match names.mapM (World.get w.pool) with
    | none => w
    | some keys =>
      match A.exec keys arg (rngs t) (w.st t) with
      | .ok ((new, out), s) =>
        { w with
          pool := Function.update w.pool t (w.pool t ++ new.map some)
          st := Function.update w.st t s
          log := w.log ++ [⟨t, names, arg, out, (List.range new.length).map fun i => (t, (w.pool t).length + i)⟩] }
      | _ => w
  | .lost t s => { w with st := Function.update w.st t s }
  | .drop k => { w with pool := Function.update w.pool k.1 ((w.pool k.1).set k.2 none) }

open Classical in
/-- When things take effect in a schedule: a call when it ends, the loss of one when it is lost, a drop at once if no
call refers to the key and never otherwise. -/
noncomputable def effect (w : World A rngs) : Event A rngs → List (Act A rngs)
  | .begin _ _ _ => []
  | .finish t => match w.busy t with
    | none => []
    | some r => [.call t r.names r.arg]
  | .abandon t s => match w.busy t with
    | none => []
    | some _ => [.lost t s]
  | .drop _ k => if w.Borrowed k then [] else [.drop k]

/-- The same, for a whole schedule -/
noncomputable def effects (w : World A rngs) : List (Event A rngs) → List (Act A rngs)
  | [] => []
  | e :: es => effect w e ++ effects (w.step e) es

/-- Forget the calls that are still running. -/
def World.forget (w : World A rngs) : World A rngs := { w with busy := fun _ => none }

theorem forget_step {w : World A rngs} (hw : w.Held) (e : Event A rngs) :
    (w.step e).forget = (effect w e).foldl atomically w.forget := by
  cases e with
  | begin t names arg =>
    rcases World.step_begin w t names arg with h | ⟨keys, -, -, h⟩
    · rw [h]; rfl
    · rw [h]; rfl
  | finish t =>
    cases hb : w.busy t with
    | none => simp only [World.step, effect, hb, List.foldl_nil]
    | some r =>
      have hn := hw t r hb
      have hn' : r.names.mapM (World.get w.forget.pool) = some r.keys := hn
      simp only [effect, hb, List.foldl_cons, List.foldl_nil, atomically, hn']
      cases he : A.exec r.keys r.arg (rngs t) (w.st t) with
      | ok x =>
        obtain ⟨⟨new, out⟩, s⟩ := x
        have he' : A.exec r.keys r.arg (rngs t) (w.forget.st t) = .ok ((new, out), s) := he
        simp only [World.step, hb, he, he']
        rfl
      | panic =>
        have he' : A.exec r.keys r.arg (rngs t) (w.forget.st t) = .panic := he
        simp only [World.step, hb, he, he']
      | div =>
        have he' : A.exec r.keys r.arg (rngs t) (w.forget.st t) = .div := he
        simp only [World.step, hb, he, he']
  | abandon t s =>
    cases hb : w.busy t with
    | none => simp only [World.step, effect, hb, List.foldl_nil]
    | some r =>
      simp only [World.step, effect, hb, List.foldl_cons, List.foldl_nil, atomically]
      rfl
  | drop t k =>
    by_cases hb : w.Borrowed k
    · simp only [World.step, effect, if_pos hb, List.foldl_nil]
    · simp only [World.step, effect, if_neg hb, List.foldl_cons, List.foldl_nil, atomically]
      rfl

/-- **C78** Calls made by many threads at once have the results of the same calls made one after the other, in the
order in which they ended: the keys, the states of the generators and the log of all results are the same. -/
theorem C78_linearizable {w : World A rngs} (hw : w.Quiet) (es : List (Event A rngs)) :
    (w.run es).forget = (effects w es).foldl atomically w := by
  suffices ∀ w : World A rngs, w.Held → (w.run es).forget = (effects w es).foldl atomically w.forget by
    rw [this w hw.held]
    congr 1
    show ({ w with busy := fun _ => none } : World A rngs) = w
    rw [show (fun _ => none) = w.busy from funext fun t => (hw t).symm]
  clear hw w
  induction es with
  | nil => intro w _; rfl
  | cons e es ih =>
    intro w hw
    rw [World.run_cons, ih _ (hw.step e), forget_step hw e]
    show _ = (effect w e ++ effects (w.step e) es).foldl atomically w.forget
    rw [List.foldl_append]

/-! ### No call ends twice -/

/-- The calls a thread begins, in order -/
def begun (t : Nat) : List (Event A rngs) → List (List Name × A.Arg) :=
  List.filterMap fun
    | .begin u names arg => if u = t then some (names, arg) else none
    | _ => none

/-- The calls of a thread among those that ended, in order -/
def callsOf (t : Nat) (l : List (Entry A)) : List (List Name × A.Arg) :=
  (l.filter (·.thread = t)).map fun e => (e.names, e.arg)

/-- The call a thread is in -/
def World.pending (w : World A rngs) (t : Nat) : List (List Name × A.Arg) :=
  (w.busy t).toList.map fun r => (r.names, r.arg)

theorem once_step (w : World A rngs) (e : Event A rngs) :
    ∃ l, (w.step e).log = w.log ++ l ∧
      ∀ t, (callsOf t l ++ (w.step e).pending t).Sublist (w.pending t ++ begun t [e]) := by
  have same : ∀ t, (callsOf t ([] : List (Entry A)) ++ w.pending t).Sublist (w.pending t ++ begun t [e]) := fun t =>
    List.sublist_append_left _ _
  cases e with
  | begin u names arg =>
    rcases World.step_begin w u names arg with h | ⟨keys, h1, h2, h3⟩
    · rw [h]; exact ⟨[], (List.append_nil _).symm, same⟩
    · rw [h3]
      refine ⟨[], (List.append_nil _).symm, fun t => ?_⟩
      by_cases ht : t = u
      · subst ht
        simp [World.pending, callsOf, begun, h1]
      · simp only [World.pending, Function.update_of_ne ht]
        exact same t
  | finish u =>
    rcases World.step_finish w u with h | ⟨r, new, out, s, h1, h2, h3⟩
    · rw [h]; exact ⟨[], (List.append_nil _).symm, same⟩
    · rw [h3]
      refine ⟨_, rfl, fun t => ?_⟩
      by_cases ht : t = u
      · subst ht
        simp [World.pending, World.ended, callsOf, begun, h1]
      · have hf : ¬ u = t := fun h => ht h.symm
        simp [World.pending, World.ended, callsOf, begun, Function.update_of_ne ht, hf]
  | abandon u s =>
    rcases World.step_abandon w u s with h | ⟨r, h1, h2⟩
    · rw [h]; exact ⟨[], (List.append_nil _).symm, same⟩
    · rw [h2]
      refine ⟨[], (List.append_nil _).symm, fun t => ?_⟩
      by_cases ht : t = u
      · subst ht
        simp [World.pending, callsOf]
      · simp only [World.pending, Function.update_of_ne ht]
        exact same t
  | drop u k =>
    rcases World.step_drop w u k with ⟨h1, h2⟩ | ⟨h1, h2⟩
    · rw [h2]; exact ⟨[], (List.append_nil _).symm, same⟩
    · rw [h2]; exact ⟨[], (List.append_nil _).symm, same⟩

/-- **C78** No call has results twice, results once there stay, and no thread's calls overtake each other: what a
schedule adds to the log are, for each thread, results of calls the thread began in it, in the order in which it began
them and each at most once. -/
theorem C78_once {w : World A rngs} (hw : w.Quiet) (es : List (Event A rngs)) :
    ∃ l, (w.run es).log = w.log ++ l ∧ ∀ t, (callsOf t l).Sublist (begun t es) := by
  have key : ∀ (es : List (Event A rngs)) (w : World A rngs), ∃ l, (w.run es).log = w.log ++ l ∧
      ∀ t, (callsOf t l ++ (w.run es).pending t).Sublist (w.pending t ++ begun t es) := by
    intro es
    induction es with
    | nil => intro w; exact ⟨[], (List.append_nil _).symm, fun t => List.sublist_append_left _ _⟩
    | cons e es ih =>
      intro w
      obtain ⟨l1, h1, g1⟩ := once_step w e
      obtain ⟨l2, h2, g2⟩ := ih (w.step e)
      refine ⟨l1 ++ l2, ?_, fun t => ?_⟩
      · rw [World.run_cons, h2, h1, List.append_assoc]
      · have e1 : callsOf t (l1 ++ l2) = callsOf t l1 ++ callsOf t l2 := by
          simp only [callsOf, List.filter_append, List.map_append]
        have e2 : begun t (e :: es) = begun t [e] ++ begun t es := by
          rw [show e :: es = [e] ++ es from rfl]
          exact List.filterMap_append
        rw [e1, e2, World.run_cons, List.append_assoc]
        refine (List.Sublist.append_left (g2 t) _).trans ?_
        rw [← List.append_assoc, ← List.append_assoc]
        exact (g1 t).append_right _
  obtain ⟨l, h1, h2⟩ := key es w
  refine ⟨l, h1, fun t => ?_⟩
  have h3 := h2 t
  rw [show w.pending t = [] by simp [World.pending, hw t], List.nil_append] at h3
  exact (List.sublist_append_left _ _).trans h3

/-! ### Threads do not notice each other -/

/-- Which thread does it -/
def Event.thread : Event A rngs → Nat
  | .begin t _ _ | .finish t | .abandon t _ | .drop t _ => t

/-- What is asked of an event if the threads of `T` take part: calls are made on the thread's own keys, or on those
of threads that take no part, as keys generated before the threads started are; a thread drops its own keys only. -/
def Apart (T : Nat → Prop) : Event A rngs → Prop
  | .begin t names _ => ∀ k ∈ names, k.1 = t ∨ ¬ T k.1
  | .drop t k => k.1 = t
  | _ => True

/-- What thread `t` has: its keys, its generator, its running call, and the results of its calls -/
def World.own (w : World A rngs) (t : Nat) : List (Option A.Key) × (rngs t).State × Option (Running A) × List (Entry A) :=
  (w.pool t, w.st t, w.busy t, w.log.filter (·.thread = t))

/-- Calls running refer to their thread's keys or to those of threads that take no part. -/
def Disciplined (T : Nat → Prop) (w : World A rngs) : Prop :=
  ∀ u r, w.busy u = some r → ∀ k ∈ r.names, k.1 = u ∨ ¬ T k.1

theorem Disciplined.step {T : Nat → Prop} {w : World A rngs} (h : Disciplined T w) {e : Event A rngs} (he : Apart T e) :
    Disciplined T (w.step e) := by
  cases e with
  | begin t names arg =>
    rcases World.step_begin w t names arg with h1 | ⟨keys, h1, h2, h3⟩
    · rw [h1]; exact h
    · rw [h3]
      intro u r hr
      dsimp only at hr
      by_cases hu : u = t
      · subst hu
        rw [Function.update_self] at hr
        obtain rfl := Option.some.inj hr
        exact he
      · rw [Function.update_of_ne hu] at hr
        exact h u r hr
  | finish t =>
    rcases World.step_finish w t with h1 | ⟨r, new, out, s, h1, h2, h3⟩
    · rw [h1]; exact h
    · rw [h3]
      intro u r hr
      simp only [World.ended] at hr
      by_cases hu : u = t
      · subst hu; rw [Function.update_self] at hr; nomatch hr
      · rw [Function.update_of_ne hu] at hr
        exact h u r hr
  | abandon t s =>
    rcases World.step_abandon w t s with h1 | ⟨r, h1, h2⟩
    · rw [h1]; exact h
    · rw [h2]
      intro u r hr
      dsimp only at hr
      by_cases hu : u = t
      · subst hu; rw [Function.update_self] at hr; nomatch hr
      · rw [Function.update_of_ne hu] at hr
        exact h u r hr
  | drop t k =>
    rcases World.step_drop w t k with ⟨h1, h2⟩ | ⟨h1, h2⟩
    · rw [h2]; exact h
    · rw [h2]; exact h

/-- An event of another thread leaves a thread's own things, and the pools of threads that take no part. -/
theorem own_step_ne {T : Nat → Prop} (w : World A rngs) {e : Event A rngs} (he : Apart T e) {t : Nat}
    (ht : e.thread ≠ t) : (w.step e).own t = w.own t := by
  cases e with
  | begin u names arg =>
    rcases World.step_begin w u names arg with h1 | ⟨keys, h1, h2, h3⟩
    · rw [h1]
    · rw [h3]
      simp only [World.own, Function.update_of_ne (show t ≠ u from fun h => ht h.symm)]
  | finish u =>
    rcases World.step_finish w u with h1 | ⟨r, new, out, s, h1, h2, h3⟩
    · rw [h1]
    · rw [h3]
      have hne : t ≠ u := fun h => ht h.symm
      simp only [World.own, World.ended, Function.update_of_ne hne, List.filter_append]
      rw [List.filter_cons_of_neg (by simpa using hne.symm), List.filter_nil, List.append_nil]
  | abandon u s =>
    rcases World.step_abandon w u s with h1 | ⟨r, h1, h2⟩
    · rw [h1]
    · rw [h2]
      simp only [World.own, Function.update_of_ne (show t ≠ u from fun h => ht h.symm)]
  | drop u k =>
    rcases World.step_drop w u k with ⟨h1, h2⟩ | ⟨h1, h2⟩
    · rw [h2]
    · rw [h2]
      have hk : k.1 = u := he
      simp only [World.own, Function.update_of_ne (show t ≠ k.1 from fun h => ht (hk ▸ h.symm))]

/-- What a thread's event does to what it has, given that and the keys of threads that take no part -/
theorem own_step {T : Nat → Prop} {w w' : World A rngs} (hw : Disciplined T w) (hw' : Disciplined T w')
    {e : Event A rngs} (he : Apart T e) (hT : T e.thread) (h : w.own e.thread = w'.own e.thread)
    (hp : ∀ u, ¬ T u → w.pool u = w'.pool u) : (w.step e).own e.thread = (w'.step e).own e.thread := by
  simp only [World.own, Prod.mk.injEq] at h
  obtain ⟨h1, h2, h3, h4⟩ := h
  cases e with
  | begin t names arg =>
    have hn : names.mapM (World.get w.pool) = names.mapM (World.get w'.pool) := by
      refine World.mapM_congr fun k hk => ?_
      unfold World.get
      rcases he k hk with h | h
      · rw [h, show w.pool t = w'.pool t from h1]
      · rw [hp _ h]
    have h3' : w.busy t = w'.busy t := h3
    simp only [World.step, h3', hn, Event.thread]
    cases hb : w'.busy t with
    | some r => simp only [World.own, Prod.mk.injEq]; exact ⟨h1, h2, h3, h4⟩
    | none =>
      cases hm : names.mapM (World.get w'.pool) with
      | none => simp only [World.own, Prod.mk.injEq]; exact ⟨h1, h2, h3, h4⟩
      | some keys =>
        simp only [World.own, Prod.mk.injEq, Function.update_self, true_and]
        exact ⟨h1, h2, h4⟩
  | finish t =>
    have h2' : w.st t = w'.st t := h2
    have h3' : w.busy t = w'.busy t := h3
    have hsame : w.own t = w'.own t := by simp only [World.own, Prod.mk.injEq]; exact ⟨h1, h2, h3, h4⟩
    simp only [World.step, h3', h2', Event.thread]
    cases hb : w'.busy t with
    | none => exact hsame
    | some r =>
      dsimp only
      cases hx : A.exec r.keys r.arg (rngs t) (w'.st t) with
      | ok x =>
        obtain ⟨⟨new, out⟩, s⟩ := x
        have h1' : w.pool t = w'.pool t := h1
        have h4' : w.log.filter (·.thread = t) = w'.log.filter (·.thread = t) := h4
        simp only [World.own, World.ended, Function.update_self, h1', List.filter_append, h4']
      | panic => exact hsame
      | div => exact hsame
  | abandon t s =>
    have h3' : w.busy t = w'.busy t := h3
    have hsame : w.own t = w'.own t := by simp only [World.own, Prod.mk.injEq]; exact ⟨h1, h2, h3, h4⟩
    simp only [World.step, h3', Event.thread]
    cases hb : w'.busy t with
    | none => exact hsame
    | some r =>
      simp only [World.own, Function.update_self, Prod.mk.injEq, true_and]
      exact ⟨h1, h4⟩
  | drop t k =>
    have hk : k.1 = t := he
    have hB : ∀ {v v' : World A rngs}, Disciplined T v → v.busy t = v'.busy t → v.Borrowed k → v'.Borrowed k := by
      rintro v v' hv hb ⟨u, r, hr, hm⟩
      rcases hv u r hr k hm with h | h
      · refine ⟨t, r, ?_, hm⟩
        rw [← hb, ← hk, h, hr]
      · exact absurd (hk ▸ hT) h
    have hiff : w.Borrowed k ↔ w'.Borrowed k := ⟨hB hw h3, hB hw' h3.symm⟩
    have h1' : w.pool t = w'.pool t := h1
    have hsame : w.own t = w'.own t := by simp only [World.own, Prod.mk.injEq]; exact ⟨h1, h2, h3, h4⟩
    simp only [Event.thread]
    rcases World.step_drop w t k with ⟨g1, g2⟩ | ⟨g1, g2⟩ <;> rcases World.step_drop w' t k with ⟨g3, g4⟩ | ⟨g3, g4⟩
    · rw [g2, g4]; exact hsame
    · exact absurd (hiff.1 g1) g3
    · exact absurd (hiff.2 g3) g1
    · rw [g2, g4]
      simp only [World.own, Prod.mk.injEq, hk, Function.update_self, h1', true_and]
      exact ⟨h2, h3, h4⟩

/-- **C78** If threads make calls on their own keys and on those there before any of them started, and drop their own
only, then what a thread has at the end, the results of its calls included, is what it would have had if the others had
done nothing: however their steps are interleaved with its own, and whichever of their calls hang or are abandoned. -/
theorem C78_alone {w : World A rngs} (hw : w.Quiet) (es : List (Event A rngs))
    (hes : ∀ e ∈ es, Apart (fun u => ∃ e' ∈ es, e'.thread = u) e) (t : Nat) :
    (w.run es).own t = (w.run (es.filter (·.thread = t))).own t := by
  have key : ∀ (T : Nat → Prop) (es : List (Event A rngs)) (w w' : World A rngs), (∀ e ∈ es, Apart T e ∧ T e.thread) →
      Disciplined T w → Disciplined T w' → w.own t = w'.own t → (∀ u, ¬ T u → w.pool u = w'.pool u) →
      (w.run es).own t = (w'.run (es.filter (·.thread = t))).own t := by
    intro T es
    induction es with
    | nil => intro w w' _ _ _ h _; exact h
    | cons e es ih =>
      intro w w' he hw hw' h hp
      obtain ⟨h1, h2⟩ := he e List.mem_cons_self
      have pools : ∀ (v : World A rngs) (u : Nat), ¬ T u → (v.step e).pool u = v.pool u := fun v u hu =>
        congrArg Prod.fst (own_step_ne v h1 (t := u) fun hh => hu (hh ▸ h2))
      by_cases ht : e.thread = t
      · rw [List.filter_cons_of_pos (by simpa using ht)]
        refine ih _ _ (fun x hx => he x (List.mem_cons_of_mem _ hx)) (hw.step h1) (hw'.step h1) ?_ fun u hu => ?_
        · subst ht
          exact own_step hw hw' h1 h2 h hp
        · rw [pools w u hu, pools w' u hu, hp u hu]
      · rw [List.filter_cons_of_neg (by simpa using ht)]
        refine ih _ _ (fun x hx => he x (List.mem_cons_of_mem _ hx)) (hw.step h1) hw' ?_ fun u hu => ?_
        · rw [own_step_ne w h1 ht, h]
        · rw [pools w u hu, hp u hu]
  have hd : Disciplined (fun u => ∃ e' ∈ es, e'.thread = u) w := fun u r hr => by rw [hw u] at hr; nomatch hr
  exact key _ es w w (fun e he => ⟨hes e he, e, he, rfl⟩) hd hd rfl fun _ _ => rfl

/-- **C78** Two schedules of the same threads, each thread doing the same in both, give every thread the same. -/
theorem C78_schedules {w : World A rngs} (hw : w.Quiet) {es es' : List (Event A rngs)}
    (h : ∀ t, es.filter (·.thread = t) = es'.filter (·.thread = t))
    (hes : ∀ e ∈ es, Apart (fun u => ∃ e' ∈ es, e'.thread = u) e) (t : Nat) :
    (w.run es).own t = (w.run es').own t := by
  have hmem : ∀ e, e ∈ es' ↔ e ∈ es := fun e => by
    have h1 : e ∈ es ↔ e ∈ es.filter (·.thread = e.thread) := by rw [List.mem_filter]; simp
    have h2 : e ∈ es' ↔ e ∈ es'.filter (·.thread = e.thread) := by rw [List.mem_filter]; simp
    rw [h1, h2, h]
  have hT : (fun u => ∃ e' ∈ es', Event.thread e' = u) = fun u => ∃ e' ∈ es, Event.thread e' = u := by
    funext u
    simp only [hmem]
  rw [C78_alone hw es hes, C78_alone hw es' (fun e he => by rw [hT]; exact hes e ((hmem e).1 he)), h]

/-- **C78** Names stand for fixed keys: there is one assignment of keys to names such that every call that ended, in any
thread, had the results of a call on the keys of its names, and the names of its new keys stand for the keys it returned.
All keys with a name came from such a call. -/
theorem C78_explained (st : (t : Nat) → (rngs t).State) (es : List (Event A rngs)) :
    ∃ key : Name → Option A.Key,
      (∀ e ∈ ((start (A := A) st).run es).log, ∃ keys new, ∃ s s' : (rngs e.thread).State,
        e.names.mapM key = some keys ∧ A.exec keys e.arg (rngs e.thread) s = .ok ((new, e.out), s') ∧
        e.new.mapM key = some new) ∧
      (∀ k x, key k = some x → ∃ e ∈ ((start (A := A) st).run es).log, k ∈ e.new) ∧
      (∀ k x, World.get ((start (A := A) st).run es).pool k = some x → key k = some x) := by
  obtain ⟨K, h⟩ := World.explained (G := fun _ => True) (fun _ _ _ _ _ _ _ _ _ _ _ => trivial) st es
  exact ⟨World.look K, h.log, h.prov, h.live⟩

end Threads
