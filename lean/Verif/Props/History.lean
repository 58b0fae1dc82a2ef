import Verif.Model.History
import Verif.Props.KemKeys
/-! C47: arbitrary histories of API calls. -/
namespace MlKem.History
open Rust Fips203

variable [Build]

variable (S : Sha3) {P : ParameterSet} {p : Params} {rng : Rng}

/-- An observation is explained by the keys that were obtained at each index. -/
def Explains (kd : List (DecapsulationKey P)) (ke : List (EncapsulationKey P)) : Obs P → Prop
  | .generated i j d z => ∃ dk ek, kd[i]? = some dk ∧ ke[j]? = some ek ∧
      Kem.generate_deterministic S P d z = .ok (dk, ek)
  | .extracted i j => ∃ dk, kd[i]? = some dk ∧ ke[j]? = some dk.encapsulation_key
  | .dkBytes i b => ∃ dk, kd[i]? = some dk ∧ dk.as_bytes = .ok b
  | .ekBytes j b => ∃ ek, ke[j]? = some ek ∧ ek.as_bytes = .ok b
  | .encaps j c K => ∃ ek m, ke[j]? = some ek ∧ ek.encapsulate_deterministic S m = .ok (c, K)
  | .encapsDet j m c K => ∃ ek, ke[j]? = some ek ∧ ek.encapsulate_deterministic S m = .ok (c, K)
  | .decaps i c K => ∃ dk, kd[i]? = some dk ∧ dk.decapsulate S c = .ok K

/-- Every live key is the one obtained at its index. -/
def Live {α : Type} (pool : List (Option α)) (keys : List α) : Prop :=
  pool.length = keys.length ∧ ∀ (i : Nat) (k : α), pool[i]? = some (some k) → keys[i]? = some k

omit [Build] in
theorem Live.push {α : Type} {pool : List (Option α)} {keys : List α} (h : Live pool keys) (k : α) :
    Live (pool ++ [some k]) (keys ++ [k]) := by
  refine ⟨by simp [h.1], fun i x hx => ?_⟩
  rcases Nat.lt_trichotomy i pool.length with hi | hi | hi
  · rw [List.getElem?_append_left hi] at hx
    rw [List.getElem?_append_left (by rw [← h.1]; exact hi)]
    exact h.2 i x hx
  · rw [List.getElem?_append_right (by omega)] at hx
    rw [List.getElem?_append_right (by rw [← h.1]; omega), ← h.1]
    simpa [hi] using hx
  · rw [List.getElem?_eq_none (by simp; omega)] at hx
    nomatch hx

omit [Build] in
theorem Live.drop {α : Type} {pool : List (Option α)} {keys : List α} (h : Live pool keys) (i : Nat) :
    Live (pool.set i none) keys := by
  refine ⟨by simp [h.1], fun j x hx => ?_⟩
  rw [List.getElem?_set] at hx
  split at hx
  · split at hx <;> nomatch hx
  · exact h.2 j x hx

omit [Build] in
theorem get_append {α : Type} {l : List α} {i : Nat} {x : α} (h : l[i]? = some x) (l' : List α) :
    (l ++ l')[i]? = some x := by
  have hi : i < l.length := (List.getElem?_eq_some_iff.1 h).1
  rw [List.getElem?_append_left hi, h]

theorem Explains.append {kd : List (DecapsulationKey P)} {ke : List (EncapsulationKey P)} {o : Obs P}
    (h : Explains S kd ke o) (kd' ke') : Explains S (kd ++ kd') (ke ++ ke') o := by
  cases o with
  | generated i j d z =>
    obtain ⟨dk, ek, h1, h2, h3⟩ := h
    exact ⟨dk, ek, get_append h1 _, get_append h2 _, h3⟩
  | extracted i j => obtain ⟨dk, h1, h2⟩ := h; exact ⟨dk, get_append h1 _, get_append h2 _⟩
  | dkBytes i b => obtain ⟨dk, h1, h2⟩ := h; exact ⟨dk, get_append h1 _, h2⟩
  | ekBytes i b => obtain ⟨dk, h1, h2⟩ := h; exact ⟨dk, get_append h1 _, h2⟩
  | encaps j c K => obtain ⟨ek, m, h1, h2⟩ := h; exact ⟨ek, m, get_append h1 _, h2⟩
  | encapsDet j m c K => obtain ⟨dk, h1, h2⟩ := h; exact ⟨dk, get_append h1 _, h2⟩
  | decaps i c K => obtain ⟨dk, h1, h2⟩ := h; exact ⟨dk, get_append h1 _, h2⟩

/-- The keys obtained so far are keys a caller can hold, and explain the pool. -/
structure Inv (w : World P rng) (kd : List (DecapsulationKey P)) (ke : List (EncapsulationKey P)) :
    Prop where
  dks : Live w.dks kd
  eks : Live w.eks ke
  dk : ∀ k ∈ kd, DkReach S k
  ek : ∀ k ∈ ke, EkHeld S k

omit [Build] in
theorem forall_append_single {α : Type} {Q : α → Prop} {l : List α} {x : α} (h : ∀ k ∈ l, Q k) (hx : Q x) :
    ∀ k ∈ l ++ [x], Q k := by
  intro k hk
  rcases List.mem_append.1 hk with hk | hk
  · exact h k hk
  · rw [List.mem_singleton.1 hk]; exact hx

omit [Build] in
theorem getElem?_concat {α : Type} {l : List α} {n : Nat} (h : n = l.length) (x : α) :
    (l ++ [x])[n]? = some x := by
  subst h; simp

theorem step_inv {w w' : World P rng} {op : Op P} {os} {kd ke} (hi : Inv S w kd ke)
    (h : step S w op = .ok (w', os)) :
    ∃ kd' ke', Inv S w' (kd ++ kd') (ke ++ ke') ∧ (∀ o ∈ os, Explains S (kd ++ kd') (ke ++ ke') o) ∧
      ∀ k ∈ ke', EkReach S k ∨
        ∃ i j, .extracted i j ∈ os ∧ ke' = [k] ∧ j = ke.length := by
  cases op with
  | generate =>
    simp only [step, Res.bind_eq_ok] at h
    obtain ⟨⟨⟨dk, ek⟩, st⟩, h1, h2⟩ := h
    simp only [Res.ok.injEq, Prod.mk.injEq] at h2
    obtain ⟨rfl, rfl⟩ := h2
    obtain ⟨d, z, -, -, -, hg⟩ := sampled_generated S h1
    refine ⟨[dk], [ek], ⟨hi.dks.push dk, hi.eks.push ek, forall_append_single hi.dk (.generated hg),
      forall_append_single hi.ek (.reach (.generated hg))⟩, by simp, ?_⟩
    simpa using (EkReach.generated hg)
  | generateDet d z =>
    simp only [step, Res.bind_eq_ok] at h
    obtain ⟨⟨dk, ek⟩, h1, h2⟩ := h
    simp only [Res.ok.injEq, Prod.mk.injEq] at h2
    obtain ⟨rfl, rfl⟩ := h2
    refine ⟨[dk], [ek], ⟨hi.dks.push dk, hi.eks.push ek, forall_append_single hi.dk (.generated h1),
      forall_append_single hi.ek (.reach (.generated h1))⟩, ?_, ?_⟩
    · intro o ho
      obtain rfl := List.mem_singleton.1 ho
      exact ⟨dk, ek, getElem?_concat hi.dks.1 _, getElem?_concat hi.eks.1 _, h1⟩
    · simpa using (EkReach.generated h1)
  | parseDk b =>
    simp only [step, Res.bind_eq_ok] at h
    obtain ⟨dk, h1, h2⟩ := h
    simp only [Res.ok.injEq, Prod.mk.injEq] at h2
    obtain ⟨rfl, rfl⟩ := h2
    exact ⟨[dk], [], ⟨hi.dks.push dk, by simpa using hi.eks, forall_append_single hi.dk (.parsed h1),
      by simpa using hi.ek⟩, by simp, by simp⟩
  | parseEk b =>
    simp only [step, Res.bind_eq_ok] at h
    obtain ⟨ek, h1, h2⟩ := h
    simp only [Res.ok.injEq, Prod.mk.injEq] at h2
    obtain ⟨rfl, rfl⟩ := h2
    refine ⟨[], [ek], ⟨by simpa using hi.dks, hi.eks.push ek, by simpa using hi.dk,
      forall_append_single hi.ek (.reach (.parsed h1))⟩, by simp, ?_⟩
    simpa using (EkReach.parsed h1)
  | extract i =>
    simp only [step] at h
    split at h
    · rename_i dk hd
      simp only [Res.ok.injEq, Prod.mk.injEq] at h
      obtain ⟨rfl, rfl⟩ := h
      have hm : dk ∈ kd := List.mem_of_getElem? (hi.dks.2 i dk hd)
      refine ⟨[], [dk.encapsulation_key], ⟨by simpa using hi.dks, hi.eks.push _, by simpa using hi.dk,
        forall_append_single hi.ek (.ofDk (hi.dk dk hm))⟩, ?_, ?_⟩
      · intro o ho
        obtain rfl := List.mem_singleton.1 ho
        exact ⟨dk, by simpa using hi.dks.2 i dk hd, getElem?_concat hi.eks.1 _⟩
      · intro k hk
        obtain rfl := List.mem_singleton.1 hk
        exact .inr ⟨i, _, List.mem_singleton.2 rfl, rfl, hi.eks.1⟩
    · simp only [Res.ok.injEq, Prod.mk.injEq] at h
      obtain ⟨rfl, rfl⟩ := h
      exact ⟨[], [], by simpa using hi, by simp, by simp⟩
  | writeDk i =>
    simp only [step] at h
    split at h
    · rename_i dk hd
      rw [Res.bind_eq_ok] at h
      obtain ⟨b, h1, h2⟩ := h
      simp only [Res.ok.injEq, Prod.mk.injEq] at h2
      obtain ⟨rfl, rfl⟩ := h2
      exact ⟨[], [], by simpa using hi, by simpa using ⟨dk, hi.dks.2 i dk hd, h1⟩, by simp⟩
    · simp only [Res.ok.injEq, Prod.mk.injEq] at h
      obtain ⟨rfl, rfl⟩ := h
      exact ⟨[], [], by simpa using hi, by simp, by simp⟩
  | writeEk i =>
    simp only [step] at h
    split at h
    · rename_i dk hd
      rw [Res.bind_eq_ok] at h
      obtain ⟨b, h1, h2⟩ := h
      simp only [Res.ok.injEq, Prod.mk.injEq] at h2
      obtain ⟨rfl, rfl⟩ := h2
      exact ⟨[], [], by simpa using hi, by simpa using ⟨dk, hi.eks.2 i dk hd, h1⟩, by simp⟩
    · simp only [Res.ok.injEq, Prod.mk.injEq] at h
      obtain ⟨rfl, rfl⟩ := h
      exact ⟨[], [], by simpa using hi, by simp, by simp⟩
  | encaps j =>
    simp only [step] at h
    split at h
    · rename_i ek hd
      rw [Res.bind_eq_ok] at h
      obtain ⟨⟨⟨c, K⟩, st⟩, h1, h2⟩ := h
      simp only [Res.ok.injEq, Prod.mk.injEq] at h2
      obtain ⟨rfl, rfl⟩ := h2
      unfold EncapsulationKey.encapsulate at h1
      rw [Res.bind_eq_ok] at h1
      obtain ⟨⟨m, s1⟩, -, h1⟩ := h1
      rw [Res.bind_eq_ok] at h1
      obtain ⟨ck, h1, h2⟩ := h1
      simp only [Res.ok.injEq, Prod.mk.injEq] at h2
      obtain ⟨rfl, rfl⟩ := h2
      refine ⟨[], [], ⟨by simpa using hi.dks, by simpa using hi.eks, by simpa using hi.dk,
        by simpa using hi.ek⟩, ?_, by simp⟩
      intro o ho
      obtain rfl := List.mem_singleton.1 ho
      exact ⟨ek, m, by simpa using hi.eks.2 j ek hd, h1⟩
    · simp only [Res.ok.injEq, Prod.mk.injEq] at h
      obtain ⟨rfl, rfl⟩ := h
      exact ⟨[], [], by simpa using hi, by simp, by simp⟩
  | encapsDet j m =>
    simp only [step] at h
    split at h
    · rename_i ek hd
      rw [Res.bind_eq_ok] at h
      obtain ⟨⟨c, K⟩, h1, h2⟩ := h
      simp only [Res.ok.injEq, Prod.mk.injEq] at h2
      obtain ⟨rfl, rfl⟩ := h2
      exact ⟨[], [], by simpa using hi, by simpa using ⟨ek, hi.eks.2 j ek hd, h1⟩, by simp⟩
    · simp only [Res.ok.injEq, Prod.mk.injEq] at h
      obtain ⟨rfl, rfl⟩ := h
      exact ⟨[], [], by simpa using hi, by simp, by simp⟩
  | decaps i c =>
    simp only [step] at h
    split at h
    · rename_i dk hd
      rw [Res.bind_eq_ok] at h
      obtain ⟨K, h1, h2⟩ := h
      simp only [Res.ok.injEq, Prod.mk.injEq] at h2
      obtain ⟨rfl, rfl⟩ := h2
      exact ⟨[], [], by simpa using hi, by simpa using ⟨dk, hi.dks.2 i dk hd, h1⟩, by simp⟩
    · simp only [Res.ok.injEq, Prod.mk.injEq] at h
      obtain ⟨rfl, rfl⟩ := h
      exact ⟨[], [], by simpa using hi, by simp, by simp⟩
  | dropDk i =>
    simp only [step, Res.ok.injEq, Prod.mk.injEq] at h
    obtain ⟨rfl, rfl⟩ := h
    exact ⟨[], [], ⟨by simpa using hi.dks.drop i, by simpa using hi.eks, by simpa using hi.dk,
      by simpa using hi.ek⟩, by simp, by simp⟩
  | dropEk i =>
    simp only [step, Res.ok.injEq, Prod.mk.injEq] at h
    obtain ⟨rfl, rfl⟩ := h
    exact ⟨[], [], ⟨by simpa using hi.dks, by simpa using hi.eks.drop i, by simpa using hi.dk,
      by simpa using hi.ek⟩, by simp, by simp⟩

theorem run_inv {ops : List (Op P)} {w w' : World P rng} {log} {kd ke} (hi : Inv S w kd ke)
    (h : run S w ops = .ok (w', log)) :
    ∃ kd' ke', Inv S w' (kd ++ kd') (ke ++ ke') ∧ ∀ o ∈ log, Explains S (kd ++ kd') (ke ++ ke') o := by
  induction ops generalizing w log kd ke with
  | nil =>
    simp only [run, Res.ok.injEq, Prod.mk.injEq] at h
    obtain ⟨rfl, rfl⟩ := h
    exact ⟨[], [], by simpa using hi, by simp⟩
  | cons op ops ih =>
    simp only [run, Res.bind_eq_ok] at h
    obtain ⟨⟨w1, o⟩, h1, ⟨w2, os⟩, h2, h3⟩ := h
    simp only [Res.ok.injEq, Prod.mk.injEq] at h3
    obtain ⟨rfl, rfl⟩ := h3
    obtain ⟨kd1, ke1, hi1, ho1, -⟩ := step_inv S hi h1
    obtain ⟨kd2, ke2, hi2, ho2⟩ := ih hi1 h2
    refine ⟨kd1 ++ kd2, ke1 ++ ke2, by simpa using hi2, ?_⟩
    intro x hx
    rcases List.mem_append.1 hx with hx | hx
    · simpa using (ho1 x hx).append S kd2 ke2
    · simpa using ho2 x hx

theorem inv_start (st : rng.State) : Inv S (start (P := P) st) [] [] :=
  ⟨⟨rfl, by simp [start]⟩, ⟨rfl, by simp [start]⟩, by simp, by simp⟩

/-- Every history is explained by the keys obtained in it. -/
theorem explained {ops : List (Op P)} {st : rng.State} {w log} (h : run S (start st) ops = .ok (w, log)) :
    ∃ kd ke, (∀ k ∈ kd, DkReach S k) ∧ (∀ k ∈ ke, EkHeld S k) ∧ ∀ o ∈ log, Explains S kd ke o := by
  obtain ⟨kd, ke, hi, ho⟩ := run_inv S (inv_start S st) h
  exact ⟨_, _, hi.dk, hi.ek, ho⟩

/-- **C47** Whatever was called before, in between or after: a key's encoding never changes, and
decapsulating the same ciphertext, or encapsulating the same message, always gives the same result. -/
theorem C47_stable {ops : List (Op P)} {st : rng.State} {w log}
    (h : run S (start st) ops = .ok (w, log)) :
    (∀ {i b b'}, .dkBytes i b ∈ log → .dkBytes i b' ∈ log → b = b') ∧
    (∀ {j b b'}, .ekBytes j b ∈ log → .ekBytes j b' ∈ log → b = b') ∧
    (∀ {i c K K'}, .decaps i c K ∈ log → .decaps i c K' ∈ log → K = K') ∧
    (∀ {j m c K c' K'}, .encapsDet j m c K ∈ log → .encapsDet j m c' K' ∈ log → c = c' ∧ K = K') := by
  obtain ⟨kd, ke, -, -, ho⟩ := explained S h
  refine ⟨?_, ?_, ?_, ?_⟩
  · intro i b b' h1 h2
    obtain ⟨k, g1, g2⟩ := ho _ h1
    obtain ⟨k', g1', g2'⟩ := ho _ h2
    obtain rfl := Option.some.inj (g1.symm.trans g1')
    exact Res.ok.inj (g2.symm.trans g2')
  · intro i b b' h1 h2
    obtain ⟨k, g1, g2⟩ := ho _ h1
    obtain ⟨k', g1', g2'⟩ := ho _ h2
    obtain rfl := Option.some.inj (g1.symm.trans g1')
    exact Res.ok.inj (g2.symm.trans g2')
  · intro i c K K' h1 h2
    obtain ⟨k, g1, g2⟩ := ho _ h1
    obtain ⟨k', g1', g2'⟩ := ho _ h2
    obtain rfl := Option.some.inj (g1.symm.trans g1')
    exact Res.ok.inj (g2.symm.trans g2')
  · intro i m c K c' K' h1 h2
    obtain ⟨k, g1, g2⟩ := ho _ h1
    obtain ⟨k', g1', g2'⟩ := ho _ h2
    obtain rfl := Option.some.inj (g1.symm.trans g1')
    exact Prod.mk.inj (Res.ok.inj (g2.symm.trans g2'))

/-- **C47** Every decapsulation seen in a history is FIPS 203's on the key's encoding, wherever in the
history that encoding was seen. -/
theorem C47_decaps (hP : Supported P p) {ops : List (Op P)} {st : rng.State} {w log}
    (h : run S (start st) ops = .ok (w, log)) {i b c K} (hb : .dkBytes i b ∈ log)
    (hd : .decaps i c K ∈ log) : K.toList = Decaps_internal S p b.toList c.toList := by
  obtain ⟨kd, ke, hdk, -, ho⟩ := explained S h
  obtain ⟨k, g1, g2⟩ := ho _ hb
  obtain ⟨k', g1', g2'⟩ := ho _ hd
  obtain rfl := Option.some.inj (g1.symm.trans g1')
  have hr := hdk k (List.mem_of_getElem? g1)
  obtain ⟨db, e1, e2⟩ := C03_decaps_of_held S hP hr c
  obtain ⟨-, db', e3, e4⟩ := C04_decaps_outcome S hP hr c
  obtain rfl := Res.ok.inj (g2.symm.trans e1)
  obtain rfl := Res.ok.inj (g2.symm.trans e3)
  obtain ⟨K', e5, e6⟩ := e2 (e4.1 ⟨_, g2'⟩)
  obtain rfl := Res.ok.inj (g2'.symm.trans e5)
  exact e6

/-- **C47** Sessions do not interfere: a key pair generated anywhere in a history, an encapsulation to
it and a decapsulation of that ciphertext agree, whatever else happened, if the noise of the values
used is in its window. -/
theorem C47_agree (hP : Supported P p) (hdu : p.du ≤ 11) (hdv : p.dv ≤ 11) {ops : List (Op P)}
    {st : rng.State} {w log} (h : run S (start st) ops = .ok (w, log)) {i j d z m c K K'}
    (hg : .generated i j d z ∈ log) (he : .encapsDet j m c K ∈ log) (hd : .decaps i c K' ∈ log)
    (hn : NoiseOk S p d.toList m.toList
      (encapsRandomness S (KeyGen_internal S p d.toList z.toList).1 m.toList)) : K' = K := by
  obtain ⟨kd, ke, -, -, ho⟩ := explained S h
  obtain ⟨dk, ek, g1, g2, g3⟩ := ho _ hg
  obtain ⟨ek', e1, e2⟩ := ho _ he
  obtain ⟨dk', d1, d2⟩ := ho _ hd
  obtain rfl := Option.some.inj (g1.symm.trans d1)
  obtain rfl := Option.some.inj (g2.symm.trans e1)
  have := C05_decaps_encaps S hP hdu hdv g3 e2 hn
  exact Res.ok.inj (d2.symm.trans this)

theorem run_reach {ops : List (Op P)} {w w' : World P rng} {log} {kd ke} (hi : Inv S w kd ke)
    (h : run S w ops = .ok (w', log)) :
    ∃ kd' ke', (∀ k ∈ kd ++ kd', DkReach S k) ∧ (∀ k ∈ ke ++ ke', EkHeld S k) ∧
      (∀ o ∈ log, Explains S (kd ++ kd') (ke ++ ke') o) ∧
      ∀ j k, ke.length ≤ j → (ke ++ ke')[j]? = some k → EkReach S k ∨ ∃ i, .extracted i j ∈ log := by
  induction ops generalizing w log kd ke with
  | nil =>
    simp only [run, Res.ok.injEq, Prod.mk.injEq] at h
    obtain ⟨rfl, rfl⟩ := h
    refine ⟨[], [], by simpa using hi.dk, by simpa using hi.ek, by simp, fun j k hj hk => ?_⟩
    rw [List.append_nil, List.getElem?_eq_none hj] at hk
    nomatch hk
  | cons op ops ih =>
    simp only [run, Res.bind_eq_ok] at h
    obtain ⟨⟨w1, o⟩, h1, ⟨w2, os⟩, h2, h3⟩ := h
    simp only [Res.ok.injEq, Prod.mk.injEq] at h3
    obtain ⟨rfl, rfl⟩ := h3
    obtain ⟨kd1, ke1, hi1, ho1, he1⟩ := step_inv S hi h1
    obtain ⟨kd2, ke2, hd2, hk2, ho2, he2⟩ := ih hi1 h2
    refine ⟨kd1 ++ kd2, ke1 ++ ke2, by simpa using hd2, by simpa using hk2, ?_, fun j k hj hk => ?_⟩
    · intro x hx
      rcases List.mem_append.1 hx with hx | hx
      · simpa using (ho1 x hx).append S kd2 ke2
      · simpa using ho2 x hx
    · rw [← List.append_assoc] at hk
      rcases Nat.lt_or_ge j (ke ++ ke1).length with hlt | hge
      · rw [List.getElem?_append_left hlt, List.getElem?_append_right hj] at hk
        rcases he1 k (List.mem_of_getElem? hk) with hr | ⟨i, j', hm, rfl, rfl⟩
        · exact .inl hr
        · have : j = ke.length := by simp at hlt; omega
          exact .inr ⟨i, List.mem_append_left _ (this ▸ hm)⟩
      · rcases he2 j k hge hk with hr | ⟨i, hm⟩
        · exact .inl hr
        · exact .inr ⟨i, List.mem_append_right _ hm⟩

/-- **C47** Every encapsulation seen in a history is FIPS 203's on the key's encoding, wherever that was
seen, for every key that was not itself taken out of a decapsulation key. -/
theorem C47_encaps (hP : Supported P p) {ops : List (Op P)} {st : rng.State} {w log}
    (h : run S (start st) ops = .ok (w, log)) {j} (hno : ∀ i, .extracted i j ∉ log) {b c K}
    (hb : .ekBytes j b ∈ log) :
    (∀ {m}, .encapsDet j m c K ∈ log →
      K.toList = (Encaps_internal S p b.toList m.toList).1 ∧
      c.toList = (Encaps_internal S p b.toList m.toList).2) ∧
    (.encaps j c K ∈ log → ∃ m : B32,
      K.toList = (Encaps_internal S p b.toList m.toList).1 ∧
      c.toList = (Encaps_internal S p b.toList m.toList).2) := by
  obtain ⟨kd, ke, -, -, ho, hek⟩ := run_reach S (inv_start S st) h
  simp only [List.nil_append] at ho hek
  obtain ⟨k, g1, g2⟩ := ho _ hb
  have hr := (hek j k (Nat.zero_le _) g1).resolve_right fun ⟨i, hi⟩ => hno i hi
  have key : ∀ m, k.encapsulate_deterministic S m = .ok (c, K) →
      K.toList = (Encaps_internal S p b.toList m.toList).1 ∧
      c.toList = (Encaps_internal S p b.toList m.toList).2 := by
    intro m hm
    obtain ⟨eb, e1, e2⟩ := C02_encaps_is_fips203 S hP hr m
    obtain ⟨-, eb', e3, e4⟩ := C04_encaps_outcome S hP (.reach hr) m
    obtain rfl := Res.ok.inj (g2.symm.trans e1)
    obtain rfl := Res.ok.inj (g2.symm.trans e3)
    obtain ⟨c', K', e5, e6⟩ := e2 (e4.1 ⟨_, hm⟩)
    obtain ⟨rfl, rfl⟩ := Prod.mk.inj (Res.ok.inj (hm.symm.trans e5))
    exact e6
  constructor
  · intro m hm
    obtain ⟨k', g1', g2'⟩ := ho _ hm
    obtain rfl := Option.some.inj (g1.symm.trans g1')
    exact key m g2'
  · intro hm
    obtain ⟨k', m, g1', g2'⟩ := ho _ hm
    obtain rfl := Option.some.inj (g1.symm.trans g1')
    exact ⟨m, key m g2'⟩

/-- **C47** Every encapsulation seen in a history to a key taken out of decapsulation key `i` is FIPS
203's on the encapsulation key and the hash stored in the encoding of `i`, wherever that was seen. -/
theorem C47_encaps_extracted (hP : Supported P p) {ops : List (Op P)} {st : rng.State} {w log}
    (h : run S (start st) ops = .ok (w, log)) {i j} (hx : .extracted i j ∈ log) {b c K}
    (hb : .dkBytes i b ∈ log) :
    (∀ {m}, .encapsDet j m c K ∈ log →
      K.toList = (Fips203.G S (m.toList ++ dkH p b.toList)).1 ∧
      c.toList = KPKE_Encrypt S p (dkEk p b.toList) m.toList
        (Fips203.G S (m.toList ++ dkH p b.toList)).2) ∧
    (.encaps j c K ∈ log → ∃ m : B32,
      K.toList = (Fips203.G S (m.toList ++ dkH p b.toList)).1 ∧
      c.toList = KPKE_Encrypt S p (dkEk p b.toList) m.toList
        (Fips203.G S (m.toList ++ dkH p b.toList)).2) := by
  obtain ⟨kd, ke, hdk, -, ho⟩ := explained S h
  obtain ⟨dk, g1, g2⟩ := ho _ hx
  obtain ⟨dk', e1, e2⟩ := ho _ hb
  obtain rfl := Option.some.inj (g1.symm.trans e1)
  have hr := hdk dk (List.mem_of_getElem? g1)
  constructor
  · intro m hm
    obtain ⟨k', g1', g2'⟩ := ho _ hm
    obtain rfl := Option.some.inj (g2.symm.trans g1')
    exact C50_extracted_encaps S hP hr e2 g2'
  · intro hm
    obtain ⟨k', m, g1', g2'⟩ := ho _ hm
    obtain rfl := Option.some.inj (g2.symm.trans g1')
    exact ⟨m, C50_extracted_encaps S hP hr e2 g2'⟩

theorem ekRho_keygen (d z : List UInt8) :
    ekRho p (KeyGen_internal S p d z).1 = (seeds S p d).1 := by
  show ((KPKE_KeyGen S p d).1.drop (384 * p.k)).take 32 = _
  rw [KPKE_KeyGen_eq, List.drop_left' (enc12_length _),
    List.take_of_length_le (seeds_length S _ _).1.le]

/-- **C47** Keys may travel: wherever in a history the two keys came from (generated, drawn, parsed from
bytes stored or received, or taken out), if their encodings are those of one FIPS 203 key pair, then an
encapsulation to one and a decapsulation of that ciphertext with the other agree, if the noise of the
values used is in its window. Only an encapsulation key taken out of a different decapsulation key is
excluded: C50 shows that it may hold another hash. -/
theorem C47_agree_encodings (hP : Supported P p) (hdu : p.du ≤ 11) (hdv : p.dv ≤ 11) {ops : List (Op P)}
    {st : rng.State} {w log} (h : run S (start st) ops = .ok (w, log)) {i j bd be m c K K'} {d z : B32}
    (hbd : .dkBytes i bd ∈ log) (hbe : .ekBytes j be ∈ log)
    (hpair : (be.toList, bd.toList) = KeyGen_internal S p d.toList z.toList)
    (hx : ∀ i', .extracted i' j ∈ log → i' = i)
    (he : .encapsDet j m c K ∈ log) (hd : .decaps i c K' ∈ log)
    (hn : NoiseOk S p d.toList m.toList (encapsRandomness S be.toList m.toList)) : K' = K := by
  obtain ⟨kd, ke, hdk, hkk, ho, hek⟩ := run_reach S (inv_start S st) h
  simp only [List.nil_append] at ho hek hdk hkk
  obtain ⟨dk, g1, g2⟩ := ho _ hbd
  obtain ⟨ek, e1, e2⟩ := ho _ hbe
  obtain ⟨ek', e3, e4⟩ := ho _ he
  obtain ⟨dk', g3, g4⟩ := ho _ hd
  obtain rfl := Option.some.inj (g1.symm.trans g3)
  obtain rfl := Option.some.inj (e1.symm.trans e3)
  have hb1 : be.toList = (KeyGen_internal S p d.toList z.toList).1 := by rw [← hpair]
  have hb2 : bd.toList = (KeyGen_internal S p d.toList z.toList).2 := by rw [← hpair]
  have hs : SeedOk S p.k (seeds S p d.toList).1 := by
    obtain ⟨-, eb, q1, q2⟩ := C04_encaps_outcome S hP (hkk ek (List.mem_of_getElem? e1)) m
    obtain rfl := Res.ok.inj (e2.symm.trans q1)
    rw [← ekRho_keygen S d.toList z.toList, ← hb1]
    exact q2.1 ⟨_, e4⟩
  obtain ⟨dk0, ek0, eb0, db0, q1, q2, q3, q4, q5⟩ := C01_keygen_is_fips203 S hP d z hs
  have heb : eb0 = be := Vector.toList_inj.1 (q4.trans hb1.symm)
  have hdb : db0 = bd := Vector.toList_inj.1 (q5.trans hb2.symm)
  subst heb hdb
  obtain rfl : dk0 = dk := (C17_dk_eq_iff S hP (.generated q1) (hdk dk (List.mem_of_getElem? g1))).2
    (q3.trans g2.symm)
  have hek0 : ek0 = ek := by
    rcases hek j ek (Nat.zero_le _) e1 with hr | ⟨i', hi'⟩
    · exact (C17_ek_eq_iff S hP (.generated q1) hr).2 (q2.trans e2.symm)
    · obtain rfl := hx i' hi'
      obtain ⟨dk2, r1, r2⟩ := ho _ hi'
      obtain rfl := Option.some.inj (g1.symm.trans r1)
      obtain rfl := Option.some.inj (e1.symm.trans r2)
      unfold Kem.generate_deterministic at q1
      rw [Res.bind_eq_ok] at q1
      obtain ⟨dk', -, r3⟩ := q1
      simp only [Res.ok.injEq, Prod.mk.injEq] at r3
      rw [← r3.2, r3.1]
  subst hek0
  have := C05_decaps_encaps S hP hdu hdv q1 e4 (by rw [← hb1]; exact hn)
  exact Res.ok.inj (g4.symm.trans this)

theorem step_no_panic (hP : Supported P p) (hr : ∀ n s, rng.fill_bytes n s ≠ .panic)
    {w : World P rng} {kd ke} (hi : Inv S w kd ke) (op : Op P) : step S w op ≠ .panic := by
  have bind_np : ∀ {α β : Type} {x : Res α} {f : α → Res β}, x ≠ .panic → (∀ a, f a ≠ .panic) →
      x >>= f ≠ .panic := by
    intro α β x f hx hf
    cases x with
    | ok a => exact hf a
    | panic => exact absurd rfl hx
    | div => nofun
  cases op with
  | generate =>
    refine bind_np ?_ (by intro _; nofun)
    rw [generate_rng_eq]
    refine bind_np (hr _ _) fun _ => bind_np (hr _ _) fun _ => bind_np ?_ (by intro _; nofun)
    exact (C04_generate_outcome S hP _ _).1
  | generateDet d z => exact bind_np (C04_generate_outcome S hP d z).1 (by intro _; nofun)
  | parseDk b =>
    obtain ⟨dk, h⟩ := (C04_parse_total S (Vector.replicate _ 0) b).2
    exact bind_np (by rw [h]; nofun) (by intro _; nofun)
  | parseEk b =>
    obtain ⟨dk, h⟩ := (C04_parse_total S b (Vector.replicate _ 0)).1
    exact bind_np (by rw [h]; nofun) (by intro _; nofun)
  | extract i => simp only [step]; split <;> nofun
  | writeDk i =>
    simp only [step]; split
    · rename_i dk hd
      have hk := hi.dk dk (List.mem_of_getElem? (hi.dks.2 i dk hd))
      obtain ⟨b, hb, -⟩ := C12_dk_roundtrip S hP hk
      exact bind_np (by rw [hb]; nofun) (by intro _; nofun)
    · nofun
  | writeEk i =>
    simp only [step]; split
    · rename_i ek hd
      have hk := hi.ek ek (List.mem_of_getElem? (hi.eks.2 i ek hd))
      obtain ⟨-, b, hb, -⟩ := C04_encaps_outcome S hP hk (Vector.replicate 32 0)
      exact bind_np (by rw [hb]; nofun) (by intro _; nofun)
    · nofun
  | encaps i =>
    simp only [step]; split
    · rename_i ek hd
      have hk := hi.ek ek (List.mem_of_getElem? (hi.eks.2 i ek hd))
      refine bind_np ?_ (by intro _; nofun)
      unfold EncapsulationKey.encapsulate
      exact bind_np (hr _ _) fun _ => bind_np (C04_encaps_outcome S hP hk _).1 (by intro _; nofun)
    · nofun
  | encapsDet i m =>
    simp only [step]; split
    · rename_i ek hd
      have hk := hi.ek ek (List.mem_of_getElem? (hi.eks.2 i ek hd))
      exact bind_np (C04_encaps_outcome S hP hk _).1 (by intro _; nofun)
    · nofun
  | decaps i c =>
    simp only [step]; split
    · rename_i dk hd
      have hk := hi.dk dk (List.mem_of_getElem? (hi.dks.2 i dk hd))
      exact bind_np (C04_decaps_outcome S hP hk _).1 (by intro _; nofun)
    · nofun
  | dropDk i => nofun
  | dropEk i => nofun

/-- **C47** No history panics, if the random generator does not. -/
theorem C47_no_panic (hP : Supported P p) (hr : ∀ n s, rng.fill_bytes n s ≠ .panic)
    (ops : List (Op P)) (st : rng.State) : run S (start st) ops ≠ .panic := by
  suffices ∀ (w : World P rng) kd ke, Inv S w kd ke → run S w ops ≠ .panic from
    this _ _ _ (inv_start S st)
  induction ops with
  | nil => intro w kd ke _; nofun
  | cons op ops ih =>
    intro w kd ke hi hrun
    simp only [run] at hrun
    cases h1 : step S w op with
    | panic => exact step_no_panic S hP hr hi op h1
    | div => rw [h1] at hrun; nomatch hrun
    | ok r =>
      obtain ⟨w1, o⟩ := r
      rw [h1, Res.ok_bind] at hrun
      obtain ⟨kd', ke', hi', -⟩ := step_inv S hi h1
      cases h2 : run S w1 ops with
      | panic => exact ih _ _ _ hi' h2
      | div => dsimp only at hrun; rw [h2] at hrun; nomatch hrun
      | ok r => dsimp only at hrun; rw [h2] at hrun; nomatch hrun

theorem sample_history {d z m : B32} {st st' : rng.State} {dk ek dk' ek' db c K c' K'}
    (h1 : Kem.generate_deterministic S P d z = .ok (dk, ek))
    (h1' : Kem.generate_deterministic S P z d = .ok (dk', ek')) (h3 : dk.as_bytes = .ok db)
    (hc : ek.encapsulate_deterministic S m = .ok (c, K))
    (hr : ek'.encapsulate S rng st = .ok ((c', K'), st')) (hd : dk.decapsulate S c = .ok K) :
    run S (start (P := P) st) [.generateDet d z, .generateDet z d, .writeDk 0, .encapsDet 0 m, .dropDk 1,
      .encaps 1, .decaps 1 c, .decaps 0 c] = .ok (⟨[some dk, none], [some ek, some ek'], st'⟩,
      [.generated 0 0 d z, .generated 1 1 z d, .dkBytes 0 db, .encapsDet 0 m c K, .encaps 1 c' K',
        .decaps 0 c K]) := by
  simp only [run, step, start, h1, h1', h3, hc, hr, hd, Res.ok_bind, List.nil_append, List.cons_append,
    List.getElem?_cons_zero, List.getElem?_cons_succ, List.set_cons_succ, List.set_cons_zero, List.length_cons,
    List.length_nil, List.append_nil, Nat.zero_add]

omit [Build] in
theorem toy_draw (s : Nat) : Toy.rng.fill_bytes 32 s =
    .ok (Vector.ofFn fun i => UInt8.ofNat (s + i.val), s + 1) := rfl

/-- A history as in the theorems above: two interleaved sessions, a dropped key and re-observed
encodings; it runs to the end, and everything asked for is seen. -/
example (d z m : B32) : ∃ w log c K b, run Toy.S (start (P := MlKem512Params) (rng := Toy.rng) (0 : Nat))
    [.generateDet d z, .generateDet z d, .writeDk 0, .encapsDet 0 m, .dropDk 1, .encaps 1, .decaps 1 c,
      .decaps 0 c] = .ok (w, log) ∧
    .generated 0 0 d z ∈ log ∧ .dkBytes 0 b ∈ log ∧ .encapsDet 0 m c K ∈ log ∧ .decaps 0 c K ∈ log := by
  obtain ⟨dk, ek, eb, db, h1, h2, h3, -⟩ := C01_keygen_is_fips203 Toy.S supported_512 d z (Toy.seedOk _ _)
  obtain ⟨dk', ek', eb', db', h1', h2', -⟩ :=
    C01_keygen_is_fips203 Toy.S supported_512 z d (Toy.seedOk _ _)
  obtain ⟨_, _, hc⟩ := C02_encaps_is_fips203 Toy.S supported_512 (.generated h1) m
  obtain ⟨c, K, hc, -⟩ := hc (Toy.seedOk _ _)
  obtain ⟨_, _, hc'⟩ := C02_encaps_is_fips203 Toy.S supported_512 (.generated h1')
    (Vector.ofFn fun i => UInt8.ofNat (0 + i.val))
  obtain ⟨c', K', hc', -⟩ := hc' (Toy.seedOk _ _)
  have hr := (((C20_encapsulate_randomness Toy.S ek' Toy.rng (0 : Nat)).1 _ _ (toy_draw 0)).1 _).2
    ⟨_, hc', rfl⟩
  have hd := C05_decaps_encaps Toy.S supported_512 (by decide) (by decide) h1 hc
    (Toy.noiseOk (by simp) _ _ _)
  exact ⟨_, _, c, K, db, sample_history Toy.S h1 h1' h3 hc hr hd, by simp⟩

/-- The history of the example below -/
def stored (d z m : B32) (db : P.EncodedDecapsulationKey) (eb : P.EncodedEncryptionKey)
    (c : P.EncodedCiphertext) : List (Op P) :=
  [.generateDet d z, .parseDk db, .dropDk 0, .extract 1, .parseEk eb, .writeDk 1, .writeEk 2,
    .encapsDet 2 m, .encapsDet 1 m, .decaps 1 c]

theorem stored_history {d z m : B32} {st : rng.State} {dk ek db eb c K}
    (h1 : Kem.generate_deterministic S P d z = .ok (dk, ek)) (h2 : DecapsulationKey.from_bytes db = .ok dk)
    (h3 : dk.as_bytes = .ok db) (h4 : EncapsulationKey.from_bytes S eb = .ok ek)
    (h5 : ek.as_bytes = .ok eb) (h6 : dk.encapsulation_key = ek)
    (hc : ek.encapsulate_deterministic S m = .ok (c, K)) (hd : dk.decapsulate S c = .ok K) :
    run S (start (P := P) st) (stored d z m db eb c) =
      .ok (⟨[none, some dk], [some ek, some ek, some ek], st⟩,
      [.generated 0 0 d z, .extracted 1 1, .dkBytes 1 db, .ekBytes 2 eb, .encapsDet 2 m c K,
        .encapsDet 1 m c K, .decaps 1 c K]) := by
  simp only [stored, run, step, start, h1, h2, h3, h4, h5, h6, hc, hd, Res.ok_bind, List.nil_append,
    List.cons_append, List.getElem?_cons_zero, List.getElem?_cons_succ, List.set_cons_succ,
    List.set_cons_zero, List.length_cons, List.length_nil, List.append_nil, Nat.zero_add, Nat.reduceAdd]

/-- A key pair is generated, both keys are read back from their encodings, the original is dropped, and
an encapsulation key is taken out of the copy: the hypotheses of `C47_encaps` (for key 2), of
`C47_encaps_extracted` (for key 1) and of `C47_agree_encodings` (for keys 1 and 2) are met. -/
example (d z m : B32) : ∃ db eb c K w log, run Toy.S (start (P := MlKem768Params) (rng := Toy.rng) (0 : Nat))
    (stored d z m db eb c) = .ok (w, log) ∧ .extracted 1 1 ∈ log ∧ (∀ i, .extracted i 2 ∉ log) ∧
    .dkBytes 1 db ∈ log ∧ .ekBytes 2 eb ∈ log ∧ .encapsDet 2 m c K ∈ log ∧ .encapsDet 1 m c K ∈ log ∧
    .decaps 1 c K ∈ log ∧
    (eb.toList, db.toList) = KeyGen_internal Toy.S ML_KEM_768 d.toList z.toList ∧
    NoiseOk Toy.S ML_KEM_768 d.toList m.toList (encapsRandomness Toy.S eb.toList m.toList) := by
  obtain ⟨dk, ek, eb, db, h1, h2, h3, h4, h5⟩ :=
    C01_keygen_is_fips203 Toy.S supported_768 d z (Toy.seedOk _ _)
  obtain ⟨db', q1, q2⟩ := C12_dk_roundtrip Toy.S supported_768 (.generated h1)
  obtain rfl := Res.ok.inj (h3.symm.trans q1)
  obtain ⟨eb', q3, q4⟩ := C11_ek_roundtrip Toy.S supported_768 (.generated h1)
  obtain rfl := Res.ok.inj (h2.symm.trans q3)
  obtain ⟨_, _, hc⟩ := C02_encaps_is_fips203 Toy.S supported_768 (.generated h1) m
  obtain ⟨c, K, hc, -⟩ := hc (Toy.seedOk _ _)
  have h6 : dk.encapsulation_key = ek := by
    have := h1
    unfold Kem.generate_deterministic at this
    rw [Res.bind_eq_ok] at this
    obtain ⟨dk', -, r3⟩ := this
    simp only [Res.ok.injEq, Prod.mk.injEq] at r3
    rw [← r3.2, r3.1]
  have hd := C05_decaps_encaps Toy.S supported_768 (by decide) (by decide) h1 hc
    (Toy.noiseOk (by simp) _ _ _)
  exact ⟨db, eb, c, K, _, _, stored_history Toy.S h1 q2 h3 q4 h2 h6 hc hd, by simp, by simp, by simp,
    by simp, by simp, by simp, by simp, Prod.ext h4 h5, Toy.noiseOk (by simp) _ _ _⟩

end MlKem.History
