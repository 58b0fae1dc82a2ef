import Verif.Props.Threads
import Verif.Props.History
import Verif.Props.XWingHistory
import Verif.Props.X25519
import Verif.Props.Dhkem
/-! C79: keys of the three crates shared between threads. -/
namespace Threads
open Rust MlKem Fips203

/-- The calls of the assignment `key` have the results in the log: what C78_explained gives for one call -/
def Ran {A : Api} (key : Name → Option A.Key) (rngs : Nat → Rng) (e : Entry A) (keys new : List A.Key)
    (s s' : (rngs e.thread).State) : Prop :=
  e.names.mapM key = some keys ∧ A.exec keys e.arg (rngs e.thread) s = .ok ((new, e.out), s') ∧
    e.new.mapM key = some new

/-- Calls that do not draw random bytes give the same results on the same keys and arguments. -/
def Deterministic (A : Api) (a : A.Arg) : Prop := ∀ keys (rng rng' : Rng) (s s1 : rng.State) (s' s1' : rng'.State) r r',
  A.exec keys a rng s = .ok (r, s1) → A.exec keys a rng' s' = .ok (r', s1') → r = r'

theorem stable {A : Api} {rngs : Nat → Rng} (st : (t : Nat) → (rngs t).State) (es : List (Event A rngs)) {e e' : Entry A}
    (he : e ∈ ((start st).run es).log) (he' : e' ∈ ((start st).run es).log) (hn : e.names = e'.names)
    (ha : e.arg = e'.arg) (hd : Deterministic A e.arg) : e.out = e'.out := by
  obtain ⟨key, h, -⟩ := C78_explained st es
  obtain ⟨keys, new, s, s', h1, h2, -⟩ := h e he
  obtain ⟨keys', new', t, t', h1', h2', -⟩ := h e' he'
  rw [hn] at h1
  obtain rfl := Option.some.inj (h1.symm.trans h1')
  rw [← ha] at h2'
  exact congrArg Prod.snd (hd _ _ _ _ _ _ _ _ _ h2 h2')

/-! ### ML-KEM -/

section
variable [Build] (S : Sha3) {P : ParameterSet} {p : Params}

theorem mlKem_det {a : MlKemArg P} (h1 : a ≠ .generate) (h2 : a ≠ .encaps) : Deterministic (mlKem S P) a := by
  intro keys rng rng' s s1 s' s1' r r' h h'
  rcases keys with _ | ⟨k, _ | ⟨k2, ks⟩⟩
  · cases a <;> simp only [mlKem, Res.bind_eq_ok] at h h' <;> grind
  · rcases k with dk | ek <;> cases a <;> simp only [mlKem, Res.bind_eq_ok] at h h' <;> grind
  · cases a <;> simp only [mlKem] at h h' <;> grind

theorem mlKem_new {keys new : List (DecapsulationKey P ⊕ EncapsulationKey P)} {a : MlKemArg P} {out : MlKemOut P}
    {rng : Rng} {s s' : rng.State} (h : (mlKem S P).exec keys a rng s = .ok ((new, out), s')) :
    new = [] ∨
    (∃ dk ek d z, new = [.inl dk, .inr ek] ∧ Kem.generate_deterministic S P d z = .ok (dk, ek)) ∨
    (∃ dk ek t t', new = [.inl dk, .inr ek] ∧ Kem.generate S P rng t = .ok ((dk, ek), t')) ∨
    (∃ dk b, new = [.inl dk] ∧ DecapsulationKey.from_bytes b = .ok dk) ∨
    (∃ ek b, new = [.inr ek] ∧ EncapsulationKey.from_bytes S b = .ok ek) ∨
    (∃ dk, .inl dk ∈ keys ∧ new = [.inr dk.encapsulation_key]) := by
  rcases keys with _ | ⟨dk | ek, _ | ⟨k2, ks⟩⟩ <;> cases a <;> simp only [mlKem, Res.bind_eq_ok] at h <;> grind

theorem mlKem_closed : World.Closed (mlKem S P) (Sum.elim (DkReach S) (EkHeld S)) := by
  intro keys a rng s s' new out hk h k hm
  rcases mlKem_new S h with rfl | ⟨dk, ek, d, z, rfl, g⟩ | ⟨dk, ek, t, t', rfl, g⟩ | ⟨dk, b, rfl, g⟩ | ⟨ek, b, rfl, g⟩ |
    ⟨dk, g, rfl⟩
  · nomatch hm
  · rcases List.mem_cons.1 hm with rfl | hm
    · exact DkReach.generated g
    · obtain rfl := List.mem_singleton.1 hm
      exact EkHeld.reach (.generated g)
  · rcases List.mem_cons.1 hm with rfl | hm
    · exact DkReach.sampled g
    · obtain rfl := List.mem_singleton.1 hm
      exact EkHeld.reach (.sampled g)
  · obtain rfl := List.mem_singleton.1 hm
    exact DkReach.parsed g
  · obtain rfl := List.mem_singleton.1 hm
    exact EkHeld.reach (.parsed g)
  · obtain rfl := List.mem_singleton.1 hm
    exact EkHeld.ofDk (hk _ g)

variable {S}

theorem mlKem_decaps {keys new K} {c : P.EncodedCiphertext} {rng : Rng} {s s' : rng.State}
    (h : (mlKem S P).exec keys (.decaps c) rng s = .ok ((new, .decaps K), s')) :
    ∃ dk, keys = [.inl dk] ∧ dk.decapsulate S c = .ok K := by
  rcases keys with _ | ⟨dk | ek, _ | ⟨k2, ks⟩⟩ <;> simp only [mlKem, Res.bind_eq_ok] at h <;> grind

theorem mlKem_dkBytes {keys new b} {a : MlKemArg P} {rng : Rng} {s s' : rng.State}
    (h : (mlKem S P).exec keys a rng s = .ok ((new, .dkBytes b), s')) :
    ∃ dk, keys = [.inl dk] ∧ dk.as_bytes = .ok b := by
  rcases keys with _ | ⟨dk | ek, _ | ⟨k2, ks⟩⟩ <;> cases a <;> simp only [mlKem, Res.bind_eq_ok] at h <;> grind

theorem mlKem_encapsDet {keys new c K m} {rng : Rng} {s s' : rng.State}
    (h : (mlKem S P).exec keys (.encapsDet m) rng s = .ok ((new, .encaps c K), s')) :
    ∃ ek, keys = [.inr ek] ∧ ek.encapsulate_deterministic S m = .ok (c, K) := by
  rcases keys with _ | ⟨dk | ek, _ | ⟨k2, ks⟩⟩ <;> simp only [mlKem, Res.bind_eq_ok] at h <;> grind

theorem mlKem_encaps {keys new c K} {rng : Rng} {s s' : rng.State}
    (h : (mlKem S P).exec keys .encaps rng s = .ok ((new, .encaps c K), s')) :
    ∃ ek, keys = [.inr ek] ∧ ek.encapsulate S rng s = .ok ((c, K), s') := by
  rcases keys with _ | ⟨dk | ek, _ | ⟨k2, ks⟩⟩ <;> simp only [mlKem, Res.bind_eq_ok] at h <;> grind

theorem mlKem_generateDet {keys k1 k2 out d z} {rng : Rng} {s s' : rng.State}
    (h : (mlKem S P).exec keys (.generateDet d z) rng s = .ok (([k1, k2], out), s')) :
    ∃ dk ek, k1 = .inl dk ∧ k2 = .inr ek ∧ Kem.generate_deterministic S P d z = .ok (dk, ek) := by
  rcases keys with _ | ⟨dk | ek, _ | ⟨k2, ks⟩⟩ <;> simp only [mlKem, Res.bind_eq_ok] at h <;> grind

theorem mlKem_generate {keys k1 k2 out} {rng : Rng} {s s' : rng.State}
    (h : (mlKem S P).exec keys .generate rng s = .ok (([k1, k2], out), s')) :
    ∃ dk ek, k1 = .inl dk ∧ k2 = .inr ek ∧ Kem.generate S P rng s = .ok ((dk, ek), s') := by
  rcases keys with _ | ⟨dk | ek, _ | ⟨k2, ks⟩⟩ <;> simp only [mlKem, Res.bind_eq_ok] at h <;> grind

omit [Build] in
theorem mapM_one {α β : Type} {f : α → Option β} {a : α} {r : List β} (h : [a].mapM f = some r) :
    ∃ x, r = [x] ∧ f a = some x := by
  rw [List.mapM_cons, List.mapM_nil] at h
  cases ha : f a with
  | none => rw [ha] at h; nomatch h
  | some x => rw [ha] at h; exact ⟨x, (Option.some.inj h).symm, rfl⟩

omit [Build] in
theorem mapM_two {α β : Type} {f : α → Option β} {a b : α} {r : List β} (h : [a, b].mapM f = some r) :
    ∃ x y, r = [x, y] ∧ f a = some x ∧ f b = some y := by
  rw [List.mapM_cons, List.mapM_cons, List.mapM_nil] at h
  cases ha : f a with
  | none => rw [ha] at h; nomatch h
  | some x =>
    cases hb : f b with
    | none => rw [ha, hb] at h; nomatch h
    | some y => rw [ha, hb] at h; exact ⟨x, y, (Option.some.inj h).symm, rfl, rfl⟩

variable (S) {rngs : Nat → Rng} (st : (t : Nat) → (rngs t).State) (es : List (Event (mlKem S P) rngs))

/-- **C79** (ML-KEM) Two calls with the same argument on the same keys, by whichever threads and with whatever in
between, have the same result, unless they draw random bytes. -/
theorem C79_ml_kem_stable {e e' : Entry (mlKem S P)} (he : e ∈ ((start st).run es).log)
    (he' : e' ∈ ((start st).run es).log) (hn : e.names = e'.names) (ha : e.arg = e'.arg)
    (h1 : e.arg ≠ MlKemArg.generate) (h2 : e.arg ≠ MlKemArg.encaps) : e.out = e'.out :=
  stable st es he he' hn ha (mlKem_det S h1 h2)

/-- **C79** (ML-KEM) Every decapsulation in any thread is FIPS 203's on the key's encoding, whichever thread wrote that
encoding and whenever. -/
theorem C79_ml_kem_decaps (hP : Supported P p) {e e' : Entry (mlKem S P)} (he : e ∈ ((start st).run es).log)
    (he' : e' ∈ ((start st).run es).log) (hn : e.names = e'.names) {b c K} (hb : e.out = MlKemOut.dkBytes b)
    (hc : e'.arg = MlKemArg.decaps c) (hK : e'.out = MlKemOut.decaps K) :
    K.toList = Decaps_internal S p b.toList c.toList := by
  obtain ⟨M, h⟩ := World.explained (mlKem_closed S) st es
  obtain ⟨keys, new, s, s', h1, h2, -⟩ := h.log e he
  obtain ⟨keys', new', t, t', h1', h2', -⟩ := h.log e' he'
  rw [hn] at h1
  obtain rfl := Option.some.inj (h1.symm.trans h1')
  rw [hb] at h2
  rw [hc, hK] at h2'
  obtain ⟨dk, rfl, g1⟩ := mlKem_dkBytes h2
  obtain ⟨dk', hd, g2⟩ := mlKem_decaps h2'
  obtain rfl := Sum.inl.inj (List.cons.inj hd).1
  obtain ⟨n, -, hg⟩ := World.mem_of_mapM h1 _ (List.mem_singleton.2 rfl)
  have hr : DkReach S dk := h.good n _ hg
  obtain ⟨db, e1, e2⟩ := C03_decaps_of_held S hP hr c
  obtain ⟨-, db', e3, e4⟩ := C04_decaps_outcome S hP hr c
  obtain rfl := Res.ok.inj (g1.symm.trans e1)
  obtain rfl := Res.ok.inj (g1.symm.trans e3)
  obtain ⟨K', e5, e6⟩ := e2 (e4.1 ⟨_, g2⟩)
  obtain rfl := Res.ok.inj (g2.symm.trans e5)
  exact e6

/-- **C79** (ML-KEM) A key pair generated from seeds in one thread, an encapsulation to it in another and a
decapsulation of that ciphertext in a third agree, if the noise of the values used is in its window. -/
theorem C79_ml_kem_agree_det (hP : Supported P p) (hdu : p.du ≤ 11) (hdv : p.dv ≤ 11) {e0 e1 e2 : Entry (mlKem S P)}
    (he0 : e0 ∈ ((start st).run es).log) (he1 : e1 ∈ ((start st).run es).log) (he2 : e2 ∈ ((start st).run es).log)
    {k1 k2 d z m c K K'} (ha0 : e0.arg = MlKemArg.generateDet d z) (hn0 : e0.new = [k1, k2])
    (ha1 : e1.arg = MlKemArg.encapsDet m) (hn1 : e1.names = [k2]) (ho1 : e1.out = MlKemOut.encaps c K)
    (ha2 : e2.arg = MlKemArg.decaps c) (hn2 : e2.names = [k1]) (ho2 : e2.out = MlKemOut.decaps K')
    (hn : NoiseOk S p d.toList m.toList
      (encapsRandomness S (KeyGen_internal S p d.toList z.toList).1 m.toList)) : K' = K := by
  obtain ⟨key, h, -⟩ := C78_explained st es
  obtain ⟨keys0, new0, s0, s0', -, x0, y0⟩ := h e0 he0
  obtain ⟨keys1, new1, s1, s1', n1, x1, -⟩ := h e1 he1
  obtain ⟨keys2, new2, s2, s2', n2, x2, -⟩ := h e2 he2
  rw [hn0] at y0; rw [hn1] at n1; rw [hn2] at n2
  obtain ⟨a, b, rfl, ka, kb⟩ := mapM_two y0
  obtain ⟨b', rfl, kb'⟩ := mapM_one n1
  obtain ⟨a', rfl, ka'⟩ := mapM_one n2
  obtain rfl := Option.some.inj (ka.symm.trans ka')
  obtain rfl := Option.some.inj (kb.symm.trans kb')
  rw [ha0] at x0; rw [ha1, ho1] at x1; rw [ha2, ho2] at x2
  obtain ⟨dk, ek, rfl, rfl, g0⟩ := mlKem_generateDet x0
  obtain ⟨ek', q1, g1⟩ := mlKem_encapsDet x1
  obtain ⟨dk', q2, g2⟩ := mlKem_decaps x2
  obtain rfl := Sum.inr.inj (List.cons.inj q1).1
  obtain rfl := Sum.inl.inj (List.cons.inj q2).1
  exact Res.ok.inj (g2.symm.trans (C05_decaps_encaps S hP hdu hdv g0 g1 hn))

/-- **C79** (ML-KEM) The same for random key pairs and encapsulations, each thread with its own generator. -/
theorem C79_ml_kem_agree (hP : Supported P p) (hdu : p.du ≤ 11) (hdv : p.dv ≤ 11) {e0 e1 e2 : Entry (mlKem S P)}
    (he0 : e0 ∈ ((start st).run es).log) (he1 : e1 ∈ ((start st).run es).log) (he2 : e2 ∈ ((start st).run es).log)
    {k1 k2 c K K'} (ha0 : e0.arg = MlKemArg.generate) (hn0 : e0.new = [k1, k2])
    (ha1 : e1.arg = MlKemArg.encaps) (hn1 : e1.names = [k2]) (ho1 : e1.out = MlKemOut.encaps c K)
    (ha2 : e2.arg = MlKemArg.decaps c) (hn2 : e2.names = [k1]) (ho2 : e2.out = MlKemOut.decaps K') :
    ∃ d z m, ∃ r r' r'' : (rngs e0.thread).State, ∃ s s' : (rngs e1.thread).State,
      (rngs e0.thread).fill_bytes 32 r = .ok (d, r') ∧ (rngs e0.thread).fill_bytes 32 r' = .ok (z, r'') ∧
      (rngs e1.thread).fill_bytes 32 s = .ok (m, s') ∧
      (NoiseOk S p d.toList m.toList
        (encapsRandomness S (KeyGen_internal S p d.toList z.toList).1 m.toList) → K' = K) := by
  obtain ⟨key, h, -⟩ := C78_explained st es
  obtain ⟨keys0, new0, s0, s0', -, x0, y0⟩ := h e0 he0
  obtain ⟨keys1, new1, s1, s1', n1, x1, -⟩ := h e1 he1
  obtain ⟨keys2, new2, s2, s2', n2, x2, -⟩ := h e2 he2
  rw [hn0] at y0; rw [hn1] at n1; rw [hn2] at n2
  obtain ⟨a, b, rfl, ka, kb⟩ := mapM_two y0
  obtain ⟨b', rfl, kb'⟩ := mapM_one n1
  obtain ⟨a', rfl, ka'⟩ := mapM_one n2
  obtain rfl := Option.some.inj (ka.symm.trans ka')
  obtain rfl := Option.some.inj (kb.symm.trans kb')
  rw [ha0] at x0; rw [ha1, ho1] at x1; rw [ha2, ho2] at x2
  obtain ⟨dk, ek, rfl, rfl, g0⟩ := mlKem_generate x0
  obtain ⟨ek', q1, g1⟩ := mlKem_encaps x1
  obtain ⟨dk', q2, g2⟩ := mlKem_decaps x2
  obtain rfl := Sum.inr.inj (List.cons.inj q1).1
  obtain rfl := Sum.inl.inj (List.cons.inj q2).1
  obtain ⟨d, z, m, r, f1, f2, f3, f4⟩ := C05_decaps_encaps_rng S hP hdu hdv g0 g1
  exact ⟨d, z, m, s0, r, s0', s1, s1', f1, f2, f3, fun hn => Res.ok.inj (g2.symm.trans (f4 hn))⟩

omit [Build] in
theorem bind_np {α β : Type} {x : Res α} {f : α → Res β} (hx : x ≠ .panic) (hf : ∀ a, f a ≠ .panic) :
    x >>= f ≠ .panic := XWing.History.bind_np hx hf

/-- **C79** (ML-KEM) No call that any thread is making panics, if its generator does not. -/
theorem C79_ml_kem_no_panic (hP : Supported P p) {t : Nat} (hr : ∀ n s, (rngs t).fill_bytes n s ≠ .panic)
    {r : Running (mlKem S P)} (hb : ((start st).run es).busy t = some r) (s : (rngs t).State) :
    (mlKem S P).exec r.keys r.arg (rngs t) s ≠ .panic := by
  obtain ⟨M, h⟩ := World.explained (mlKem_closed S) st es
  have hg : ∀ k ∈ r.keys, Sum.elim (DkReach S) (EkHeld S) k := fun k hk => by
    obtain ⟨n, -, hn⟩ := World.mem_of_mapM (h.held t r hb) k hk
    exact h.good n k hn
  obtain ⟨names, keys, arg⟩ := r
  dsimp only at hg ⊢
  rcases keys with _ | ⟨dk | ek, _ | ⟨k2, ks⟩⟩
  · cases arg with
    | generate =>
      refine bind_np ?_ (by intro _; nofun)
      rw [generate_rng_eq]
      refine bind_np (hr _ _) fun _ => bind_np (hr _ _) fun _ => bind_np ?_ (by intro _; nofun)
      exact (C04_generate_outcome S hP _ _).1
    | generateDet d z => exact bind_np (C04_generate_outcome S hP d z).1 (by intro _; nofun)
    | parseDk b =>
      obtain ⟨dk, h⟩ := (C04_parse_total S (Vector.replicate _ 0) b).2
      exact bind_np (by rw [h]; nofun) (by intro _; nofun)
    | parseEk b =>
      obtain ⟨dk, h⟩ := (C04_parse_total S b (Vector.replicate _ 0)).1
      exact bind_np (by rw [h]; nofun) (by intro _; nofun)
    | _ => nofun
  · have hk : DkReach S dk := hg _ List.mem_cons_self
    cases arg with
    | write =>
      obtain ⟨b, hb, -⟩ := C12_dk_roundtrip S hP hk
      exact bind_np (by rw [hb]; nofun) (by intro _; nofun)
    | decaps c => exact bind_np (C04_decaps_outcome S hP hk _).1 (by intro _; nofun)
    | _ => nofun
  · cases arg <;> nofun
  · have hk : EkHeld S ek := hg _ List.mem_cons_self
    cases arg with
    | write =>
      obtain ⟨-, b, hb, -⟩ := C04_encaps_outcome S hP hk (Vector.replicate 32 0)
      exact bind_np (by rw [hb]; nofun) (by intro _; nofun)
    | encaps =>
      refine bind_np ?_ (by intro _; nofun)
      unfold EncapsulationKey.encapsulate
      exact bind_np (hr _ _) fun _ => bind_np (C04_encaps_outcome S hP hk _).1 (by intro _; nofun)
    | encapsDet m => exact bind_np (C04_encaps_outcome S hP hk _).1 (by intro _; nofun)
    | _ => nofun
  · cases arg <;> nofun

end

/-! ### X-Wing -/

section
variable [Build] (S : Sha3) (X : XWing.X25519)

theorem xWing_det {a : XWingArg} (h1 : a ≠ .generate) (h2 : a ≠ .encaps) : Deterministic (xWing S X) a := by
  intro keys rng rng' s s1 s' s1' r r' h h'
  rcases keys with _ | ⟨k, _ | ⟨k2, ks⟩⟩
  · cases a <;> simp only [xWing, Res.bind_eq_ok] at h h' <;> grind
  · rcases k with dk | ek <;> cases a <;> simp only [xWing, Res.bind_eq_ok] at h h' <;> grind
  · cases a <;> simp only [xWing] at h h' <;> grind

variable {S X}

theorem xWing_new {keys new : List (XWing.DecapsulationKey ⊕ XWing.EncapsulationKey)} {a : XWingArg} {out : XWingOut}
    {rng : Rng} {s s' : rng.State} (h : (xWing S X).exec keys a rng s = .ok ((new, out), s')) :
    new = [] ∨
    (∃ sk pk t t', new = [.inl sk, .inr pk] ∧ XWing.generate_key_pair S X rng t = .ok ((sk, pk), t')) ∨
    (∃ sk, new = [.inl sk]) ∨
    (∃ pk b, new = [.inr pk] ∧ XWing.EncapsulationKey.from_bytes S b = .ok pk) ∨
    (∃ sk pk, new = [.inr pk] ∧ XWing.DecapsulationKey.encapsulation_key S X sk = .ok pk) := by
  rcases keys with _ | ⟨dk | ek, _ | ⟨k2, ks⟩⟩ <;> cases a <;> simp only [xWing, Res.bind_eq_ok] at h <;> grind

theorem xWing_closed : World.Closed (xWing S X) (Sum.elim (fun _ => True) (XWing.PkReach S X)) := by
  intro keys a rng s s' new out hk h k hm
  rcases xWing_new h with rfl | ⟨sk, pk, t, t', rfl, g⟩ | ⟨sk, rfl⟩ | ⟨pk, b, rfl, g⟩ | ⟨sk, pk, rfl, g⟩
  · nomatch hm
  · rcases List.mem_cons.1 hm with rfl | hm
    · exact trivial
    · obtain rfl := List.mem_singleton.1 hm
      exact XWing.PkReach.generated g
  · obtain rfl := List.mem_singleton.1 hm
    exact trivial
  · obtain rfl := List.mem_singleton.1 hm
    exact XWing.PkReach.parsed g
  · obtain rfl := List.mem_singleton.1 hm
    exact XWing.PkReach.derived g

theorem xWing_decaps {keys new ss c} {rng : Rng} {s s' : rng.State}
    (h : (xWing S X).exec keys (.decaps c) rng s = .ok ((new, .decaps ss), s')) :
    ∃ sk ct, keys = [.inl sk] ∧ XWing.Ciphertext.from_bytes c = .ok ct ∧ sk.decapsulate S X ct = .ok ss := by
  rcases keys with _ | ⟨dk | ek, _ | ⟨k2, ks⟩⟩ <;> simp only [xWing, Res.bind_eq_ok] at h <;> grind

theorem xWing_skBytes {keys new b} {a : XWingArg} {rng : Rng} {s s' : rng.State}
    (h : (xWing S X).exec keys a rng s = .ok ((new, .skBytes b), s')) :
    ∃ sk : XWing.DecapsulationKey, keys = [.inl sk] ∧ sk.as_bytes = b := by
  rcases keys with _ | ⟨dk | ek, _ | ⟨k2, ks⟩⟩ <;> cases a <;> simp only [xWing, Res.bind_eq_ok] at h <;> grind

theorem xWing_encaps {keys new c ss} {a : XWingArg} {rng : Rng} {s s' : rng.State}
    (h : (xWing S X).exec keys a rng s = .ok ((new, .encaps c ss), s')) :
    ∃ pk ct, keys = [.inr pk] ∧ pk.encapsulate S X rng s = .ok ((ct, ss), s') ∧ ct.as_bytes = .ok c := by
  rcases keys with _ | ⟨dk | ek, _ | ⟨k2, ks⟩⟩ <;> cases a <;> simp only [xWing, Res.bind_eq_ok] at h <;> grind

theorem xWing_generate {keys k1 k2 out} {rng : Rng} {s s' : rng.State}
    (h : (xWing S X).exec keys .generate rng s = .ok (([k1, k2], out), s')) :
    ∃ sk pk, k1 = .inl sk ∧ k2 = .inr pk ∧ XWing.generate_key_pair S X rng s = .ok ((sk, pk), s') := by
  rcases keys with _ | ⟨dk | ek, _ | ⟨k2, ks⟩⟩ <;> simp only [xWing, Res.bind_eq_ok] at h <;> grind

variable (S X) {rngs : Nat → Rng} (st : (t : Nat) → (rngs t).State)

/-- **C79** (X-Wing) Two calls with the same argument on the same keys have the same result, unless they draw random
bytes. -/
theorem C79_x_wing_stable (es : List (Event (xWing S X) rngs)) {e e' : Entry (xWing S X)}
    (he : e ∈ ((start st).run es).log) (he' : e' ∈ ((start st).run es).log) (hn : e.names = e'.names)
    (ha : e.arg = e'.arg) (h1 : e.arg ≠ XWingArg.generate) (h2 : e.arg ≠ XWingArg.encaps) : e.out = e'.out :=
  stable st es he he' hn ha (xWing_det S X h1 h2)

open XWing XWingSpec in
/-- **C79** (X-Wing) Every decapsulation in any thread is the draft's on the key's encoding, whichever thread wrote that. -/
theorem C79_x_wing_decaps (hX : PublicKeyIsBase X) (es : List (Event (xWing S X) rngs)) {e e' : Entry (xWing S X)}
    (he : e ∈ ((start st).run es).log) (he' : e' ∈ ((start st).run es).log) (hn : e.names = e'.names) {b c ss}
    (hb : e.out = XWingOut.skBytes b) (hc : e'.arg = XWingArg.decaps c) (hs : e'.out = XWingOut.decaps ss) :
    ss = Decapsulate S X.x25519 c.toList b.toList := by
  obtain ⟨key, h, -⟩ := C78_explained st es
  obtain ⟨keys, new, s, s', h1, h2, -⟩ := h e he
  obtain ⟨keys', new', t, t', h1', h2', -⟩ := h e' he'
  rw [hn] at h1
  obtain rfl := Option.some.inj (h1.symm.trans h1')
  rw [hb] at h2
  rw [hc, hs] at h2'
  obtain ⟨sk, rfl, rfl⟩ := xWing_skBytes h2
  obtain ⟨sk', ct, hd, g1, g2⟩ := xWing_decaps h2'
  obtain rfl := Sum.inl.inj (List.cons.inj hd).1
  have hok := (C43_implicit_rejection S X sk ct).2.1.1 ⟨_, g2⟩
  obtain ⟨ct', e1, e2⟩ := C38_decaps S X hX sk hok c
  obtain rfl := Res.ok.inj (g1.symm.trans e1)
  exact Res.ok.inj (g2.symm.trans e2)

open XWing XWingSpec in
/-- **C79** (X-Wing) A key pair generated in one thread, an encapsulation to it in another and
a decapsulation of that ciphertext in a third agree, if the noise of the values used is in its window. -/
theorem C79_x_wing_agree (hX : PublicKeyIsBase X) (hcomm : Commutes X)
    (es : List (Event (xWing S X) rngs)) {e0 e1 e2 e3 : Entry (xWing S X)}
    (he0 : e0 ∈ ((start st).run es).log) (he1 : e1 ∈ ((start st).run es).log) (he2 : e2 ∈ ((start st).run es).log)
    (he3 : e3 ∈ ((start st).run es).log) {k1 k2 c ss ss' sb}
    (ha0 : e0.arg = XWingArg.generate) (hn0 : e0.new = [k1, k2])
    (hn1 : e1.names = [k2]) (ho1 : e1.out = XWingOut.encaps c ss)
    (ha2 : e2.arg = XWingArg.decaps c) (hn2 : e2.names = [k1]) (ho2 : e2.out = XWingOut.decaps ss')
    (hn3 : e3.names = [k1]) (ho3 : e3.out = XWingOut.skBytes sb) :
    ∃ m, ∃ s s' : (rngs e1.thread).State, (rngs e1.thread).fill_bytes 32 s = .ok (m, s') ∧
      (NoiseOk S ML_KEM_768 (seedD S sb.toList).toList m.toList (encapsRandomness S (pkM S sb.toList) m.toList) →
        ss' = ss) := by
  obtain ⟨key, h, -⟩ := C78_explained st es
  obtain ⟨keys0, new0, s0, s0', -, x0, y0⟩ := h e0 he0
  obtain ⟨keys1, new1, s1, s1', n1, x1, -⟩ := h e1 he1
  obtain ⟨keys2, new2, s2, s2', n2, x2, -⟩ := h e2 he2
  obtain ⟨keys3, new3, s3, s3', n3, x3, -⟩ := h e3 he3
  rw [hn0] at y0; rw [hn1] at n1; rw [hn2] at n2; rw [hn3] at n3
  obtain ⟨a, b, rfl, ka, kb⟩ := mapM_two y0
  obtain ⟨b', rfl, kb'⟩ := mapM_one n1
  obtain ⟨a', rfl, ka'⟩ := mapM_one n2
  obtain ⟨a'', rfl, ka''⟩ := mapM_one n3
  obtain rfl := Option.some.inj (ka.symm.trans ka')
  obtain rfl := Option.some.inj (ka.symm.trans ka'')
  obtain rfl := Option.some.inj (kb.symm.trans kb')
  rw [ha0] at x0; rw [ho1] at x1; rw [ha2, ho2] at x2; rw [ho3] at x3
  obtain ⟨sk, pk, rfl, rfl, g0⟩ := xWing_generate x0
  obtain ⟨pk', ct, q1, g1, g1'⟩ := xWing_encaps x1
  obtain ⟨sk', ct', q2, g2, g2'⟩ := xWing_decaps x2
  obtain ⟨sk'', q3, rfl⟩ := xWing_skBytes x3
  obtain rfl := Sum.inr.inj (List.cons.inj q1).1
  obtain rfl := Sum.inl.inj (List.cons.inj q2).1
  obtain rfl := Sum.inl.inj (List.cons.inj q3).1
  obtain ⟨e', r1, r2, -⟩ := (C39_ciphertext_roundtrip ct c).1
  obtain rfl := Res.ok.inj (g1'.symm.trans r1)
  obtain rfl := Res.ok.inj (g2.symm.trans r2)
  obtain ⟨m, t1, f1, f2⟩ := C37_agree S X hX hcomm g0 g1
  exact ⟨m, s1, t1, f1, fun hn => Res.ok.inj (g2'.symm.trans (f2 hn))⟩

open XWing XWingSpec in
/-- **C79** (X-Wing, with RFC 7748's function) The same, with nothing left to assume of X25519. -/
theorem C79_x_wing_agree_rfc7748 (es : List (Event (xWing S rfc7748) rngs)) {e0 e1 e2 e3 : Entry (xWing S rfc7748)}
    (he0 : e0 ∈ ((start st).run es).log) (he1 : e1 ∈ ((start st).run es).log) (he2 : e2 ∈ ((start st).run es).log)
    (he3 : e3 ∈ ((start st).run es).log) {k1 k2 c ss ss' sb}
    (ha0 : e0.arg = XWingArg.generate) (hn0 : e0.new = [k1, k2])
    (hn1 : e1.names = [k2]) (ho1 : e1.out = XWingOut.encaps c ss)
    (ha2 : e2.arg = XWingArg.decaps c) (hn2 : e2.names = [k1]) (ho2 : e2.out = XWingOut.decaps ss')
    (hn3 : e3.names = [k1]) (ho3 : e3.out = XWingOut.skBytes sb) :
    ∃ m, ∃ s s' : (rngs e1.thread).State, (rngs e1.thread).fill_bytes 32 s = .ok (m, s') ∧
      (NoiseOk S ML_KEM_768 (seedD S sb.toList).toList m.toList (encapsRandomness S (pkM S sb.toList) m.toList) →
        ss' = ss) :=
  C79_x_wing_agree S rfc7748 st rfc7748_base rfc7748_commutes es he0 he1 he2 he3 ha0 hn0 hn1 ho1 ha2 hn2 ho2 hn3 ho3

open XWing XWingSpec in
/-- **C79** (X-Wing) No call that any thread is making panics, if its generator does not. -/
theorem C79_x_wing_no_panic (es : List (Event (xWing S X) rngs)) {t : Nat}
    (hr : ∀ n s, (rngs t).fill_bytes n s ≠ .panic) {r : Running (xWing S X)}
    (hb : ((start st).run es).busy t = some r) (s : (rngs t).State) :
    (xWing S X).exec r.keys r.arg (rngs t) s ≠ .panic := by
  obtain ⟨M, h⟩ := World.explained (xWing_closed (S := S) (X := X)) st es
  have hg : ∀ k ∈ r.keys, Sum.elim (fun _ => True) (PkReach S X) k := fun k hk => by
    obtain ⟨n, -, hn⟩ := World.mem_of_mapM (h.held t r hb) k hk
    exact h.good n k hn
  obtain ⟨names, keys, arg⟩ := r
  dsimp only at hg ⊢
  rcases keys with _ | ⟨sk | pk, _ | ⟨k2, ks⟩⟩
  · cases arg with
    | generate =>
      refine bind_np ?_ (by intro _; nofun)
      rw [key_pair_eq]
      exact bind_np (hr _ _) fun _ => bind_np (History.derive_no_panic S X _) (by intro _; nofun)
    | parsePk b =>
      obtain ⟨pk, -, h, -⟩ := C39_public_canonical S b
      exact bind_np (by rw [h]; nofun) (by intro _; nofun)
    | _ => nofun
  · cases arg with
    | derive => exact bind_np (History.derive_no_panic S X _) (by intro _; nofun)
    | decaps c =>
      obtain ⟨ct, hc⟩ : ∃ ct, Ciphertext.from_bytes c = .ok ct := ⟨_, ct_from_bytes c⟩
      refine bind_np (by rw [hc]; nofun) fun ct' => bind_np (C43_implicit_rejection S X sk ct').1 fun a => ?_
      nofun
    | _ => nofun
  · cases arg <;> nofun
  · have hk : PkReach S X pk := hg _ List.mem_cons_self
    cases arg with
    | write =>
      obtain ⟨b, hb, -⟩ := C39_public_roundtrip S X hk
      exact bind_np (by rw [hb]; nofun) (by intro _; nofun)
    | encaps =>
      refine bind_np ?_ ?_
      · unfold XWing.EncapsulationKey.encapsulate
        refine bind_np ?_ fun _ => bind_np (hr _ _) (by intro _; nofun)
        unfold MlKem.EncapsulationKey.encapsulate
        exact bind_np (hr _ _) fun _ =>
          bind_np (C04_encaps_outcome S supported_768 (.reach (hk.ek S X)) _).1 (by intro _; nofun)
      · rintro ⟨⟨ct, ss⟩, st⟩
        obtain ⟨c, hc⟩ : ∃ c, ct.as_bytes = .ok c := ⟨_, ct_as_bytes ct⟩
        dsimp only
        rw [hc]
        nofun
    | _ => nofun
  · cases arg <;> nofun

end

/-! ### The DHKEM adapters -/

section
variable {C : Dhkem.DhGroup} {rngs : Nat → Rng} (st : (t : Nat) → (rngs t).State) (es : List (Event (dhKem C) rngs))

theorem dhKem_generated {keys : List (dhKem C).Key} {k1 k2 : (dhKem C).Key} {own} {arg : DhArg C} {rng : Rng} {s s' : rng.State}
    (h : (dhKem C).exec keys arg rng s = .ok (([k1, k2], .generated own), s')) :
    ∃ dk ek, k1 = .inl dk ∧ k2 = .inr ek ∧ own = ek.as_ref ∧
      Dhkem.EcdhKem.random_keypair C rng s = .ok ((dk, ek), s') := by
  rcases keys with _ | ⟨dk | ek, _ | ⟨k2, ks⟩⟩ <;> cases arg <;> simp only [dhKem, Res.bind_eq_ok] at h
  · obtain ⟨⟨⟨dk, ek⟩, t⟩, h1, h2⟩ := h
    simp only [Res.ok.injEq, Prod.mk.injEq, DhOut.generated.injEq] at h2
    obtain ⟨⟨⟨rfl, rfl⟩, rfl⟩, rfl⟩ := h2
    exact ⟨dk, ek, rfl, rfl, rfl, h1⟩
  all_goals grind

theorem dhKem_encaps {keys : List (dhKem C).Key} {new pk ss} {arg : DhArg C} {rng : Rng} {s s' : rng.State}
    (h : (dhKem C).exec keys arg rng s = .ok ((new, .encaps pk ss), s')) :
    ∃ ek, keys = [.inr ek] ∧ Dhkem.EcdhKem.encapsulate C ek rng s = .ok ((pk, ss), s') := by
  rcases keys with _ | ⟨dk | ek, _ | ⟨k2, ks⟩⟩ <;> cases arg <;> simp only [dhKem, Res.bind_eq_ok] at h <;> grind

theorem dhKem_fromPublic {keys : List (dhKem C).Key} {k own out} {rng : Rng} {s s' : rng.State}
    (h : (dhKem C).exec keys (.fromPublic own) rng s = .ok (([k], out), s')) : [k] = [.inr (.from_ own)] := by
  rcases keys with _ | ⟨dk | ek, _ | ⟨k2, ks⟩⟩ <;> simp only [dhKem] at h <;> grind

/-- **C79** (DHKEM) Two decapsulations of one encapsulated key with one key give the same secret; and a key pair
generated in one thread, an encapsulation to it in another and a decapsulation in a third agree, whether the public key
was shared in memory or handed over as a value. -/
theorem C79_dhkem (hC : Dhkem.Agrees C) {e0 e1 e2 : Entry (dhKem C)} (he0 : e0 ∈ ((start st).run es).log)
    (he1 : e1 ∈ ((start st).run es).log) (he2 : e2 ∈ ((start st).run es).log) {pk ss} :
    (∀ {ss'}, e1.names = e2.names → e1.arg = DhArg.decaps pk → e2.arg = DhArg.decaps pk → e1.out = DhOut.decaps ss →
      e2.out = DhOut.decaps ss' → ss = ss') ∧
    (∀ {k1 k2 own ss'}, e0.out = DhOut.generated own → e0.new = [k1, k2] →
      e1.out = DhOut.encaps pk ss →
      (e1.names = [k2] ∨ ∃ e3 ∈ ((start st).run es).log, e3.arg = DhArg.fromPublic own ∧ e3.new = e1.names) →
      e2.names = [k1] → e2.arg = DhArg.decaps pk → e2.out = DhOut.decaps ss' → ss' = ss) := by
  have dec : ∀ {keys new ss} {rng : Rng} {s s' : rng.State},
      (dhKem C).exec keys (.decaps pk) rng s = .ok ((new, .decaps ss), s') →
      ∃ dk, keys = [.inl dk] ∧ Dhkem.EcdhKem.decapsulate C dk pk = .ok ss := by
    intro keys new ss rng s s' h
    rcases keys with _ | ⟨dk | ek, _ | ⟨k2, ks⟩⟩ <;> simp only [dhKem, Res.bind_eq_ok] at h <;> grind
  obtain ⟨key, h, -⟩ := C78_explained st es
  obtain ⟨keys1, new1, s1, s1', n1, x1, -⟩ := h e1 he1
  obtain ⟨keys2, new2, s2, s2', n2, x2, -⟩ := h e2 he2
  constructor
  · intro ss' hn a1 a2 o1 o2
    rw [hn] at n1
    obtain rfl := Option.some.inj (n1.symm.trans n2)
    rw [a1, o1] at x1
    rw [a2, o2] at x2
    obtain ⟨dk, rfl, g1⟩ := dec x1
    obtain ⟨dk', q, g2⟩ := dec x2
    obtain rfl := Sum.inl.inj (List.cons.inj q).1
    exact Res.ok.inj (g1.symm.trans g2)
  · intro k1 k2 own ss' o0 hn0 o1 hn1 hn2 a2 o2
    obtain ⟨keys0, new0, s0, s0', -, x0, y0⟩ := h e0 he0
    rw [hn0] at y0
    obtain ⟨a, b, rfl, ka, kb⟩ := mapM_two y0
    rw [hn2] at n2
    obtain ⟨a', rfl, ka'⟩ := mapM_one n2
    obtain rfl := Option.some.inj (ka.symm.trans ka')
    rw [a2, o2] at x2
    obtain ⟨dk, q, g2⟩ := dec x2
    obtain rfl := (List.cons.inj q).1
    rw [o0] at x0
    obtain ⟨dk', ek, hdk, rfl, rfl, g0⟩ := dhKem_generated x0
    obtain rfl := Sum.inl.inj hdk
    rw [o1] at x1
    obtain ⟨ek', rfl, g1⟩ := dhKem_encaps x1
    have he : ek' = ek := by
      rcases hn1 with hn1 | ⟨e3, he3, a3, hn3⟩
      · rw [hn1] at n1
        obtain ⟨b', q, kb'⟩ := mapM_one n1
        rw [← Option.some.inj (kb.symm.trans kb')] at q
        exact Sum.inr.inj (List.cons.inj q).1
      · obtain ⟨keys3, new3, s3, s3', -, x3, y3⟩ := h e3 he3
        rw [hn3] at y3
        obtain rfl := Option.some.inj (n1.symm.trans y3)
        rw [a3] at x3
        have := dhKem_fromPublic x3
        exact Sum.inr.inj (List.cons.inj this).1
    subst he
    exact Res.ok.inj (g2.symm.trans ((Dhkem.C44_agree C hC).1 g0 g1))

end
/-! ### The hypotheses are satisfiable -/

namespace World
variable {A : Api} {rngs : Nat → Rng} {w : World A rngs}

theorem run_nil (w : World A rngs) : w.run [] = w := rfl

theorem step_begin_of {t names keys} {arg : A.Arg} (hb : w.busy t = none) (hn : names.mapM (get w.pool) = some keys) :
    w.step (.begin t names arg) = { w with busy := Function.update w.busy t (some { names, keys, arg }) } := by
  simp only [step, hb, hn]

theorem step_finish_of {t r new out s} (hb : w.busy t = some r)
    (he : A.exec r.keys r.arg (rngs t) (w.st t) = .ok ((new, out), s)) :
    w.step (.finish t) = w.ended t r.names r.arg new out s := by
  simp only [step, hb, he]

theorem step_abandon_of {t r s} (hb : w.busy t = some r) : w.step (.abandon t s) =
    { w with st := Function.update w.st t s, busy := Function.update w.busy t none } := by
  simp only [step, hb]

theorem step_drop_borrowed {t u : Nat} {k : Name} {r} (hb : w.busy u = some r) (hk : k ∈ r.names) : w.step (.drop t k) = w := by
  rcases step_drop w t k with ⟨-, h⟩ | ⟨h, -⟩
  · exact h
  · exact absurd ⟨u, r, hb, hk⟩ h

theorem step_drop_of {t : Nat} {k : Name} (hb : ∀ u r, w.busy u = some r → k ∉ r.names) : w.step (.drop t k) =
    { w with pool := Function.update w.pool k.1 ((w.pool k.1).set k.2 none) } := by
  rcases step_drop w t k with ⟨⟨u, r, h1, h2⟩, -⟩ | ⟨-, h⟩
  · exact absurd h2 (hb u r h1)
  · exact h

end World

/-- Four threads and one key pair. Thread 0 generates it; thread 1 encapsulates while thread 2 decapsulates; thread 0
tries to drop the decapsulation key meanwhile; thread 3 is stopped in the middle of a call; in the end the key is dropped. -/
def sample (A : Api) (rngs : Nat → Rng) (generate encaps decaps write : A.Arg) (s : (rngs 3).State) : List (Event A rngs) :=
  [.begin 0 [] generate, .finish 0, .begin 1 [(0, 1)] encaps, .begin 2 [(0, 0)] decaps, .drop 0 (0, 0),
    .begin 3 [(0, 1)] encaps, .abandon 3 s, .finish 2, .begin 2 [(0, 0)] write, .finish 1, .finish 2, .drop 0 (0, 0)]

theorem sample_run {A : Api} {rngs : Nat → Rng} {generate encaps decaps write : A.Arg} {dk ek : A.Key}
    {st : (t : Nat) → (rngs t).State} {s : (rngs 3).State} {s0 s1 o0 o1 o2 o3}
    (x0 : A.exec [] generate (rngs 0) (st 0) = .ok (([dk, ek], o0), s0))
    (x1 : A.exec [ek] encaps (rngs 1) (st 1) = .ok (([], o1), s1))
    (x2 : A.exec [dk] decaps (rngs 2) (st 2) = .ok (([], o2), st 2))
    (x3 : A.exec [dk] write (rngs 2) (st 2) = .ok (([], o3), st 2)) :
    ((start st).run (sample A rngs generate encaps decaps write s)).log =
      [⟨0, [], generate, o0, [(0, 0), (0, 1)]⟩, ⟨2, [(0, 0)], decaps, o2, []⟩, ⟨1, [(0, 1)], encaps, o1, []⟩,
        ⟨2, [(0, 0)], write, o3, []⟩] ∧
    ((start st).run (sample A rngs generate encaps decaps write s)).pool 0 = [none, some ek] ∧
    ((start st).run (sample A rngs generate encaps decaps write s)).st 3 = s := by
  unfold sample
  rw [World.run_cons, World.step_begin_of rfl rfl, World.run_cons, World.step_finish_of rfl x0]
  rw [World.run_cons, World.step_begin_of rfl rfl, World.run_cons, World.step_begin_of rfl rfl]
  rw [World.run_cons, World.step_drop_borrowed (u := 2) rfl (List.mem_singleton.2 rfl)]
  rw [World.run_cons, World.step_begin_of rfl rfl, World.run_cons, World.step_abandon_of rfl]
  rw [World.run_cons, World.step_finish_of rfl x2]
  rw [World.run_cons, World.step_begin_of rfl rfl, World.run_cons, World.step_finish_of rfl x1]
  rw [World.run_cons, World.step_finish_of rfl x3, World.run_cons, World.step_drop_of]
  · exact ⟨rfl, rfl, rfl⟩
  · intro u r hr
    simp only [World.ended, start, Function.update_apply] at hr
    grind

/-- C78_once says something of it: thread 2's two calls ended in order, thread 3's call was begun and has no result. -/
example {A : Api} {rngs : Nat → Rng} {generate encaps decaps write : A.Arg} {dk ek : A.Key}
    {st : (t : Nat) → (rngs t).State} {s : (rngs 3).State} {s0 s1 o0 o1 o2 o3}
    (x0 : A.exec [] generate (rngs 0) (st 0) = .ok (([dk, ek], o0), s0))
    (x1 : A.exec [ek] encaps (rngs 1) (st 1) = .ok (([], o1), s1))
    (x2 : A.exec [dk] decaps (rngs 2) (st 2) = .ok (([], o2), st 2))
    (x3 : A.exec [dk] write (rngs 2) (st 2) = .ok (([], o3), st 2)) :
    (start (A := A) st).Quiet ∧
    callsOf 2 ((start st).run (sample A rngs generate encaps decaps write s)).log = [([(0, 0)], decaps), ([(0, 0)], write)] ∧
    callsOf 3 ((start st).run (sample A rngs generate encaps decaps write s)).log = [] ∧
    begun 3 (sample A rngs generate encaps decaps write s) = [([(0, 1)], encaps)] := by
  rw [(sample_run (s := s) x0 x1 x2 x3).1]
  exact ⟨fun _ => rfl, rfl, rfl, rfl⟩

/-- Threads 1 and 2 share the keys of thread 0, which takes no part any more; thread 1 is stopped in the middle. -/
def shared (A : Api) (rngs : Nat → Rng) (encaps decaps : A.Arg) (s : (rngs 1).State) : List (Event A rngs) :=
  [.begin 1 [(0, 1)] encaps, .begin 2 [(0, 0)] decaps, .abandon 1 s, .finish 2]

/-- It is a schedule as C78_alone asks, from a world as C78_alone asks, and thread 2's call ends in it. -/
theorem shared_run {A : Api} {rngs : Nat → Rng} {generate encaps decaps : A.Arg} {dk ek : A.Key}
    {st : (t : Nat) → (rngs t).State} {s : (rngs 1).State} {s0 o0 o2}
    (x0 : A.exec [] generate (rngs 0) (st 0) = .ok (([dk, ek], o0), s0))
    (x2 : A.exec [dk] decaps (rngs 2) (st 2) = .ok (([], o2), st 2)) :
    ((start st).run [.begin 0 [] generate, .finish 0]).Quiet ∧
    (∀ e ∈ shared A rngs encaps decaps s, Apart (fun u => ∃ e' ∈ shared A rngs encaps decaps s, e'.thread = u) e) ∧
    (((start st).run [.begin 0 [] generate, .finish 0]).run (shared A rngs encaps decaps s)).own 2 =
      ([], st 2, none, [⟨2, [(0, 0)], decaps, o2, []⟩]) := by
  rw [World.run_cons, World.step_begin_of rfl rfl, World.run_cons, World.step_finish_of rfl x0]
  refine ⟨fun t => ?_, fun e he => ?_, ?_⟩
  · show Function.update (Function.update (fun _ => none) 0 _) 0 none t = none
    simp only [Function.update_apply]
    grind
  · simp only [shared, List.mem_cons, List.not_mem_nil, or_false] at he
    have h0 : ¬ ∃ e' ∈ shared A rngs encaps decaps s, e'.thread = 0 := by simp [shared, Event.thread]
    rcases he with rfl | rfl | rfl | rfl
    · intro k hk; obtain rfl := List.mem_singleton.1 hk; exact Or.inr h0
    · intro k hk; obtain rfl := List.mem_singleton.1 hk; exact Or.inr h0
    · exact trivial
    · exact trivial
  · unfold shared
    rw [World.run_nil, World.run_cons, World.step_begin_of rfl rfl, World.run_cons, World.step_begin_of rfl rfl,
      World.run_cons, World.step_abandon_of rfl, World.run_cons, World.step_finish_of rfl x2]
    rfl

/-- The same threads, otherwise interleaved: as C78_schedules asks. -/
example (A : Api) (rngs : Nat → Rng) (encaps decaps : A.Arg) (s : (rngs 1).State) (t : Nat) :
    (shared A rngs encaps decaps s).filter (·.thread = t) =
      ([.begin 2 [(0, 0)] decaps, .begin 1 [(0, 1)] encaps, .finish 2, .abandon 1 s] : List (Event A rngs)).filter
        (·.thread = t) := by
  unfold shared
  by_cases h1 : t = 1
  · subst h1; rfl
  · by_cases h2 : t = 2
    · subst h2; rfl
    · simp [Event.thread, Ne.symm h1, Ne.symm h2]

section
variable [Build]

section
variable {S : Sha3} {P : ParameterSet} {X : XWing.X25519} {rng : Rng} {s s1 s' : rng.State}

theorem generate_of {d z dk ek} (h1 : rng.fill_bytes 32 s = .ok (d, s1)) (h2 : rng.fill_bytes 32 s1 = .ok (z, s'))
    (h : Kem.generate_deterministic S P d z = .ok (dk, ek)) : Kem.generate S P rng s = .ok ((dk, ek), s') := by
  rw [generate_rng_eq, h1, Res.ok_bind]
  dsimp only
  rw [h2, Res.ok_bind]
  dsimp only
  rw [h]
  rfl

theorem mlKem_generate_of {dk ek} (h : Kem.generate S P rng s = .ok ((dk, ek), s')) :
    (mlKem S P).exec [] .generate rng s = .ok (([.inl dk, .inr ek], .nothing), s') := by
  simp only [mlKem, h, Res.ok_bind]

theorem mlKem_encaps_of {ek c K} (h : ek.encapsulate S rng s = .ok ((c, K), s')) :
    (mlKem S P).exec [.inr ek] .encaps rng s = .ok (([], .encaps c K), s') := by
  simp only [mlKem, h, Res.ok_bind]

theorem xWing_generate_of {sk pk} (h : XWing.generate_key_pair S X rng s = .ok ((sk, pk), s')) :
    (xWing S X).exec [] .generate rng s = .ok (([.inl sk, .inr pk], .nothing), s') := by
  simp only [xWing, h, Res.ok_bind]

theorem xWing_encaps_of {pk ct ss c} (h : XWing.EncapsulationKey.encapsulate S X pk rng s = .ok ((ct, ss), s'))
    (hc : ct.as_bytes = .ok c) : (xWing S X).exec [.inr pk] .encaps rng s = .ok (([], .encaps c ss), s') := by
  simp only [xWing, h, hc, Res.ok_bind]

theorem xWing_decaps_of {sk ct ss c} (hc : XWing.Ciphertext.from_bytes c = .ok ct)
    (h : XWing.DecapsulationKey.decapsulate S X sk ct = .ok ss) :
    (xWing S X).exec [.inl sk] (.decaps c) rng s = .ok (([], .decaps ss), s) := by
  simp only [xWing, h, hc, Res.ok_bind]

end

/-- What the samples ask for holds of ML-KEM with the toy primitives: keys are generated, and what thread 1 encapsulates
thread 2 decapsulates. -/
theorem toy_ml_kem (d z m : B32) : ∃ dk ek c K b, ∀ s : Nat,
    (mlKem Toy.S MlKem512Params).exec [] (.generateDet d z) Toy.rng s = .ok (([.inl dk, .inr ek], .nothing), s) ∧
    (mlKem Toy.S MlKem512Params).exec [.inr ek] (.encapsDet m) Toy.rng s = .ok (([], .encaps c K), s) ∧
    (mlKem Toy.S MlKem512Params).exec [.inl dk] (.decaps c) Toy.rng s = .ok (([], .decaps K), s) ∧
    (mlKem Toy.S MlKem512Params).exec [.inl dk] .write Toy.rng s = .ok (([], .dkBytes b), s) := by
  obtain ⟨dk, ek, eb, db, h1, h2, h3, -⟩ := C01_keygen_is_fips203 Toy.S supported_512 d z (Toy.seedOk _ _)
  obtain ⟨_, _, hc⟩ := C02_encaps_is_fips203 Toy.S supported_512 (.generated h1) m
  obtain ⟨c, K, hc, -⟩ := hc (Toy.seedOk _ _)
  have hd := C05_decaps_encaps Toy.S supported_512 (by decide) (by decide) h1 hc (Toy.noiseOk (by simp) _ _ _)
  refine ⟨dk, ek, c, K, db, fun s => ⟨?_, ?_, ?_, ?_⟩⟩ <;> simp only [mlKem, h1, hc, hd, h3, Res.ok_bind]

/-- The hypotheses of C79_ml_kem_stable, C79_ml_kem_decaps and C79_ml_kem_agree_det are met in one schedule of four
threads, in which a key is dropped and a call is lost. -/
example (d z m : B32) : ∃ es c K b, ((start (A := mlKem Toy.S MlKem512Params) (rngs := fun _ => Toy.rng) fun _ =>
      (0 : Nat)).run es).log =
    [⟨0, [], MlKemArg.generateDet d z, MlKemOut.nothing, [(0, 0), (0, 1)]⟩,
      ⟨2, [(0, 0)], MlKemArg.decaps c, MlKemOut.decaps K, []⟩,
      ⟨1, [(0, 1)], MlKemArg.encapsDet m, MlKemOut.encaps c K, []⟩,
      ⟨2, [(0, 0)], MlKemArg.write, MlKemOut.dkBytes b, []⟩] := by
  obtain ⟨dk, ek, c, K, b, h⟩ := toy_ml_kem d z m
  exact ⟨_, c, K, b, (sample_run (rngs := fun _ => Toy.rng) (st := fun _ => (0 : Nat)) (s := (7 : Nat)) (h 0).1 (h 0).2.1
    (h 0).2.2.1 (h 0).2.2.2).1⟩

/-- Those of C78_alone and C78_schedules too -/
example (d z m : B32) : ∃ w : World (mlKem Toy.S MlKem512Params) fun _ => Toy.rng, w.Quiet ∧ ∃ c K, ∃ es,
    (∀ e ∈ es, Apart (fun u => ∃ e' ∈ es, e'.thread = u) e) ∧
    ((w.run es).own 2).2.2.2 = [⟨2, [(0, 0)], MlKemArg.decaps c, MlKemOut.decaps K, []⟩] := by
  obtain ⟨dk, ek, c, K, b, h⟩ := toy_ml_kem d z m
  obtain ⟨h1, h2, h3⟩ := shared_run (rngs := fun _ => Toy.rng) (st := fun _ => (0 : Nat)) (s := (7 : Nat))
    (encaps := MlKemArg.encaps) (h 0).1 (h 0).2.2.1
  exact ⟨_, h1, c, K, _, h2, congrArg (·.2.2.2) h3⟩

/-- A call is running in some world, as C79_ml_kem_no_panic and C79_x_wing_no_panic ask. -/
example {A : Api} {rngs : Nat → Rng} (st : (t : Nat) → (rngs t).State) (generate : A.Arg) :
    ∃ r, ((start st).run [.begin 0 [] generate]).busy 0 = some r := by
  rw [World.run_cons, World.step_begin_of rfl rfl]
  exact ⟨_, rfl⟩

/-- Those of C79_ml_kem_agree, with random key pairs and encapsulations -/
example : ∃ es c K b, ((start (A := mlKem Toy.S MlKem512Params) (rngs := fun _ => Toy.rng) fun t => t).run es).log =
    [⟨0, [], MlKemArg.generate, MlKemOut.nothing, [(0, 0), (0, 1)]⟩,
      ⟨2, [(0, 0)], MlKemArg.decaps c, MlKemOut.decaps K, []⟩,
      ⟨1, [(0, 1)], MlKemArg.encaps, MlKemOut.encaps c K, []⟩,
      ⟨2, [(0, 0)], MlKemArg.write, MlKemOut.dkBytes b, []⟩] := by
  have draw := History.toy_draw
  obtain ⟨dk, ek, eb, db, h1, h2, h3, -⟩ := C01_keygen_is_fips203 Toy.S supported_512
    (Vector.ofFn fun i => UInt8.ofNat (0 + i.val)) (Vector.ofFn fun i => UInt8.ofNat (1 + i.val)) (Toy.seedOk _ _)
  obtain ⟨_, _, hc⟩ := C02_encaps_is_fips203 Toy.S supported_512 (.generated h1) (Vector.ofFn fun i => UInt8.ofNat (1 + i.val))
  obtain ⟨c, K, hc, -⟩ := hc (Toy.seedOk _ _)
  have hd := C05_decaps_encaps Toy.S supported_512 (by decide) (by decide) h1 hc (Toy.noiseOk (by simp) _ _ _)
  have hg := generate_of (P := MlKem512Params) (draw 0) (draw 1) h1
  have he := (((C20_encapsulate_randomness Toy.S ek Toy.rng (1 : Nat)).1 _ _ (draw 1)).1 _).2 ⟨_, hc, rfl⟩
  have x0 : (mlKem Toy.S MlKem512Params).exec [] .generate Toy.rng (0 : Nat) =
      .ok (([.inl dk, .inr ek], .nothing), (2 : Nat)) := mlKem_generate_of hg
  have x1 : (mlKem Toy.S MlKem512Params).exec [.inr ek] .encaps Toy.rng (1 : Nat) =
      .ok (([], .encaps c K), (2 : Nat)) := mlKem_encaps_of he
  have x2 : (mlKem Toy.S MlKem512Params).exec [.inl dk] (.decaps c) Toy.rng (2 : Nat) =
      .ok (([], .decaps K), (2 : Nat)) := by simp only [mlKem, hd, Res.ok_bind]
  have x3 : (mlKem Toy.S MlKem512Params).exec [.inl dk] .write Toy.rng (2 : Nat) =
      .ok (([], .dkBytes db), (2 : Nat)) := by simp only [mlKem, h3, Res.ok_bind]
  exact ⟨_, c, K, db, (sample_run (rngs := fun _ => Toy.rng) (st := fun t => t) (s := (7 : Nat)) x0 x1 x2 x3).1⟩

/-- Those of C79_x_wing_stable, C79_x_wing_decaps and C79_x_wing_agree -/
example : ∃ es c ss sb, ((start (A := xWing Toy.S XWing.toyX) (rngs := fun _ => Toy.rng) fun t => t).run es).log =
    [⟨0, [], XWingArg.generate, XWingOut.nothing, [(0, 0), (0, 1)]⟩,
      ⟨2, [(0, 0)], XWingArg.decaps c, XWingOut.decaps ss, []⟩,
      ⟨1, [(0, 1)], XWingArg.encaps, XWingOut.encaps c ss, []⟩,
      ⟨2, [(0, 0)], XWingArg.write, XWingOut.skBytes sb, []⟩] := by
  obtain ⟨pk, b, h1, -⟩ := XWing.C38_keygen Toy.S XWing.toyX XWing.toyX_base
    (XWing.DecapsulationKey.from_bytes (Vector.ofFn fun i => UInt8.ofNat (0 + i.val))) (Toy.seedOk _ _)
  have hgen := ((XWing.C40_randomness Toy.S XWing.toyX Toy.rng (0 : Nat)).1 _).2 ⟨_, 0 + 1, pk, rfl, h1, rfl⟩
  obtain ⟨pb, h2, h3⟩ := XWing.C38_encaps Toy.S XWing.toyX (.derived h1) (rng := Toy.rng) (s := (1 : Nat)) rfl rfl
  obtain ⟨ct, ss, cb, h4, h5, -⟩ := h3 (Toy.seedOk _ _)
  obtain ⟨m, t1, -, h6⟩ := XWing.C37_agree Toy.S XWing.toyX XWing.toyX_base XWing.toyX_comm hgen h4
  obtain ⟨e', r1, r2, -⟩ := (XWing.C39_ciphertext_roundtrip ct cb).1
  obtain rfl := Res.ok.inj (h5.symm.trans r1)
  have h7 := h6 (Toy.noiseOk (by simp) _ _ _)
  have x0 : (xWing Toy.S XWing.toyX).exec [] .generate Toy.rng (0 : Nat) =
      .ok (([.inl (XWing.DecapsulationKey.from_bytes (Vector.ofFn fun i => UInt8.ofNat (0 + i.val))), .inr pk], .nothing),
        (1 : Nat)) := xWing_generate_of hgen
  have x1 : (xWing Toy.S XWing.toyX).exec [.inr pk] .encaps Toy.rng (1 : Nat) =
      .ok (([], .encaps cb ss), (3 : Nat)) := xWing_encaps_of h4 h5
  have x2 : (xWing Toy.S XWing.toyX).exec
      [.inl (XWing.DecapsulationKey.from_bytes (Vector.ofFn fun i => UInt8.ofNat (0 + i.val)))] (.decaps cb) Toy.rng (2 : Nat) =
      .ok (([], .decaps ss), (2 : Nat)) := xWing_decaps_of r2 h7
  exact ⟨_, cb, ss, _, (sample_run (rngs := fun _ => Toy.rng) (st := fun t => t) (s := (7 : Nat)) x0 x1 x2 rfl).1⟩

end

/-- Those of C79_dhkem -/
example : Dhkem.Agrees Dhkem.toy ∧ ∃ es own pk ss,
    ((start (A := dhKem Dhkem.toy) (rngs := fun _ => Toy.rng) fun t => t).run es).log =
    [⟨0, [], DhArg.generate, DhOut.generated own, [(0, 0), (0, 1)]⟩,
      ⟨2, [(0, 0)], DhArg.decaps pk, DhOut.decaps ss, []⟩,
      ⟨1, [(0, 1)], DhArg.encaps, DhOut.encaps pk ss, []⟩,
      ⟨2, [(0, 0)], DhArg.decaps pk, DhOut.decaps ss, []⟩] :=
  ⟨Dhkem.agrees_ofGroup _ _ _ _, _, _, _, _, (sample_run (rngs := fun _ => Toy.rng) (st := fun t => t) (s := (7 : Nat))
    (rfl : (dhKem Dhkem.toy).exec [] .generate Toy.rng (0 : Nat) = _) (rfl : (dhKem Dhkem.toy).exec _ .encaps Toy.rng (1 : Nat) = _) rfl rfl).1⟩

end Threads
