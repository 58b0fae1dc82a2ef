import Verif.Model.Sessions
import Verif.Props.FailureUniform
import Verif.Props.Hang
/-! C88: programs with any number of keys and exchanges work. -/
namespace Sessions
open Rust MlKem Fips203

/-- The number of exchanges whose key has been generated before, if there are `n` keys at the beginning -/
def possible : List Event → Nat → Nat
  | [], _ => 0
  | .newKey :: es, n => possible es (n + 1)
  | .exchange i :: es, n => (if i < n then 1 else 0) + possible es n

/-- The program returns, every exchange with an existing key takes place, and in every exchange the two sides have the same
secret. -/
def Works {rng : Rng} {Stored : Type} (K : Steps rng Stored) (es : List Event) (s : rng.State) : Prop :=
  ∃ xs, run K es [] s = .ok xs ∧ xs.length = possible es 0 ∧ ∀ x ∈ xs, x.1 = x.2

/-- The number of keys that a program generates -/
def keys (es : List Event) : Nat := es.countP fun e => match e with | .newKey => true | .exchange _ => false

/-- The number of exchanges in a program -/
def exchanges (es : List Event) : Nat := es.countP fun e => match e with | .newKey => false | .exchange _ => true

/-- The states of the generator in which keys are generated, and for each exchange those in which its key was generated
and in which it starts -/
def plan {σ : Type} (a b : σ → σ) : List Event → List σ → σ → List σ × List (σ × σ)
  | [], _, _ => ([], [])
  | .newKey :: es, ss, s =>
    let r := plan a b es (ss ++ [s]) (a s)
    (s :: r.1, r.2)
  | .exchange i :: es, ss, s =>
    match ss[i]? with
    | some t =>
      let r := plan a b es ss (b s)
      (r.1, (t, s) :: r.2)
    | none => plan a b es ss s

theorem plan_length {σ : Type} (a b : σ → σ) (es : List Event) (ss : List σ) (s : σ) :
    (plan a b es ss s).1.length = keys es ∧ (plan a b es ss s).2.length ≤ exchanges es := by
  induction es generalizing ss s with
  | nil => exact ⟨rfl, Nat.le_refl _⟩
  | cons e es ih =>
    cases e with
    | newKey =>
      have := ih (ss ++ [s]) (a s)
      simp only [plan, keys, exchanges, List.length_cons, List.countP_cons] at this ⊢
      simpa using this
    | exchange i =>
      cases h : ss[i]? with
      | some t =>
        have := ih ss (b s)
        simp only [plan, h, keys, exchanges, List.length_cons, List.countP_cons] at this ⊢
        simpa using this
      | none =>
        have := ih ss s
        simp only [plan, h, keys, exchanges, List.countP_cons] at this ⊢
        simp only [if_false, Bool.false_eq_true, if_true]
        omega

theorem run_works {rng : Rng} {Stored : Type} (K : Steps rng Stored) {a b : rng.State → rng.State}
    {G : rng.State → Prop} {E : rng.State → rng.State → Prop}
    (hk : ∀ s, G s → ∃ k, K.newKey s = .ok (k, a s))
    (he : ∀ s t k, G s → E s t → K.newKey s = .ok (k, a s) → ∃ x, K.exchange k t = .ok ((x, x), b t))
    (es : List Event) (ss : List rng.State) (stored : List Stored) (s : rng.State)
    (hs : List.Forall₂ (fun s k => G s ∧ K.newKey s = .ok (k, a s)) ss stored)
    (h1 : ∀ x ∈ (plan a b es ss s).1, G x) (h2 : ∀ x ∈ (plan a b es ss s).2, E x.1 x.2) :
    ∃ xs, run K es stored s = .ok xs ∧ xs.length = possible es stored.length ∧ ∀ x ∈ xs, x.1 = x.2 := by
  induction es generalizing ss stored s with
  | nil => exact ⟨[], rfl, rfl, by simp⟩
  | cons e es ih =>
    cases e with
    | newKey =>
      simp only [plan, List.mem_cons, forall_eq_or_imp] at h1 h2
      obtain ⟨k, hk'⟩ := hk s h1.1
      obtain ⟨xs, g1, g3, g2⟩ := ih (ss ++ [s]) (stored ++ [k]) (a s)
        (List.rel_append hs (.cons ⟨h1.1, hk'⟩ .nil)) h1.2 h2
      refine ⟨xs, by rw [run, hk', Res.ok_bind]; exact g1, ?_, g2⟩
      rw [g3, possible, List.length_append, List.length_singleton]
    | exchange i =>
      cases h : ss[i]? with
      | none =>
        have hn : stored[i]? = none := by
          rw [List.getElem?_eq_none_iff] at h ⊢; rw [← hs.length_eq]; exact h
        simp only [plan, h] at h1 h2
        obtain ⟨xs, g1, g3, g2⟩ := ih ss stored s hs h1 h2
        refine ⟨xs, by rw [run, hn]; exact g1, ?_, g2⟩
        rw [g3, possible, if_neg (not_lt.2 (List.getElem?_eq_none_iff.1 hn)), Nat.zero_add]
      | some t =>
        simp only [plan, h, List.mem_cons, forall_eq_or_imp] at h1 h2
        obtain ⟨hi, rfl⟩ := List.getElem?_eq_some_iff.1 h
        have hi' : i < stored.length := hs.length_eq ▸ hi
        have hg := (List.forall₂_iff_get.1 hs).2 i hi hi'
        obtain ⟨x, hx⟩ := he _ s _ hg.1 h2.1 hg.2
        obtain ⟨xs, g1, g3, g2⟩ := ih ss stored (b s) hs h1 h2.2
        refine ⟨(x, x) :: xs, ?_, by rw [possible, if_pos hi', ← g3, List.length_cons, Nat.add_comm], ?_⟩
        · have hn : stored[i]? = some (stored.get ⟨i, hi'⟩) := List.getElem?_eq_getElem hi'
          rw [run, hn]
          dsimp only
          rw [hx, Res.ok_bind]
          dsimp only
          rw [g1]
          rfl
        · simp only [List.mem_cons, forall_eq_or_imp]
          exact ⟨trivial, g2⟩

/-- The bound for a program, from bounds for a key and for an exchange -/
theorem program_bound {α : Type} [Finite α] {rng : Rng} {Stored : Type} (K : α → Steps rng Stored)
    {a b : rng.State → rng.State} {G : α → rng.State → Prop} {E : α → rng.State → rng.State → Prop}
    (hk : ∀ T s, G T s → ∃ k, (K T).newKey s = .ok (k, a s))
    (he : ∀ T s t k, G T s → E T s t → (K T).newKey s = .ok (k, a s) → ∃ x, (K T).exchange k t = .ok ((x, x), b t))
    {ε δ : ℝ} (hδ : 0 ≤ δ) (h1 : ∀ s, prob (fun T => ¬ G T s) ≤ ε) (h2 : ∀ s t, prob (fun T => ¬ E T s t) ≤ δ)
    (es : List Event) (s : rng.State) :
    prob (fun T => ¬ Works (K T) es s) ≤ keys es * ε + exchanges es * δ := by
  obtain ⟨l1, l2⟩ := plan_length a b es [] s
  have p1 := prob_exists_le (fun x T => ¬ G T x) h1 (plan a b es [] s).1
  have p2 := prob_exists_le (fun (x : rng.State × rng.State) T => ¬ E T x.1 x.2) (fun x => h2 x.1 x.2) (plan a b es [] s).2
  have l2' : ((plan a b es [] s).2.length : ℝ) * δ ≤ exchanges es * δ :=
    mul_le_mul_of_nonneg_right (by exact_mod_cast l2) hδ
  rw [l1] at p1
  refine le_trans (le_trans (prob_mono fun T hT => ?_) (prob_or_le (fun T => ∃ x ∈ (plan a b es [] s).1, ¬ G T x)
    (fun T => ∃ x ∈ (plan a b es [] s).2, ¬ E T x.1 x.2))) (add_le_add p1 (p2.trans l2'))
  by_contra hn
  push Not at hn
  exact hT (run_works (K T) (hk T) (he T) es [] [] s .nil hn.1 hn.2)

/-! ### The generator -/

/-- What the generator returns next, and its state after that -/
def block (rng : Rng) (s : rng.State) : B32 :=
  match rng.fill_bytes 32 s with | .ok r => r.1 | _ => Vector.replicate 32 0
def after (rng : Rng) (s : rng.State) : rng.State :=
  match rng.fill_bytes 32 s with | .ok r => r.2 | _ => s

theorem fill_eq {rng : Rng} (hr : ∀ n s, ∃ r, rng.fill_bytes n s = .ok r) (s : rng.State) :
    rng.fill_bytes 32 s = .ok (block rng s, after rng s) := by
  obtain ⟨r, h⟩ := hr 32 s
  simp [block, after, h]

theorem prob_tables (S : Sha3) (E : Sha3 → Prop) {c : ℝ}
    (h : ∀ S, prob (fun T : Bytes 34 → Bytes (3 * 280) => E (withXof S T)) ≤ c) :
    prob (fun T : Tables => E (withTables S T)) ≤ c := by
  classical
  rw [prob_ind]
  refine (expect_prod_type _).trans_le ?_
  rw [Finset.expect_comm]
  refine (Finset.expect_le_expect fun F _ => ?_).trans (Finset.expect_const Finset.univ_nonempty c).le
  have := h (withPrf (withDerive S F.2) F.1)
  rwa [prob_ind] at this

section
variable [Build] (S : Sha3) {P : ParameterSet} {p : Params} {rng : Rng}

theorem generate_eq (hr : ∀ n s, ∃ r, rng.fill_bytes n s = .ok r) {s : rng.State} {r}
    (hg : Kem.generate_deterministic S P (block rng s) (block rng (after rng s)) = .ok r) :
    Kem.generate S P rng s = .ok (r, after rng (after rng s)) := by
  rw [generate_rng_eq, fill_eq hr, Res.ok_bind]
  dsimp only
  rw [fill_eq hr, Res.ok_bind]
  dsimp only
  rw [hg]
  rfl

theorem encapsulate_eq (hr : ∀ n s, ∃ r, rng.fill_bytes n s = .ok r) {t : rng.State} {ek : EncapsulationKey P} {r}
    (hc : ek.encapsulate_deterministic S (block rng t) = .ok r) : ek.encapsulate S rng t = .ok (r, after rng t) := by
  unfold MlKem.EncapsulationKey.encapsulate rand
  rw [fill_eq hr, Res.ok_bind]
  dsimp only
  change (ek.encapsulate_deterministic S (block rng t) >>= _) = _
  rw [hc]
  rfl

theorem mlKem_newKey (h : Supported P p) (hr : ∀ n s, ∃ r, rng.fill_bytes n s = .ok r) {s : rng.State}
    (hG : PairReturns S P (block rng s) (block rng (after rng s))) :
    ∃ k, (mlKem S P rng).newKey s = .ok (k, after rng (after rng s)) := by
  obtain ⟨dk, ek, hg, -⟩ := hG
  obtain ⟨db, h1, -⟩ := C12_dk_roundtrip S h (.generated hg)
  obtain ⟨eb, h2, -⟩ := C11_ek_roundtrip S h (.generated hg)
  refine ⟨(db, eb), ?_⟩
  show (Kem.generate _ P rng s >>= _) = _
  rw [generate_eq _ hr hg, Res.ok_bind]
  dsimp only
  rw [h1, Res.ok_bind, h2]
  rfl

theorem mlKem_exchange (h : Supported P p) (hr : ∀ n s, ∃ r, rng.fill_bytes n s = .ok r) {s t : rng.State} {k}
    (hG : PairReturns S P (block rng s) (block rng (after rng s)))
    (hE : ¬ Disagree S P (block rng s) (block rng (after rng s)) (block rng t))
    (hk : (mlKem S P rng).newKey s = .ok (k, after rng (after rng s))) :
    ∃ x, (mlKem S P rng).exchange k t = .ok ((x, x), after rng t) := by
  obtain ⟨dk, ek, hg, he, -⟩ := hG
  obtain ⟨db, h1, h1'⟩ := C12_dk_roundtrip S h (.generated hg)
  obtain ⟨eb, h2, h2'⟩ := C11_ek_roundtrip S h (.generated hg)
  obtain rfl : k = (db, eb) := by
    change (Kem.generate _ P rng s >>= _) = _ at hk
    rw [generate_eq _ hr hg, Res.ok_bind] at hk
    dsimp only at hk
    rw [h1, Res.ok_bind, h2] at hk
    exact (Prod.mk.inj (Res.ok.inj hk)).1.symm
  obtain ⟨⟨c, K⟩, hc⟩ := he (block rng t)
  have hK : dk.decapsulate S c = .ok K := by
    by_contra hn
    exact hE ⟨dk, ek, c, K, hg, hc, hn⟩
  refine ⟨K, ?_⟩
  show (MlKem.EncapsulationKey.from_bytes _ eb >>= _) = _
  rw [h2', Res.ok_bind, encapsulate_eq _ hr hc, Res.ok_bind]
  dsimp only
  rw [h1', Res.ok_bind, hK]
  rfl

theorem mlKem_bound (h : Supported P p) (hr : ∀ n s, ∃ r, rng.fill_bytes n s = .ok r) {δ : ℝ} (hδ : 0 ≤ δ)
    (hd : ∀ d z m, prob (fun T : Tables => Disagree (withTables S T) P d z m) ≤ δ) (es : List Event) (s : rng.State) :
    prob (fun T : Tables => ¬ Works (mlKem (withTables S T) P rng) es s)
      ≤ keys es * (p.k ^ 2 * (2 : ℝ) ^ (-261 : ℤ)) + exchanges es * δ := by
  refine program_bound (fun T : Tables => mlKem (withTables S T) P rng)
    (a := fun s => after rng (after rng s)) (b := after rng)
    (G := fun T s => PairReturns (withTables S T) P (block rng s) (block rng (after rng s)))
    (E := fun T s t => ¬ Disagree (withTables S T) P (block rng s) (block rng (after rng s)) (block rng t))
    ?_ ?_ hδ ?_ ?_ es s
  · exact fun T s hg => mlKem_newKey _ h hr hg
  · exact fun T s t k hg hE hk => mlKem_exchange _ h hr hg hE hk
  · intro s
    exact prob_tables S (fun S => ¬ PairReturns S P (block rng s) (block rng (after rng s))) fun S => C63_pair S h _ _
  · intro s t
    simpa using hd _ _ _

set_option exponentiation.threshold 300 in
/-- **C88** ML-KEM-512: whatever the program and the generator, if the hash functions are random, then the probability that
the program panics, does not return, or that in some exchange the two sides differ is at most `2^-259` per key and
`2^-120` per exchange. -/
theorem C88_ml_kem_512 (hr : ∀ n s, ∃ r, rng.fill_bytes n s = .ok r) (es : List Event) (s : rng.State) :
    prob (fun T : Tables => ¬ Works (mlKem (withTables S T) MlKem512Params rng) es s)
      ≤ keys es * (2 : ℝ) ^ (-259 : ℤ) + exchanges es * (2 : ℝ) ^ (-120 : ℤ) := by
  have := mlKem_bound S supported_512 hr (by positivity) (C85_ml_kem_512 S) es s
  rwa [show ((ML_KEM_512.k : ℕ) : ℝ) ^ 2 * (2 : ℝ) ^ (-261 : ℤ) = (2 : ℝ) ^ (-259 : ℤ) by
    rw [show ML_KEM_512.k = 2 from rfl]; norm_num] at this

/-- **C88** ML-KEM-768: at most `9·2^-261` per key and `2^-152` per exchange -/
theorem C88_ml_kem_768 (hr : ∀ n s, ∃ r, rng.fill_bytes n s = .ok r) (es : List Event) (s : rng.State) :
    prob (fun T : Tables => ¬ Works (mlKem (withTables S T) MlKem768Params rng) es s)
      ≤ keys es * (9 * (2 : ℝ) ^ (-261 : ℤ)) + exchanges es * (2 : ℝ) ^ (-152 : ℤ) := by
  have := mlKem_bound S supported_768 hr (by positivity) (C85_ml_kem_768 S) es s
  rwa [show ((ML_KEM_768.k : ℕ) : ℝ) ^ 2 = 9 by rw [show ML_KEM_768.k = 3 from rfl]; norm_num] at this

set_option exponentiation.threshold 300 in
/-- **C88** ML-KEM-1024: at most `2^-257` per key and `2^-163` per exchange -/
theorem C88_ml_kem_1024 (hr : ∀ n s, ∃ r, rng.fill_bytes n s = .ok r) (es : List Event) (s : rng.State) :
    prob (fun T : Tables => ¬ Works (mlKem (withTables S T) MlKem1024Params rng) es s)
      ≤ keys es * (2 : ℝ) ^ (-257 : ℤ) + exchanges es * (2 : ℝ) ^ (-163 : ℤ) := by
  have := mlKem_bound S supported_1024 hr (by positivity) (C85_ml_kem_1024 S) es s
  rwa [show ((ML_KEM_1024.k : ℕ) : ℝ) ^ 2 * (2 : ℝ) ^ (-261 : ℤ) = (2 : ℝ) ^ (-257 : ℤ) by
    rw [show ML_KEM_1024.k = 4 from rfl]; norm_num] at this

end

section
open XWing XWingSpec
variable [Build] (S : Sha3) (X : X25519) {rng : Rng}

theorem key_pair_eq (hr : ∀ n s, ∃ r, rng.fill_bytes n s = .ok r) {s : rng.State} {pk}
    (h : (XWing.DecapsulationKey.mk (block rng s)).encapsulation_key S X = .ok pk) :
    generate_key_pair S X rng s = .ok ((⟨block rng s⟩, pk), after rng s) :=
  ((C40_randomness S X rng s).1 _).2 ⟨_, _, pk, fill_eq hr s, h, rfl⟩

/-- **C88** X-Wing: at most `9·2^-261` per key and `2^-152` per exchange -/
theorem C88_xwing (hX : PublicKeyIsBase X) (hcomm : Commutes X) (hr : ∀ n s, ∃ r, rng.fill_bytes n s = .ok r)
    (es : List Event) (s : rng.State) :
    prob (fun T : Tables => ¬ Works (xWing (withTables S T) X rng) es s)
      ≤ keys es * (9 * (2 : ℝ) ^ (-261 : ℤ)) + exchanges es * (2 : ℝ) ^ (-152 : ℤ) := by
  refine program_bound (fun T : Tables => xWing (withTables S T) X rng)
    (a := after rng) (b := fun s => after rng (after rng s))
    (G := fun T s => KeyReturns X (withTables S T) ⟨block rng s⟩)
    (E := fun T s t => ¬ XWing.Disagree (withTables S T) X rng rng s t)
    ?_ ?_ (by positivity) ?_ ?_ es s
  · rintro T s ⟨pk, hp, -⟩
    obtain ⟨pb, h1, -⟩ := C39_public_roundtrip (withTables S T) X (.derived hp)
    refine ⟨(block rng s, pb), ?_⟩
    show (generate_key_pair _ X rng s >>= _) = _
    rw [key_pair_eq _ X hr hp, Res.ok_bind]
    dsimp only
    rw [h1]
    rfl
  · rintro T s t k ⟨pk, hp, he, hd⟩ hE hk
    obtain ⟨pb, h1, h1'⟩ := C39_public_roundtrip (withTables S T) X (.derived hp)
    have hgen := key_pair_eq (withTables S T) X hr hp
    obtain rfl : k = (block rng s, pb) := by
      change (generate_key_pair _ X rng s >>= _) = _ at hk
      rw [hgen, Res.ok_bind] at hk
      dsimp only at hk
      rw [h1] at hk
      exact (Prod.mk.inj (Res.ok.inj hk)).1.symm
    obtain ⟨⟨⟨ct, ss⟩, t'⟩, hc⟩ := he rng t hr
    obtain ⟨m, t1, e, t2, ct_m, ss_m, g1, g2, -, g4⟩ := ((C40_randomness _ X rng t).2 pk _).1 hc
    obtain rfl : t' = after rng (after rng t) := by
      obtain rfl := (Prod.mk.inj (Res.ok.inj (g1.symm.trans (fill_eq hr t)))).2
      obtain rfl := (Prod.mk.inj (Res.ok.inj (g2.symm.trans (fill_eq hr _)))).2
      exact (Prod.mk.inj g4).2
    have hK : (XWing.DecapsulationKey.mk (block rng s)).decapsulate (withTables S T) X ct = .ok ss := by
      by_contra hn
      exact hE ⟨_, pk, _, ct, ss, _, hgen, hc, hn⟩
    obtain ⟨⟨cb, c1, c2, -⟩, -⟩ := C39_ciphertext_roundtrip ct (Vector.replicate _ 0)
    refine ⟨ss, ?_⟩
    show (XWing.EncapsulationKey.from_bytes _ pb >>= _) = _
    rw [h1', Res.ok_bind, hc, Res.ok_bind]
    dsimp only
    rw [c1, Res.ok_bind, c2, Res.ok_bind]
    change ((XWing.DecapsulationKey.mk (block rng s)).decapsulate (withTables S T) X ct >>= _) = _
    rw [hK]
    rfl
  · intro s
    exact prob_tables S (fun S => ¬ KeyReturns X S ⟨block rng s⟩) fun S => C63_xwing S X _
  · intro s t
    simpa using C85_xwing S X hX hcomm rng rng s t

/-- **C88** X-Wing with the X25519 of RFC 7748 -/
theorem C88_xwing_rfc7748 (hr : ∀ n s, ∃ r, rng.fill_bytes n s = .ok r) (es : List Event) (s : rng.State) :
    prob (fun T : Tables => ¬ Works (xWing (withTables S T) rfc7748 rng) es s)
      ≤ keys es * (9 * (2 : ℝ) ^ (-261 : ℤ)) + exchanges es * (2 : ℝ) ^ (-152 : ℤ) :=
  C88_xwing S rfc7748 rfc7748_base rfc7748_commutes hr es s

end

/-! ### Concrete cases -/

set_option exponentiation.threshold 300 in
/-- A million keys and a billion exchanges each: still at most `2^-102`. -/
example : (10 ^ 6 : ℝ) * (9 * (2 : ℝ) ^ (-261 : ℤ)) + 10 ^ 15 * (2 : ℝ) ^ (-152 : ℤ) ≤ 2 ^ (-102 : ℤ) := by norm_num

/-- Two keys; three exchanges, one of them with the first key after the second was generated; and one with no key. -/
def someProgram : List Event := [.newKey, .exchange 0, .newKey, .exchange 0, .exchange 1, .exchange 7]

example : keys someProgram = 2 ∧ exchanges someProgram = 4 ∧ possible someProgram 0 = 3 := by decide

/-- The toy generator returns always. -/
theorem toy_returns : ∀ n s, ∃ r, Toy.rng.fill_bytes n s = .ok r := fun _ _ => ⟨_, rfl⟩

/-- With the toy primitives, every program works. -/
example [Build] (es : List Event) (s : Nat) : Works (mlKem Toy.S MlKem768Params Toy.rng) es s := by
  refine run_works _ (G := fun s => PairReturns Toy.S MlKem768Params (block Toy.rng s) (block Toy.rng (after Toy.rng s)))
    (E := fun s t => ¬ Disagree Toy.S MlKem768Params (block Toy.rng s) (block Toy.rng (after Toy.rng s)) (block Toy.rng t))
    (fun s hG => mlKem_newKey _ supported_768 toy_returns hG)
    (fun s t k hG hE hk => mlKem_exchange _ supported_768 toy_returns hG hE hk) es [] [] s .nil
    (fun x _ => pairReturns Toy.S supported_768 (Toy.seedOk _ _)) fun x _ => ?_
  rintro ⟨dk, ek, c, K, hg, hc, hd⟩
  obtain ⟨c', K', h5, hdec⟩ := C49_short_keys_never_fail Toy.S supported_768 (by decide) (by decide) hg
    (Toy.noiseBound_le (by simp) _) (block Toy.rng x.2)
  obtain ⟨rfl, rfl⟩ := Prod.mk.inj (Res.ok.inj (hc.symm.trans h5))
  exact hd hdec

/-- A program does not work with hash functions for which the exchange fails (they exist, see C06). -/
example [Build] (S : Sha3) (s : Nat) (hG : PairReturns S MlKem768Params (block Toy.rng s) (block Toy.rng (after Toy.rng s)))
    (hD : Disagree S MlKem768Params (block Toy.rng s) (block Toy.rng (after Toy.rng s))
      (block Toy.rng (after Toy.rng (after Toy.rng s)))) :
    ¬ Works (mlKem S MlKem768Params Toy.rng) [.newKey, .exchange 0] s := by
  obtain ⟨dk, ek, c, K, hg, hc, hn⟩ := hD
  obtain ⟨dk', ek', hg', -, hd⟩ := hG
  obtain ⟨rfl, rfl⟩ := Prod.mk.inj (Res.ok.inj (hg.symm.trans hg'))
  obtain ⟨K', hK'⟩ := hd c
  obtain ⟨db, h1, h1'⟩ := C12_dk_roundtrip S supported_768 (.generated hg)
  obtain ⟨eb, h2, h2'⟩ := C11_ek_roundtrip S supported_768 (.generated hg)
  have e1 : (mlKem S MlKem768Params Toy.rng).newKey s = .ok ((db, eb), after Toy.rng (after Toy.rng s)) := by
    show (Kem.generate _ _ Toy.rng s >>= _) = _
    rw [generate_eq _ toy_returns hg, Res.ok_bind]
    dsimp only
    rw [h1, Res.ok_bind, h2]
    rfl
  have e2 : (mlKem S MlKem768Params Toy.rng).exchange (db, eb) (after Toy.rng (after Toy.rng s))
      = .ok ((K, K'), after Toy.rng (after Toy.rng (after Toy.rng s))) := by
    show (MlKem.EncapsulationKey.from_bytes _ eb >>= _) = _
    rw [h2', Res.ok_bind, encapsulate_eq _ toy_returns hc, Res.ok_bind]
    dsimp only
    rw [h1', Res.ok_bind, hK']
    rfl
  rintro ⟨xs, hx, -, ha⟩
  change ((mlKem S MlKem768Params Toy.rng).newKey s >>= _) = _ at hx
  rw [e1, Res.ok_bind] at hx
  change ((mlKem S MlKem768Params Toy.rng).exchange (db, eb) (after Toy.rng (after Toy.rng s)) >>= _) = _ at hx
  rw [e2] at hx
  obtain rfl := Res.ok.inj hx
  obtain rfl : K = K' := ha (K, K') (by simp)
  exact hn hK'

end Sessions
