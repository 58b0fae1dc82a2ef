import Verif.Props.XWingCca
import Verif.Proofs.Walk
import Verif.Spec.XWingDh
import Verif.Props.X25519
/-!
C71: an attack on the modelled X-Wing by an attacker that knows all secrets of the ML-KEM half gives an attack on X25519
or SHAKE128.
-/
set_option linter.unusedSectionVars false

namespace XWingSpec.Insider
open Rust MlKem

variable (G : B32 → B32 → B32 × B32) (J : B32 → Bytes 1088 → B32) (F : B32 → Exchange → B32)
  (D : Bytes 1120 → Option B32)

/-- The attacker with the combiner's answers filled in -/
def fix : Insider → Attacker
  | guess b => .guess b
  | hashG m h next => .hashG m h fun a => fix (next a)
  | hashJ z c next => .hashJ z c fun a => fix (next a)
  | combine K t next => fix (next (F K t))
  | decaps c next => .decaps c fun a => fix (next a)

theorem fix_output (B : Insider) : (B.fix F).output G J D = B.output G J F D := by
  induction B with
  | guess b => rfl
  | hashG m h next ih => exact ih _
  | hashJ z c next ih => exact ih _
  | combine K t next ih => exact ih _
  | decaps c next ih => exact ih _

/-- The inputs it asks the combiner for -/
def combined : Insider → List (B32 × Exchange)
  | guess _ => []
  | hashG m h next => combined (next (G m h))
  | hashJ z c next => combined (next (J z c))
  | combine K t next => (K, t) :: combined (next (F K t))
  | decaps c next => combined (next (D c))

/-- The ciphertexts it asks to decapsulate -/
def decapsed : Insider → List (Bytes 1120)
  | guess _ => []
  | hashG m h next => decapsed (next (G m h))
  | hashJ z c next => decapsed (next (J z c))
  | combine K t next => decapsed (next (F K t))
  | decaps c next => c :: decapsed (next (D c))

variable {F D}

theorem output_congr {F' : B32 → Exchange → B32} {D' : Bytes 1120 → Option B32} (B : Insider)
    (hF : ∀ t ∈ combined G J F D B, F t.1 t.2 = F' t.1 t.2) (hD : ∀ c ∈ decapsed G J F D B, D c = D' c) :
    B.output G J F D = B.output G J F' D' := by
  induction B with
  | guess b => rfl
  | hashG m h next ih => exact ih _ hF hD
  | hashJ z c next ih => exact ih _ hF hD
  | combine K t next ih =>
    have h := hF (K, t) List.mem_cons_self
    show output G J F D (next (F K t)) = output G J F' D' (next (F' K t))
    rw [← h]
    exact ih _ (fun u hu => hF u (List.mem_cons_of_mem _ hu)) hD
  | decaps c next ih =>
    have h := hD c List.mem_cons_self
    show output G J F D (next (D c)) = output G J F' D' (next (D' c))
    rw [← h]
    exact ih _ hF fun u hu => hD u (List.mem_cons_of_mem _ hu)

end XWingSpec.Insider

namespace XWing
open Rust MlKem Fips203 XWingSpec Finset BigOperators Fo

/-! ### One run -/

section
variable (x25519 : B32 → B32 → B32) (x pk : B32) (T : B32 → Exchange → B32) (U : B32 → B32 → B32)

/-- The combiner, with the shared secrets in one table and all other values in another -/
def merge (K : B32) : Exchange → B32
  | (ss, y, p) => if p = pk ∧ x25519 x y = ss then U K y else T K (ss, y, p)

theorem merge_hit (K y : B32) : merge x25519 x pk T U K (x25519 x y, y, pk) = U K y := if_pos ⟨rfl, rfl⟩

/-- A random combiner is two random tables. -/
theorem expect_merge (f : (B32 → Exchange → B32) → ℝ) :
    𝔼 F, f F = 𝔼 T : B32 → Exchange → B32, 𝔼 U : B32 → B32 → B32, f (merge x25519 x pk T U) := by
  let ι : B32 × Exchange → (B32 × Exchange) ⊕ (B32 × B32) := fun t =>
    if t.2.2.2 = pk ∧ x25519 x t.2.2.1 = t.2.1 then .inr (t.1, t.2.2.1) else .inl t
  have hι : Function.Injective ι := by
    rintro ⟨K, ss, y, p⟩ ⟨K', ss', y', p'⟩ h
    simp only [ι] at h
    split at h <;> split at h <;> simp only [Sum.inl.injEq, Sum.inr.injEq, reduceCtorEq, Prod.mk.injEq] at h
    · rename_i h1 h2
      obtain ⟨rfl, rfl⟩ := h
      obtain ⟨rfl, rfl⟩ := h1
      obtain ⟨rfl, rfl⟩ := h2
      rfl
    · obtain ⟨rfl, rfl, rfl, rfl⟩ := h
      rfl
  rw [Fintype.expect_equiv (Equiv.curry B32 Exchange B32).symm f (fun F => f fun K t => F (K, t)) fun F => rfl,
    ← expect_comp_injective hι (fun F => f fun K t => F (K, t)),
    Fintype.expect_equiv (Equiv.sumArrowEquivProdArrow (B32 × Exchange) (B32 × B32) B32)
      (fun Y => f fun K t => (Y ∘ ι) (K, t))
      (fun y => f (merge x25519 x pk (fun K t => y.1 (K, t)) (fun K t => y.2 (K, t)))) (fun Y => ?_), expect_prod_type]
  · refine (Fintype.expect_equiv (Equiv.curry B32 Exchange B32) _ (fun T => 𝔼 U : B32 × B32 → B32,
      f (merge x25519 x pk T (fun K t => U (K, t)))) fun T => rfl).trans ?_
    refine Finset.expect_congr rfl fun T _ => ?_
    exact Fintype.expect_equiv (Equiv.curry B32 B32 B32) _ _ fun U => rfl
  · congr 1
    funext K t
    obtain ⟨ss, y, p⟩ := t
    simp only [Function.comp, ι, merge]
    split <;> rfl

variable (G : B32 → B32 → B32 × B32) (J : B32 → Bytes 1088 → B32) (c : Bytes 1120) (dec : Bytes 1088 → B32)

/-- Decapsulation in terms of the table of shared secrets -/
def secretOf (c' : Bytes 1120) : Option B32 := if c' = c then none else some (U (dec (partM c')) (partX c'))

theorem solve_run (ct : B32) (B : Insider) {t : B32 × Exchange}
    (ht : t ∈ B.combined G J (merge x25519 x pk T U) (secretOf U c dec)) (h : t.2 = (x25519 x ct, ct, pk)) :
    (solve G J pk ct c dec T U B).run (fun Y Z => decide (x25519 x Y = Z)) = x25519 x ct := by
  induction B with
  | guess b => exact absurd ht List.not_mem_nil
  | hashG m h next ih => exact ih _ ht
  | hashJ z c' next ih => exact ih _ ht
  | combine K u next ih =>
    obtain ⟨ss, y, p⟩ := u
    unfold solve
    unfold Insider.combined at ht
    by_cases hp : p = pk
    · rw [if_pos hp]
      unfold DhSolver.run
      beta_reduce
      by_cases hs : x25519 x y = ss
      · rw [if_pos (decide_eq_true hs)]
        by_cases hy : y = ct
        · rw [if_pos hy]
          subst hy hs
          rfl
        · rw [if_neg hy]
          rcases List.mem_cons.1 ht with rfl | ht
          · simp only [Prod.mk.injEq] at h
            exact absurd h.2.1 hy
          · have e : merge x25519 x pk T U K (ss, y, p) = U K y := if_pos ⟨hp, hs⟩
            rw [e] at ht
            exact ih _ ht
      · rw [if_neg (by rw [decide_eq_true_iff]; exact hs)]
        rcases List.mem_cons.1 ht with rfl | ht
        · simp only [Prod.mk.injEq] at h
          exact absurd (by rw [h.1, h.2.1]) hs
        · have e : merge x25519 x pk T U K (ss, y, p) = T K (ss, y, p) := if_neg fun e => hs e.2
          rw [e] at ht
          exact ih _ ht
    · rw [if_neg hp]
      rcases List.mem_cons.1 ht with rfl | ht
      · simp only [Prod.mk.injEq] at h
        exact absurd h.2.2 hp
      · have e : merge x25519 x pk T U K (ss, y, p) = T K (ss, y, p) := if_neg fun e => hp e.1
        rw [e] at ht
        exact ih _ ht
  | decaps c' next ih =>
    unfold solve
    unfold Insider.combined secretOf at ht
    by_cases hc : c' = c
    · rw [if_pos hc] at ht ⊢
      exact ih _ ht
    · rw [if_neg hc] at ht ⊢
      exact ih _ ht

theorem solve_atMost (ct : B32) (B : Insider) {q : Nat} (h : B.AtMost q) :
    (solve G J pk ct c dec T U B).AtMost q := by
  have mono : ∀ (B : DhSolver) {q : Nat}, B.AtMost q → B.AtMost (q + 1) := by
    intro B
    induction B with
    | answer b => exact fun _ => trivial
    | ask Y Z next ih => rintro q ⟨q', rfl, h⟩; exact ⟨_, rfl, fun a => ih _ (h a)⟩
  induction B generalizing q with
  | guess b => trivial
  | hashG m h next ih => obtain ⟨q', rfl, h⟩ := h; exact mono _ (ih _ (h _))
  | hashJ m h next ih => obtain ⟨q', rfl, h⟩ := h; exact mono _ (ih _ (h _))
  | combine K t next ih =>
    obtain ⟨q', rfl, h⟩ := h
    obtain ⟨ss, y, p⟩ := t
    unfold solve
    split
    · refine ⟨q', rfl, fun a => ?_⟩
      beta_reduce
      split
      · split
        · trivial
        · exact ih _ (h _)
      · exact ih _ (h _)
    · exact mono _ (ih _ (h _))
  | decaps c' next ih =>
    obtain ⟨q', rfl, h⟩ := h
    unfold solve
    split
    · exact mono _ (ih _ (h _))
    · exact mono _ (ih _ (h _))

/-- The shared secret that is shown can be replaced by a fresh one, unless it is asked for. -/
theorem run_swap (ct K : B32) (B : Insider)
    (h1 : ∀ t ∈ B.combined G J (merge x25519 x pk T U) (secretOf U c dec), t.2 ≠ (x25519 x ct, ct, pk))
    (h2 : ∀ c' ∈ B.decapsed G J (merge x25519 x pk T U) (secretOf U c dec), c' ≠ c → partX c' = ct → dec (partM c') ≠ K)
    {U' : B32 → B32 → B32} (hU : ∀ K' y, ¬ (K' = K ∧ y = ct) → U' K' y = U K' y) :
    B.output G J (merge x25519 x pk T U) (secretOf U c dec) = B.output G J (merge x25519 x pk T U') (secretOf U' c dec) := by
  refine B.output_congr G J (fun t ht => ?_) fun c' hc' => ?_
  · obtain ⟨K', ss, y, p⟩ := t
    have := h1 _ ht
    unfold merge
    dsimp only at this ⊢
    split
    next e =>
      obtain ⟨rfl, rfl⟩ := e
      rw [hU]
      rintro ⟨rfl, rfl⟩
      exact this rfl
    next => rfl
  · unfold secretOf
    by_cases hc : c' = c
    · rw [if_pos hc, if_pos hc]
    · rw [if_neg hc, if_neg hc, hU]
      rintro ⟨h, hy⟩
      exact h2 c' hc' hc hy h

end

/-! ### A second ciphertext with the same ML-KEM secret -/

section
variable (h : B32) (Gt : B32 → B32 → B32 × B32) (r : B32 → B32) (J0 : B32 → Bytes 1088 → B32) (z : B32)
  (enc : B32 → B32 → Bytes 1088) (dec : Bytes 1088 → B32) (F : B32 → Exchange → B32) (U : B32 → B32 → B32)
  (c : Bytes 1120)

open Classical in
/-- Where decapsulation finds the secret: among the `K`s of messages or among the rejection secrets -/
noncomputable def source (c' : Bytes 1088) : B32 ⊕ Bytes 1088 :=
  if enc (dec c') (r (dec c')) = c' then .inl (dec c') else .inr c'

theorem keyOf_source (Y : B32 ⊕ Bytes 1088 → B32) (c' : Bytes 1088) :
    keyOf enc dec (fun m => Y (.inl m)) r (fun c => Y (.inr c)) c' = Y (source r enc dec c') := by
  unfold keyOf source
  split <;> rfl

open Classical in
/-- The entries of the table of ML-KEM secrets that a run depends on -/
noncomputable def toWalk : Insider → Walk (B32 ⊕ Bytes 1088) B32
  | .guess _ => .stop
  | .hashG m h' next =>
    if h' = h then .look (.inl m) fun a => toWalk (next (a, r m)) else toWalk (next (Gt h' m))
  | .hashJ z' c' next => if z' = z then .look (.inr c') fun a => toWalk (next a) else toWalk (next (J0 z' c'))
  | .combine K t next => toWalk (next (F K t))
  | .decaps c' next =>
    if c' = c then toWalk (next none)
    else .look (source r enc dec (partM c')) fun a => toWalk (next (some (U a (partX c'))))

theorem toWalk_atMost (B : Insider) {q : Nat} (hB : B.AtMost q) :
    (toWalk h Gt r J0 z enc dec F U c B).AtMost q := by
  induction B generalizing q with
  | guess b => trivial
  | hashG m h' next ih =>
    obtain ⟨q', rfl, hq⟩ := hB
    unfold toWalk
    split
    · exact ⟨q', rfl, fun a => ih _ (hq _)⟩
    · exact (ih _ (hq _)).mono (Nat.le_succ _)
  | hashJ z' c' next ih =>
    obtain ⟨q', rfl, hq⟩ := hB
    unfold toWalk
    split
    · exact ⟨q', rfl, fun a => ih _ (hq _)⟩
    · exact (ih _ (hq _)).mono (Nat.le_succ _)
  | combine K t next ih =>
    obtain ⟨q', rfl, hq⟩ := hB
    exact (ih _ (hq _)).mono (Nat.le_succ _)
  | decaps c' next ih =>
    obtain ⟨q', rfl, hq⟩ := hB
    unfold toWalk
    split
    · exact (ih _ (hq _)).mono (Nat.le_succ _)
    · exact ⟨q', rfl, fun a => ih _ (hq _)⟩

theorem toWalk_seen (Y : B32 ⊕ Bytes 1088 → B32) (B : Insider) {c' : Bytes 1120} (hc : c' ≠ c)
    (hd : c' ∈ B.decapsed (fun m h' => Function.update Gt h (realG (fun m => Y (.inl m)) r) h' m)
      (Function.update J0 z fun c => Y (.inr c)) F
      (secretOf U c (keyOf enc dec (fun m => Y (.inl m)) r fun c => Y (.inr c)))) :
    source r enc dec (partM c') ∈ (toWalk h Gt r J0 z enc dec F U c B).seen Y := by
  induction B with
  | guess b => exact absurd hd List.not_mem_nil
  | hashG m h' next ih =>
    unfold Insider.decapsed at hd
    unfold toWalk
    by_cases e : h' = h
    · subst e
      rw [if_pos rfl]
      rw [Function.update_self] at hd
      exact List.mem_cons_of_mem _ (ih _ hd)
    · rw [if_neg e]
      rw [Function.update_of_ne e] at hd
      exact ih _ hd
  | hashJ z' c1 next ih =>
    unfold Insider.decapsed at hd
    unfold toWalk
    by_cases e : z' = z
    · subst e
      rw [if_pos rfl]
      rw [Function.update_self] at hd
      exact List.mem_cons_of_mem _ (ih _ hd)
    · rw [if_neg e]
      rw [Function.update_of_ne e] at hd
      exact ih _ hd
  | combine K t next ih => exact ih _ hd
  | decaps c1 next ih =>
    unfold Insider.decapsed at hd
    unfold toWalk
    by_cases e : c1 = c
    · rw [if_pos e]
      rcases List.mem_cons.1 hd with rfl | hd
      · exact absurd e hc
      · unfold secretOf at hd
        rw [if_pos e] at hd
        exact ih _ hd
    · rw [if_neg e]
      rcases List.mem_cons.1 hd with rfl | hd
      · exact List.mem_cons_self
      · refine List.mem_cons_of_mem _ (ih _ ?_)
        have : secretOf U c (keyOf enc dec (fun m => Y (.inl m)) r fun c => Y (.inr c)) c1
            = some (U (Y (source r enc dec (partM c1))) (partX c1)) := by
          unfold secretOf
          rw [if_neg e, keyOf_source]
        rw [this] at hd
        exact hd

theorem second_bound (ct m : B32) (B : Insider) {q : Nat} (hB : B.AtMost q) (hc : c = join (enc m (r m)) ct) :
    𝔼 k : B32 → B32, 𝔼 j : Bytes 1088 → B32, ind (∃ c' ∈ B.decapsed
        (fun m h' => Function.update Gt h (realG k r) h' m) (Function.update J0 z j) F (secretOf U c (keyOf enc dec k r j)),
      c' ≠ c ∧ partX c' = ct ∧ keyOf enc dec k r j (partM c') = k m) ≤ q * 2 ^ (-256 : ℤ) := by
  have hq := Walk.collision (.inl m) (toWalk h Gt r J0 z enc dec F U c B) q (toWalk_atMost h Gt r J0 z enc dec F U c B hB)
  rw [← Nat.card_eq_fintype_card, card_bytes] at hq
  have e : (1 : ℝ) / ((256 ^ 32 : ℕ) : ℝ) = 2 ^ (-256 : ℤ) := by norm_num
  rw [e] at hq
  refine le_trans ?_ hq
  rw [Fintype.expect_equiv (Equiv.sumArrowEquivProdArrow B32 (Bytes 1088) B32) _
    (fun y => ind (∃ i ∈ (toWalk h Gt r J0 z enc dec F U c B).seen (Sum.elim y.1 y.2), i ≠ .inl m ∧
      Sum.elim y.1 y.2 i = y.1 m)) (fun Y => ?_), expect_prod_type]
  · refine Finset.expect_le_expect fun k _ => Finset.expect_le_expect fun j _ => ind_mono ?_
    rintro ⟨c', h1, h2, h3, h4⟩
    refine ⟨source r enc dec (partM c'), toWalk_seen h Gt r J0 z enc dec F U c (Sum.elim k j) B h2 h1, fun hs => h2 ?_, ?_⟩
    · unfold source at hs
      split at hs
      next he =>
        rw [Sum.inl.injEq] at hs
        rw [hs] at he
        rw [← join_parts c', hc, ← he, h3]
      next => exact absurd hs (by simp)
    · exact (keyOf_source r enc dec (Sum.elim k j) (partM c')).symm.trans h4
  · have : Sum.elim ((Equiv.sumArrowEquivProdArrow B32 (Bytes 1088) B32) Y).1
        ((Equiv.sumArrowEquivProdArrow B32 (Bytes 1088) B32) Y).2 = Y := Sum.elim_comp_inl_inr Y
    rw [this]
    rfl

end

/-! ### The attack -/

variable [Build]

/-- The attacker is given the ML-KEM seeds expanded from `sk` and the ML-KEM message `m`, and the public key of the pair
generated from `sk`, the ciphertext of an encapsulation that draws `m` and `e`, and `key ss`, where `ss` is the shared
secret that is returned with it. It may ask for ML-KEM's `G` and `J`, for the combiner `F`, and for the decapsulation of
all other ciphertexts. It ends with the guess `true`. -/
def InsiderAttack (S : Sha3) (X : X25519) (A : B32 → B32 → B32 → Bytes 1216 → Bytes 1120 → B32 → Insider) (key : B32 → B32)
    (sk m e : B32) (G : B32 → B32 → B32 × B32) (J : B32 → Bytes 1088 → B32) (F : B32 → Exchange → B32) : Prop :=
  ∃ (dk : DecapsulationKey) (ek : EncapsulationKey) (eb : Bytes 1216) (ct : Ciphertext) (cb : Bytes 1120)
    (ss : SharedSecret) (s s' : _),
    generate_key_pair (withOracles (withCombiner S F) G J) X blocks [sk] = .ok ((dk, ek), s) ∧ ek.as_bytes = .ok eb ∧
    ek.encapsulate (withOracles (withCombiner S F) G J) X blocks [m, e] = .ok ((ct, ss), s') ∧ ct.as_bytes = .ok cb ∧
    (A (expanded S sk).1 (expanded S sk).2.1 m eb cb (key ss)).output G J F (fun c =>
      if c = cb then none else
        match (do let ct ← Ciphertext.from_bytes c; dk.decapsulate (withOracles (withCombiner S F) G J) X ct) with
        | .ok ss => some ss
        | _ => none) = true

variable (S : Sha3) (X : X25519) (A : B32 → B32 → B32 → Bytes 1216 → Bytes 1120 → B32 → Insider) (key : B32 → B32)

omit [Build] in
theorem keyed_combiner (F : B32 → Exchange → B32) (K : B32) (t : Exchange) : keyed (withCombiner S F) K t = F K t := by
  obtain ⟨ss, y, p⟩ := t
  have e1 : ∀ a : B32, a.toList.length = 32 := fun a => by simp
  have hl : (combinerInput K.toList ss.toList y.toList p.toList).length = 134 := by
    simp [combinerInput]
  have ht : (combinerInput K.toList ss.toList y.toList p.toList).take 6 = [0x5c, 0x2e, 0x2f, 0x2f, 0x5e, 0x5c] := by
    simp [combinerInput]
  have h0 : (combinerInput K.toList ss.toList y.toList p.toList).drop 6
      = K.toList ++ (ss.toList ++ (y.toList ++ p.toList)) := by
    simp [combinerInput]
  have h1 : (combinerInput K.toList ss.toList y.toList p.toList).drop 38 = ss.toList ++ (y.toList ++ p.toList) := by
    rw [show 38 = 6 + 32 from rfl, ← List.drop_drop, h0, List.drop_left' (e1 _)]
  have h2 : (combinerInput K.toList ss.toList y.toList p.toList).drop 70 = y.toList ++ p.toList := by
    rw [show 70 = 38 + 32 from rfl, ← List.drop_drop, h1, List.drop_left' (e1 _)]
  have h3 : (combinerInput K.toList ss.toList y.toList p.toList).drop 102 = p.toList := by
    rw [show 102 = 70 + 32 from rfl, ← List.drop_drop, h2, List.drop_left' (e1 _)]
  unfold keyed Combiner withCombiner
  dsimp only
  rw [if_pos ⟨hl, ht⟩, h0, h1, h2, h3]
  simp only [bytes_toList, bytes_toList']

omit [Build] in
theorem keyHash_combiner (F : B32 → Exchange → B32) (d : B32) :
    keyHash (withCombiner S F) ML_KEM_768 d = hashKey S d := by
  have hl : (KPKE_KeyGen S ML_KEM_768 d.toList).1.length = 1184 := by
    rw [KPKE_KeyGen_eq, List.length_append, enc12_length, (seeds_length S _ _).1]; rfl
  have e : KPKE_KeyGen (withCombiner S F) ML_KEM_768 d.toList = KPKE_KeyGen S ML_KEM_768 d.toList := rfl
  unfold keyHash hashKey Fips203.H
  rw [e]
  have e1 : (withCombiner S F).sha3_256 (KPKE_KeyGen S ML_KEM_768 d.toList).1
      = S.sha3_256 (KPKE_KeyGen S ML_KEM_768 d.toList).1 := by
    unfold withCombiner
    dsimp only
    rw [if_neg]
    rintro ⟨h, -⟩
    rw [hl] at h
    exact absurd h (by decide)
  rw [e1]

omit [Build] in
theorem keyOf_combiner (F : B32 → Exchange → B32) (G : B32 → B32 → B32 × B32) (J : B32 → Bytes 1088 → B32) (d z : B32)
    (c : Bytes 1088) : keyOf (encrypt (withCombiner S F) ML_KEM_768 1088 (KPKE_KeyGen (withCombiner S F) ML_KEM_768 d.toList).1)
      (decrypt (withCombiner S F) ML_KEM_768 1088 d) (fun m => (G m (hashKey S d)).1) (fun m => (G m (hashKey S d)).2) (J z) c
      = kemDecaps S G J d z c := by
  have e : KPKE_KeyGen (withCombiner S F) ML_KEM_768 d.toList = KPKE_KeyGen S ML_KEM_768 d.toList := rfl
  have e1 : ∀ ek m r, encrypt (withCombiner S F) ML_KEM_768 1088 ek m r = encrypt S ML_KEM_768 1088 ek m r := fun _ _ _ => rfl
  have e2 : decrypt (withCombiner S F) ML_KEM_768 1088 d = decrypt S ML_KEM_768 1088 d := rfl
  unfold keyOf kemDecaps kemCipher
  rw [e, e1, e2]
  unfold decrypt
  exact ite_same rfl

/-- The attack for a key pair whose ML-KEM seeds are `d` and `z` and whose X25519 secret is `x` -/
def InsiderExpanded (d z x m e : B32) (G : B32 → B32 → B32 × B32) (J : B32 → Bytes 1088 → B32)
    (F : B32 → Exchange → B32) : Prop :=
  SeedOk S 3 (seeds S ML_KEM_768 d.toList).1 ∧
    (A d z m (joinKey (Fips203.bytes 1184 (KPKE_KeyGen S ML_KEM_768 d.toList).1) (X.publicKey x))
        (join (kemCipher S G d m) (X.x25519 e basePoint))
        (key (F (G m (hashKey S d)).1 (X.x25519 e (X.publicKey x), X.x25519 e basePoint, X.publicKey x)))).output G J F
      (fun c' => if c' = join (kemCipher S G d m) (X.x25519 e basePoint) then none else
        some (F (kemDecaps S G J d z (partM c')) (X.x25519 x (partX c'), partX c', X.publicKey x))) = true

theorem insider_expanded (sk m e : B32) (G : B32 → B32 → B32 × B32) (J : B32 → Bytes 1088 → B32)
    (F : B32 → Exchange → B32) :
    InsiderAttack S X A key sk m e G J F ↔
      InsiderExpanded S X A key (expanded S sk).1 (expanded S sk).2.1 (expanded S sk).2.2 m e G J F := by
  have h0 : InsiderAttack S X A key sk m e G J F ↔ Attack (withCombiner S F) X
      (fun eb cb ss => (A (expanded S sk).1 (expanded S sk).2.1 m eb cb ss).fix F) key sk m e G J := by
    unfold InsiderAttack Attack
    simp only [Insider.fix_output]
    refine exists_congr fun dk => exists_congr fun ek => exists_congr fun eb => exists_congr fun ct => exists_congr fun cb =>
      exists_congr fun ss => exists_congr fun s => exists_congr fun s' => ?_
    refine and_congr_right fun _ => and_congr_right fun _ => and_congr_right fun _ => and_congr_right fun _ => ?_
    refine iff_of_eq (congrArg (· = true) (congrFun (congrArg _ (funext fun c => if_congr Iff.rfl rfl ?_)) _))
    cases (do let ct ← Ciphertext.from_bytes c; dk.decapsulate (withOracles (withCombiner S F) G J) X ct) <;> rfl
  rw [h0, attack_expanded]
  have hx : expanded (withCombiner S F) sk = expanded S sk := rfl
  rw [hx]
  generalize (expanded S sk).1 = d, (expanded S sk).2.1 = z, (expanded S sk).2.2 = x
  unfold Expanded InsiderExpanded
  simp only [Insider.fix_output, keyed_combiner]
  constructor
  · rintro ⟨dk, ek, eb, c, K, g1, g2, g3, g4⟩
    have hs : SeedOk S 3 (seeds S ML_KEM_768 d.toList).1 := by
      have := (genSeed_iff (withOracles (withCombiner S F) G J) supported_768 d z).1 ⟨_, g1⟩
      rw [oracles_seeds _ G J (by simp)] at this
      exact this
    obtain ⟨dk', ek', h1, h2, h3, h4⟩ := run_ok (withCombiner S F) supported_768 (d := d) hs z G J
    rw [keyHash_combiner] at h3 h4
    obtain ⟨rfl, rfl⟩ := Prod.mk.inj (Res.ok.inj (h1.symm.trans g1))
    obtain rfl := Res.ok.inj (h2.symm.trans g2)
    obtain ⟨rfl, rfl⟩ := Prod.mk.inj (Res.ok.inj ((h3 m).symm.trans g3))
    have h4' : ∀ c : Bytes 1088, MlKem.DecapsulationKey.decapsulate (withOracles (withCombiner S F) G J) dk' c
      = .ok (kemDecaps S G J d z c) := fun c => (h4 c).trans (congrArg Res.ok (keyOf_combiner S F G J d z c))
    refine ⟨hs, Eq.trans ?_ g4⟩
    refine congrFun (congrArg _ ?_) _
    funext c'
    refine if_congr Iff.rfl rfl ?_
    rw [h4']
  · rintro ⟨hs, g4⟩
    obtain ⟨dk, ek, h1, h2, h3, h4⟩ := run_ok (withCombiner S F) supported_768 (d := d) hs z G J
    rw [keyHash_combiner] at h3 h4
    have h4' : ∀ c : Bytes 1088, MlKem.DecapsulationKey.decapsulate (withOracles (withCombiner S F) G J) dk c
      = .ok (kemDecaps S G J d z c) := fun c => (h4 c).trans (congrArg Res.ok (keyOf_combiner S F G J d z c))
    refine ⟨dk, ek, _, _, _, h1, h2, h3 m, Eq.trans ?_ g4⟩
    refine congrFun (congrArg _ ?_) _
    funext c'
    refine if_congr Iff.rfl rfl ?_
    rw [h4']

/-! ### The shown secret is replaced -/

/-- The table of shared secrets with one entry replaced -/
def put (U : B32 → B32 → B32) (K y v : B32) : B32 → B32 → B32 := Function.update U K (Function.update (U K) y v)

omit [Build] in
theorem put_self (U : B32 → B32 → B32) (K y v : B32) : put U K y v K y = v := by
  unfold put
  rw [Function.update_self, Function.update_self]

omit [Build] in
theorem put_of_ne (U : B32 → B32 → B32) {K y : B32} (v : B32) {K' y' : B32} (h : ¬ (K' = K ∧ y' = y)) :
    put U K y v K' y' = U K' y' := by
  unfold put
  by_cases hK : K' = K
  · subst hK
    rw [Function.update_self, Function.update_of_ne fun e => h ⟨rfl, e⟩]
  · rw [Function.update_of_ne hK]

omit [Build] in
theorem expect_put (K y : B32) (f : (B32 → B32 → B32) → ℝ) : 𝔼 U, f U = 𝔼 v, 𝔼 U, f (put U K y v) := by
  rw [expect_update K, expect_update y]
  refine Finset.expect_congr rfl fun v _ => ?_
  rw [expect_update K fun U => f (put U K y v)]
  refine Finset.expect_congr rfl fun u _ => ?_
  refine Finset.expect_congr rfl fun U _ => ?_
  unfold put
  rw [Function.update_self, Function.update_idem]

section
variable (d z x m e : B32) (G : B32 → B32 → B32 × B32) (J : B32 → Bytes 1088 → B32) (v : B32)
  (T : B32 → Exchange → B32) (U : B32 → B32 → B32)

/-- The attacker, started with the shown secret `v` -/
noncomputable def started : Insider :=
  A d z m (joinKey (Fips203.bytes 1184 (KPKE_KeyGen S ML_KEM_768 d.toList).1) (X.x25519 x basePoint))
    (join (kemCipher S G d m) (X.x25519 e basePoint)) v

/-- The run with combiner and decapsulation in terms of the two tables -/
def Split : Prop :=
  SeedOk S 3 (seeds S ML_KEM_768 d.toList).1 ∧
    (started S X A d z x m e G v).output G J (merge X.x25519 x (X.x25519 x basePoint) T U)
      (secretOf U (join (kemCipher S G d m) (X.x25519 e basePoint)) (kemDecaps S G J d z)) = true

/-- The attack on X25519 succeeds. -/
def Solved : Prop :=
  (toDh S A (X.x25519 x basePoint) (X.x25519 e basePoint) (d, z, m, G, J, v, T, U)).run
    (fun Y Z => decide (X.x25519 x Y = Z)) = X.x25519 x (X.x25519 e basePoint)

/-- Another ciphertext with the same ML-KEM secret is found. -/
def Second : Prop :=
  ∃ c' ∈ (started S X A d z x m e G v).decapsed G J (merge X.x25519 x (X.x25519 x basePoint) T U)
      (secretOf U (join (kemCipher S G d m) (X.x25519 e basePoint)) (kemDecaps S G J d z)),
    c' ≠ join (kemCipher S G d m) (X.x25519 e basePoint) ∧ partX c' = X.x25519 e basePoint ∧
      kemDecaps S G J d z (partM c') = (G m (hashKey S d)).1

theorem expanded_split (hX : PublicKeyIsBase X) (hcomm : Commutes X) :
    InsiderExpanded S X A key d z x m e G J (merge X.x25519 x (X.x25519 x basePoint) T U) ↔
      Split S X A d z x m e G J (key (U (G m (hashKey S d)).1 (X.x25519 e basePoint))) T U := by
  unfold InsiderExpanded Split started
  rw [hX, hcomm e x]
  simp only [merge_hit]
  rfl

theorem split_swap (h : ¬ (Solved S X A d z x m e G J v T U ∨ Second S X A d z x m e G J v T U)) :
    Split S X A d z x m e G J v T (put U (G m (hashKey S d)).1 (X.x25519 e basePoint) v) ↔
      Split S X A d z x m e G J v T U := by
  rw [not_or] at h
  unfold Split
  refine and_congr_right fun _ => iff_of_eq (congrArg (· = true) ?_)
  refine (run_swap X.x25519 x (X.x25519 x basePoint) T U G J _ (kemDecaps S G J d z) (X.x25519 e basePoint)
    (G m (hashKey S d)).1 _ (fun t ht he => h.1 ?_) (fun c' hc' h1 h2 h3 => h.2 ⟨c', hc', h1, h2, h3⟩)
    fun K' y hn => put_of_ne U v hn).symm
  exact solve_run X.x25519 x (X.x25519 x basePoint) T U G J _ (kemDecaps S G J d z) (X.x25519 e basePoint) _ ht he

theorem swap_close (hX : PublicKeyIsBase X) (hcomm : Commutes X) :
    |(𝔼 F, ind (InsiderExpanded S X A id d z x m e G J F)) - 𝔼 v, 𝔼 F, ind (InsiderExpanded S X A (fun _ => v) d z x m e G J F)|
      ≤ (𝔼 v, 𝔼 T, 𝔼 U, ind (Solved S X A d z x m e G J v T U)) + 𝔼 v, 𝔼 T, 𝔼 U, ind (Second S X A d z x m e G J v T U) := by
  have e1 : (𝔼 F, ind (InsiderExpanded S X A id d z x m e G J F)) = 𝔼 v, 𝔼 T, 𝔼 U,
      ind (Split S X A d z x m e G J v T (put U (G m (hashKey S d)).1 (X.x25519 e basePoint) v)) := by
    rw [expect_merge X.x25519 x (X.x25519 x basePoint)]
    simp only [expanded_split S X A _ d z x m e G J _ _ hX hcomm, id]
    refine Eq.trans ?_ (Finset.expect_comm ..)
    refine Finset.expect_congr rfl fun T _ => ?_
    rw [expect_put (G m (hashKey S d)).1 (X.x25519 e basePoint)]
    simp only [put_self]
  have e2 : ∀ v, 𝔼 F, ind (InsiderExpanded S X A (fun _ => v) d z x m e G J F)
      = 𝔼 T, 𝔼 U, ind (Split S X A d z x m e G J v T U) := fun v => by
    rw [expect_merge X.x25519 x (X.x25519 x basePoint)]
    simp only [expanded_split S X A _ d z x m e G J _ _ hX hcomm]
  rw [e1]
  simp only [e2, ← Finset.expect_add_distrib]
  refine abs_expect_sub fun v => ?_
  refine abs_expect_sub fun T => ?_
  exact abs_expect_sub fun U =>
    (abs_ind_sub (split_swap S X A d z x m e G J v T U)).trans (ind_or _ _)

theorem second_le {q : Nat} (hA : ∀ d z m eb cb ss, (A d z m eb cb ss).AtMost q) :
    𝔼 G, 𝔼 J, ind (Second S X A d z x m e G J v T U) ≤ q * 2 ^ (-256 : ℤ) := by
  have av : ∀ {Y : Type} [Fintype Y] [Nonempty Y] {f : Y → ℝ} {c : ℝ}, (∀ y, f y ≤ c) → (𝔼 y, f y) ≤ c :=
    fun {Y} _ _ {f c} h => (Finset.expect_le_expect fun y _ => h y).trans (le_of_eq (Fintype.expect_const c))
  rw [expect_tables (hashKey S d)]
  refine av fun Gt => av fun r => ?_
  have e1 : ∀ G : B32 → B32 → B32 × B32, 𝔼 J, ind (Second S X A d z x m e G J v T U)
      = 𝔼 J0, 𝔼 j, ind (Second S X A d z x m e G (Function.update J0 z j) v T U) := fun G => by
    rw [expect_update z, Finset.expect_comm]
  simp only [e1]
  rw [Finset.expect_comm]
  refine av fun J0 => ?_
  refine le_trans (le_of_eq ?_) (second_bound (hashKey S d) Gt r J0 z
    (encrypt S ML_KEM_768 1088 (KPKE_KeyGen S ML_KEM_768 d.toList).1) (decrypt S ML_KEM_768 1088 d)
    (merge X.x25519 x (X.x25519 x basePoint) T U) U _ (X.x25519 e basePoint) m
    (A d z m (joinKey (Fips203.bytes 1184 (KPKE_KeyGen S ML_KEM_768 d.toList).1) (X.x25519 x basePoint))
      (join (encrypt S ML_KEM_768 1088 (KPKE_KeyGen S ML_KEM_768 d.toList).1 m (r m)) (X.x25519 e basePoint)) v)
    (hA _ _ _ _ _ _) rfl)
  refine Finset.expect_congr rfl fun k _ => Finset.expect_congr rfl fun j _ => congrArg ind ?_
  have h1 : ∀ m, Function.update Gt (hashKey S d) (realG k r) (hashKey S d) m = (k m, r m) := fun m => by
    rw [Function.update_self]; rfl
  have h2 : kemDecaps S (fun m h' => Function.update Gt (hashKey S d) (realG k r) h' m) (Function.update J0 z j) d z
      = keyOf (encrypt S ML_KEM_768 1088 (KPKE_KeyGen S ML_KEM_768 d.toList).1) (decrypt S ML_KEM_768 1088 d) k r j := by
    funext c
    unfold kemDecaps kemCipher keyOf decrypt
    simp only [h1, Function.update_self]
    exact ite_same rfl
  have h3 : kemCipher S (fun m h' => Function.update Gt (hashKey S d) (realG k r) h' m) d m
      = encrypt S ML_KEM_768 1088 (KPKE_KeyGen S ML_KEM_768 d.toList).1 m (r m) := by
    unfold kemCipher
    simp only [h1]
  unfold Second started
  simp only [h1, h2, h3]

end

section
variable {a b c d e g j v t u : Type} [Fintype a] [Fintype b] [Fintype c] [Fintype d] [Fintype e] [Fintype g] [Fintype j]
  [Fintype v] [Fintype t] [Fintype u]

omit [Build] in
theorem reorder_dh (f : a → b → c → d → e → g → j → v → t → u → ℝ) :
    𝔼 x1, 𝔼 x2, 𝔼 x3, 𝔼 x4, 𝔼 x5, 𝔼 x6, 𝔼 x7, 𝔼 x8, 𝔼 x9, 𝔼 x0, f x1 x2 x3 x4 x5 x6 x7 x8 x9 x0
      = 𝔼 x3, 𝔼 x5, 𝔼 x1, 𝔼 x2, 𝔼 x4, 𝔼 x6, 𝔼 x7, 𝔼 x8, 𝔼 x9, 𝔼 x0, f x1 x2 x3 x4 x5 x6 x7 x8 x9 x0 := by
  have := Fintype.expect_equiv (M := ℝ)
    (⟨fun (x1, x2, x3, x4, x5, y) => (x3, x5, x1, x2, x4, y), fun (x3, x5, x1, x2, x4, y) => (x1, x2, x3, x4, x5, y),
      fun _ => rfl, fun _ => rfl⟩ : a × b × c × d × e × g × j × v × t × u ≃ c × e × a × b × d × g × j × v × t × u)
    (fun (x1, x2, x3, x4, x5, x6, x7, x8, x9, x0) => f x1 x2 x3 x4 x5 x6 x7 x8 x9 x0)
    (fun (x3, x5, x1, x2, x4, x6, x7, x8, x9, x0) => f x1 x2 x3 x4 x5 x6 x7 x8 x9 x0) fun _ => rfl
  simpa only [expect_prod_type] using this

omit [Build] in
theorem reorder_second (f : a → b → c → d → e → g → j → v → t → u → ℝ) :
    𝔼 x1, 𝔼 x2, 𝔼 x3, 𝔼 x4, 𝔼 x5, 𝔼 x6, 𝔼 x7, 𝔼 x8, 𝔼 x9, 𝔼 x0, f x1 x2 x3 x4 x5 x6 x7 x8 x9 x0
      = 𝔼 x1, 𝔼 x2, 𝔼 x3, 𝔼 x4, 𝔼 x5, 𝔼 x8, 𝔼 x9, 𝔼 x0, 𝔼 x6, 𝔼 x7, f x1 x2 x3 x4 x5 x6 x7 x8 x9 x0 := by
  have := Fintype.expect_equiv (M := ℝ)
    (⟨fun (x1, x2, x3, x4, x5, x6, x7, x8, x9, x0) => (x1, x2, x3, x4, x5, x8, x9, x0, x6, x7),
      fun (x1, x2, x3, x4, x5, x8, x9, x0, x6, x7) => (x1, x2, x3, x4, x5, x6, x7, x8, x9, x0),
      fun _ => rfl, fun _ => rfl⟩ : a × b × c × d × e × g × j × v × t × u ≃ a × b × c × d × e × v × t × u × g × j)
    (fun (x1, x2, x3, x4, x5, x6, x7, x8, x9, x0) => f x1 x2 x3 x4 x5 x6 x7 x8 x9 x0)
    (fun (x1, x2, x3, x4, x5, x8, x9, x0, x6, x7) => f x1 x2 x3 x4 x5 x6 x7 x8 x9 x0) fun _ => rfl
  simpa only [expect_prod_type] using this

omit [Build] in
theorem reorder_shown (f : v → a → b → c → d → e → g → j → t → ℝ) :
    𝔼 x8, 𝔼 x1, 𝔼 x2, 𝔼 x3, 𝔼 x4, 𝔼 x5, 𝔼 x6, 𝔼 x7, 𝔼 x9, f x8 x1 x2 x3 x4 x5 x6 x7 x9
      = 𝔼 x1, 𝔼 x2, 𝔼 x3, 𝔼 x4, 𝔼 x5, 𝔼 x6, 𝔼 x7, 𝔼 x8, 𝔼 x9, f x8 x1 x2 x3 x4 x5 x6 x7 x9 := by
  have := Fintype.expect_equiv (M := ℝ)
    (⟨fun (x8, x1, x2, x3, x4, x5, x6, x7, x9) => (x1, x2, x3, x4, x5, x6, x7, x8, x9),
      fun (x1, x2, x3, x4, x5, x6, x7, x8, x9) => (x8, x1, x2, x3, x4, x5, x6, x7, x9),
      fun _ => rfl, fun _ => rfl⟩ : v × a × b × c × d × e × g × j × t ≃ a × b × c × d × e × g × j × v × t)
    (fun (x8, x1, x2, x3, x4, x5, x6, x7, x9) => f x8 x1 x2 x3 x4 x5 x6 x7 x9)
    (fun (x1, x2, x3, x4, x5, x6, x7, x8, x9) => f x8 x1 x2 x3 x4 x5 x6 x7 x9) fun _ => rfl
  simpa only [expect_prod_type] using this

end

set_option synthInstance.maxSize 512 in
set_option synthInstance.maxHeartbeats 200000 in
/-- With random ML-KEM seeds and a random X25519 secret in place of expanded ones -/
theorem expanded_close (hX : PublicKeyIsBase X) (hcomm : Commutes X) {q : Nat}
    (hA : ∀ d z m eb cb ss, (A d z m eb cb ss).AtMost q) :
    |(𝔼 d, 𝔼 z, 𝔼 x, 𝔼 m, 𝔼 e, 𝔼 G, 𝔼 J, 𝔼 F, ind (InsiderExpanded S X A id d z x m e G J F))
        - 𝔼 v, 𝔼 d, 𝔼 z, 𝔼 x, 𝔼 m, 𝔼 e, 𝔼 G, 𝔼 J, 𝔼 F, ind (InsiderExpanded S X A (fun _ => v) d z x m e G J F)|
      ≤ dhSuccess X.x25519 (toDh S A) + q * 2 ^ (-256 : ℤ) := by
  have av : ∀ {Y : Type} [Fintype Y] [Nonempty Y] {f : Y → ℝ} {c : ℝ}, (∀ y, f y ≤ c) → (𝔼 y, f y) ≤ c :=
    fun {Y} _ _ {f c} h => (Finset.expect_le_expect fun y _ => h y).trans (le_of_eq (Fintype.expect_const c))
  rw [reorder_shown fun v d z x m e G J F => ind (InsiderExpanded S X A (fun _ => v) d z x m e G J F)]
  have h1 : 𝔼 d, 𝔼 z, 𝔼 x, 𝔼 m, 𝔼 e, 𝔼 G, 𝔼 J, 𝔼 v, 𝔼 T, 𝔼 U, ind (Solved S X A d z x m e G J v T U)
      = dhSuccess X.x25519 (toDh S A) := by
    rw [reorder_dh fun d z x m e G J v T U => ind (Solved S X A d z x m e G J v T U)]
    unfold dhSuccess
    simp only [prob_ind, expect_prod_type]
    rfl
  have h2 : 𝔼 d, 𝔼 z, 𝔼 x, 𝔼 m, 𝔼 e, 𝔼 G, 𝔼 J, 𝔼 v, 𝔼 T, 𝔼 U, ind (Second S X A d z x m e G J v T U)
      ≤ q * 2 ^ (-256 : ℤ) := by
    rw [reorder_second fun d z x m e G J v T U => ind (Second S X A d z x m e G J v T U)]
    exact av fun d => av fun z => av fun x => av fun m => av fun e => av fun v => av fun T => av fun U =>
      second_le S X A d z x m e v T U hA
  rw [← h1]
  refine le_trans ?_ (add_le_add_right h2 _)
  simp only [← Finset.expect_add_distrib]
  refine abs_expect_sub fun d => ?_
  refine abs_expect_sub fun z => ?_
  refine abs_expect_sub fun x => ?_
  refine abs_expect_sub fun m => ?_
  refine abs_expect_sub fun e => ?_
  refine abs_expect_sub fun G => ?_
  refine abs_expect_sub fun J => ?_
  simp only [Finset.expect_add_distrib]
  exact swap_close S X A d z x m e G J hX hcomm

/-- How well the expansion of the secret key by SHAKE128 is told from random bytes by running the attack -/
noncomputable def expandAdvantage : ℝ :=
  Fips203.advantage (fun ((d, z, x) : B32 × B32 × B32) (m, e, g, j, F) => InsiderExpanded S X A key d z x m e g j F)
    (expanded S) id

/-- **C71** An attacker on X-Wing that knows ML-KEM's seeds and the message of the challenge, and asks at most `q`
questions, tells the shared secret that encapsulation returned from a random one with an advantage of at most: its
advantages against SHAKE128's expansion of the secret key, the success of `toDh` in the strong Diffie-Hellman problem
for X25519, and `q · 2⁻²⁵⁶`. The combiner is drawn at random. Nothing is assumed about the security of ML-KEM. -/
theorem C71_insider (hX : PublicKeyIsBase X) (hcomm : Commutes X) {q : Nat}
    (hA : ∀ d z m eb cb ss, (A d z m eb cb ss).AtMost q) :
    |prob (fun (sk, m, e, g, j, F) => InsiderAttack S X A id sk m e g j F)
        - prob (fun ((ss, sk, m, e, g, j, F) : B32 × _) => InsiderAttack S X A (fun _ => ss) sk m e g j F)|
      ≤ expandAdvantage S X A id + (𝔼 ss, expandAdvantage S X A (fun _ => ss))
        + dhSuccess X.x25519 (toDh S A) + q * 2 ^ (-256 : ℤ) := by
  have h0 := expanded_close S X A hX hcomm hA
  unfold expandAdvantage
  simp only [advantage_eq, prob_ind, expect_prod_type, insider_expanded, id]
  have h2 := abs_expect_sub fun ss : B32 => le_refl |(𝔼 sk, 𝔼 m, 𝔼 e, 𝔼 G, 𝔼 J, 𝔼 F, ind (InsiderExpanded S X A (fun _ => ss)
      (expanded S sk).1 (expanded S sk).2.1 (expanded S sk).2.2 m e G J F)) -
    𝔼 d, 𝔼 z, 𝔼 x, 𝔼 m, 𝔼 e, 𝔼 G, 𝔼 J, 𝔼 F, ind (InsiderExpanded S X A (fun _ => ss) d z x m e G J F)|
  have tri : ∀ {a b c u v : ℝ}, |a - b| ≤ u → |b - c| ≤ v → |a - c| ≤ u + v := fun h h' =>
    (abs_sub_le _ _ _).trans (add_le_add h h')
  rw [abs_sub_comm] at h2
  have := tri (tri (le_refl |(𝔼 sk, 𝔼 m, 𝔼 e, 𝔼 G, 𝔼 J, 𝔼 F, ind (InsiderExpanded S X A id
      (expanded S sk).1 (expanded S sk).2.1 (expanded S sk).2.2 m e G J F)) -
    𝔼 d, 𝔼 z, 𝔼 x, 𝔼 m, 𝔼 e, 𝔼 G, 𝔼 J, 𝔼 F, ind (InsiderExpanded S X A id d z x m e G J F)|) h0) h2
  refine this.trans (le_of_eq ?_)
  ring

/-- **C71** The attack on X25519 asks no more questions than the attack on X-Wing. -/
theorem C71_questions {q : Nat} (hA : ∀ d z m eb cb ss, (A d z m eb cb ss).AtMost q) (pk ct : B32) (coins : SolverCoins) :
    (toDh S A pk ct coins).AtMost q := by
  obtain ⟨d, z, m, G, J, ss, T, U⟩ := coins
  exact solve_atMost _ _ _ _ _ _ _ _ _ (hA _ _ _ _ _ _)

/-- **C71** for X25519 as in RFC 7748, without an assumption on it -/
theorem C71_rfc7748 {q : Nat} (hA : ∀ d z m eb cb ss, (A d z m eb cb ss).AtMost q) :
    |prob (fun (sk, m, e, g, j, F) => InsiderAttack S rfc7748 A id sk m e g j F)
        - prob (fun ((ss, sk, m, e, g, j, F) : B32 × _) => InsiderAttack S rfc7748 A (fun _ => ss) sk m e g j F)|
      ≤ expandAdvantage S rfc7748 A id + (𝔼 ss, expandAdvantage S rfc7748 A (fun _ => ss))
        + dhSuccess Rfc7748.X25519 (toDh S A) + q * 2 ^ (-256 : ℤ) :=
  C71_insider S rfc7748 A rfc7748_base rfc7748_commutes hA

/-- An attacker that knows the secrets of one execution, asks for `G` and the combiner, and compares the secret it is
shown -/
noncomputable def knowing (S : Sha3) (X : X25519) (x e d _z m : B32) (_ : Bytes 1216) (_ : Bytes 1120) (ss : B32) : Insider :=
  .hashG m (hashKey S d) fun a => .combine a.1 (X.x25519 e (X.publicKey x), X.x25519 e basePoint, X.publicKey x)
    fun s => .guess (decide (ss = s))

/-- It asks two questions, always answers `true` on the right secret and almost never on another one. -/
example (sk m e : B32) : (∀ d z m eb cb ss, (knowing Toy.S rfc7748 (expanded Toy.S sk).2.2 e d z m eb cb ss).AtMost 2) ∧
    (∀ g j F, InsiderAttack Toy.S rfc7748 (knowing Toy.S rfc7748 (expanded Toy.S sk).2.2 e) id sk m e g j F) ∧
    ∀ g j F, prob (fun ss => InsiderAttack Toy.S rfc7748 (knowing Toy.S rfc7748 (expanded Toy.S sk).2.2 e) (fun _ => ss)
      sk m e g j F) ≤ 2 ^ (-256 : ℤ) := by
  have key : ∀ key g j F, InsiderAttack Toy.S rfc7748 (knowing Toy.S rfc7748 (expanded Toy.S sk).2.2 e) key sk m e g j F ↔
      key (F (g m (hashKey Toy.S (expanded Toy.S sk).1)).1 (rfc7748.x25519 e (rfc7748.publicKey (expanded Toy.S sk).2.2),
        rfc7748.x25519 e basePoint, rfc7748.publicKey (expanded Toy.S sk).2.2))
      = F (g m (hashKey Toy.S (expanded Toy.S sk).1)).1 (rfc7748.x25519 e (rfc7748.publicKey (expanded Toy.S sk).2.2),
        rfc7748.x25519 e basePoint, rfc7748.publicKey (expanded Toy.S sk).2.2) := fun key g j F => by
    rw [insider_expanded]
    unfold InsiderExpanded
    refine (and_iff_right (Toy.seedOk _ _)).trans ?_
    exact decide_eq_true_iff
  refine ⟨fun _ _ _ _ _ _ => ⟨1, rfl, fun _ => ⟨0, rfl, fun _ => trivial⟩⟩, fun g j F => (key id g j F).2 rfl, fun g j F => ?_⟩
  rw [prob_ind]
  refine le_trans (le_of_eq (Finset.expect_congr rfl fun ss _ => ind_congr ?_)) ((mem_prob
    [F (g m (hashKey Toy.S (expanded Toy.S sk).1)).1 (rfc7748.x25519 e (rfc7748.publicKey (expanded Toy.S sk).2.2),
        rfc7748.x25519 e basePoint, rfc7748.publicKey (expanded Toy.S sk).2.2)]).trans (by simp))
  rw [key, List.mem_singleton]

end XWing
