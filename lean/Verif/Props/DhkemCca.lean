import Verif.Props.XWingCca
import Verif.Spec.DhkemCca
import Verif.Props.Hpke
/-!
C94: an attack on the modelled Diffie-Hellman KEMs, followed by RFC 9180's extraction, gives an attack on the
Diffie-Hellman problem.
-/
namespace Rfc9180
open Rust Fips203 Finset BigOperators Fo MlKem

namespace DhAttacker
variable {n r N : Nat} (F : Bytes r → Bytes n → Bytes n → Bytes N) (D : Bytes n → Option (Bytes N))

/-- What it asks to extract -/
def extracted : DhAttacker n r N → List (Bytes r × Bytes n × Bytes n)
  | guess _ => []
  | extract dh enc pkR next => (dh, enc, pkR) :: extracted (next (F dh enc pkR))
  | decap enc next => extracted (next (D enc))

variable {F D}

theorem output_congr {F' : Bytes r → Bytes n → Bytes n → Bytes N} (B : DhAttacker n r N)
    (hF : ∀ t ∈ extracted F D B, F t.1 t.2.1 t.2.2 = F' t.1 t.2.1 t.2.2) :
    B.output F D = B.output F' D := by
  induction B with
  | guess b => rfl
  | extract dh enc pkR next ih =>
    have h := hF (dh, enc, pkR) List.mem_cons_self
    show output F D (next (F dh enc pkR)) = output F' D (next (F' dh enc pkR))
    rw [← h]
    exact ih _ fun u hu => hF u (List.mem_cons_of_mem _ hu)
  | decap enc next ih => exact ih _ hF

end DhAttacker

section
variable {n r N : Nat} (E : Exchange n r) (accept : Bytes n → Bool)

/-- Decapsulation with the secret key `x`, for everything but the challenge `ct` -/
def answer (x : E.Sk) (ct : Bytes n) (F : Bytes r → Bytes n → Bytes n → Bytes N) (enc : Bytes n) : Option (Bytes N) :=
  if enc = ct then none else if accept enc then some (F (E.dh x enc) enc (E.pk x)) else none

/-- The attacker, given the public keys of `x` and `e`, and `key` of their shared secret, guesses `true`. -/
def Attack (A : Bytes n → Bytes n → Bytes N → DhAttacker n r N) (key : Bytes N → Bytes N) (x e : E.Sk)
    (F : Bytes r → Bytes n → Bytes n → Bytes N) : Prop :=
  (A (E.pk x) (E.pk e) (key (F (E.dh x (E.pk e)) (E.pk e) (E.pk x)))).output F (answer E accept x (E.pk e) F) = true

variable (x : E.Sk) (T : Bytes r → Bytes n → Bytes n → Bytes N) (U : Bytes n → Bytes N)

/-- The extraction, with the recipient's shared secrets in one table and all other values in another -/
def merge (dh : Bytes r) (enc pkR : Bytes n) : Bytes N :=
  if (pkR = E.pk x ∧ accept enc) ∧ E.dh x enc = dh then U enc else T dh enc pkR

theorem expect_merge (f : (Bytes r → Bytes n → Bytes n → Bytes N) → ℝ) :
    𝔼 F, f F = 𝔼 T : Bytes r → Bytes n → Bytes n → Bytes N, 𝔼 U : Bytes n → Bytes N, f (merge E accept x T U) := by
  let I := Bytes r × Bytes n × Bytes n
  let cur : (I → Bytes N) ≃ (Bytes r → Bytes n → Bytes n → Bytes N) :=
    (Equiv.curry (Bytes r) (Bytes n × Bytes n) (Bytes N)).trans
      (Equiv.piCongrRight fun _ => Equiv.curry (Bytes n) (Bytes n) (Bytes N))
  let ι : I → I ⊕ Bytes n := fun t =>
    if (t.2.2 = E.pk x ∧ accept t.2.1) ∧ E.dh x t.2.1 = t.1 then .inr t.2.1 else .inl t
  have hι : Function.Injective ι := by
    rintro ⟨Z, y, p⟩ ⟨Z', y', p'⟩ h
    simp only [ι] at h
    split at h <;> split at h <;> simp only [Sum.inl.injEq, Sum.inr.injEq, reduceCtorEq] at h
    · rename_i h1 h2
      obtain ⟨⟨rfl, -⟩, rfl⟩ := h1
      obtain ⟨⟨rfl, -⟩, rfl⟩ := h2
      rw [h]
    · exact h
  rw [← Fintype.expect_equiv cur (fun F => f (cur F)) f fun F => rfl,
    ← expect_comp_injective hι (fun F => f (cur F)),
    Fintype.expect_equiv (Equiv.sumArrowEquivProdArrow I (Bytes n) (Bytes N)) (fun Y => f (cur (Y ∘ ι)))
      (fun y => f (merge E accept x (cur y.1) y.2)) (fun Y => ?_), expect_prod_type]
  · exact Fintype.expect_equiv cur _ (fun T => 𝔼 U : Bytes n → Bytes N, f (merge E accept x T U)) fun T => rfl
  · congr 1
    funext Z y p
    show Y (ι (Z, y, p)) = _
    simp only [ι, merge]
    split <;> rfl

/-- Decapsulation in terms of the table of shared secrets -/
def fromTable (ct enc : Bytes n) : Option (Bytes N) :=
  if enc = ct then none else if accept enc then some (U enc) else none

theorem answer_merge (ct : Bytes n) : answer E accept x ct (merge E accept x T U) = fromTable accept U ct := by
  funext enc
  unfold answer fromTable
  by_cases hy : enc = ct
  · rw [if_pos hy, if_pos hy]
  · rw [if_neg hy, if_neg hy]
    by_cases h : accept enc
    · rw [if_pos h, if_pos h, merge, if_pos ⟨⟨rfl, h⟩, rfl⟩]
    · rw [if_neg h, if_neg h]

theorem solve_run (ct : Bytes n) (hct : accept ct) (B : DhAttacker n r N)
    (ht : (E.dh x ct, ct, E.pk x) ∈ B.extracted (merge E accept x T U) (fromTable accept U ct)) :
    (solve accept (E.pk x) ct T U B).run (fun Y Z => decide (E.dh x Y = Z)) = E.dh x ct := by
  induction B with
  | guess b => exact absurd ht List.not_mem_nil
  | extract Z y p next ih =>
    unfold solve
    unfold DhAttacker.extracted at ht
    by_cases hp : p = E.pk x ∧ accept y
    · rw [if_pos hp]
      unfold DhSolver.run
      beta_reduce
      by_cases hs : E.dh x y = Z
      · rw [if_pos (decide_eq_true hs)]
        by_cases hy : y = ct
        · rw [if_pos hy]
          subst hy hs
          rfl
        · rw [if_neg hy]
          rcases List.mem_cons.1 ht with h | ht
          · exact absurd (Prod.mk.inj (Prod.mk.inj h).2).1.symm hy
          · rw [merge, if_pos ⟨hp, hs⟩] at ht
            exact ih _ ht
      · rw [if_neg (by rw [decide_eq_true_iff]; exact hs)]
        rcases List.mem_cons.1 ht with h | ht
        · simp only [Prod.mk.injEq] at h
          exact absurd (by rw [← h.1, h.2.1]) hs
        · rw [merge, if_neg fun e => hs e.2] at ht
          exact ih _ ht
    · rw [if_neg hp]
      rcases List.mem_cons.1 ht with h | ht
      · simp only [Prod.mk.injEq] at h
        exact absurd ⟨h.2.2.symm, h.2.1 ▸ hct⟩ hp
      · rw [merge, if_neg fun e => hp e.1] at ht
        exact ih _ ht
  | decap y next ih =>
    unfold solve
    unfold DhAttacker.extracted fromTable at ht
    by_cases hy : y = ct
    · rw [if_pos hy] at ht ⊢
      exact ih _ ht
    · rw [if_neg hy] at ht ⊢
      by_cases ha : accept y
      · rw [if_pos ha] at ht ⊢
        exact ih _ ht
      · rw [if_neg ha] at ht ⊢
        exact ih _ ht

theorem swap (A : Bytes n → Bytes n → Bytes N → DhAttacker n r N) (e : E.Sk) (hct : accept (E.pk e)) (ss : Bytes N)
    (hbad : (toDh accept A (E.pk x) (E.pk e) (ss, T, U)).run (fun Y Z => decide (E.dh x Y = Z)) ≠ E.dh x (E.pk e)) :
    Attack E accept A (fun _ => ss) x e (merge E accept x T U) ↔
      Attack E accept A id x e (merge E accept x T (Function.update U (E.pk e) ss)) := by
  have h1 : merge E accept x T (Function.update U (E.pk e) ss) (E.dh x (E.pk e)) (E.pk e) (E.pk x) = ss := by
    rw [merge, if_pos ⟨⟨rfl, hct⟩, rfl⟩, Function.update_self]
  have h2 : fromTable accept (Function.update U (E.pk e) ss) (E.pk e) = fromTable accept U (E.pk e) := by
    funext enc
    unfold fromTable
    by_cases h : enc = E.pk e
    · rw [if_pos h, if_pos h]
    · rw [if_neg h, if_neg h, Function.update_of_ne h]
  unfold Attack
  rw [answer_merge, answer_merge, h1, h2, id,
    DhAttacker.output_congr (F' := merge E accept x T (Function.update U (E.pk e) ss))]
  rintro ⟨Z, y, p⟩ ht
  show merge E accept x T U Z y p = merge E accept x T (Function.update U (E.pk e) ss) Z y p
  unfold merge
  by_cases h : (p = E.pk x ∧ accept y) ∧ E.dh x y = Z
  · rw [if_pos h, if_pos h]
    by_cases hy : y = E.pk e
    · obtain ⟨⟨rfl, -⟩, rfl⟩ := h
      subst hy
      exact absurd (solve_run E accept x T U _ hct _ ht) hbad
    · rw [Function.update_of_ne hy]
  · rw [if_neg h, if_neg h]

variable [Fintype E.Sk]

/-- With the extraction drawn at random, telling the shared secret from a random string solves the Diffie-Hellman
problem. -/
theorem attack_le (hacc : ∀ e, accept (E.pk e)) (A : Bytes n → Bytes n → Bytes N → DhAttacker n r N) :
    |prob (fun ((x, e, F) : E.Sk × E.Sk × (Bytes r → Bytes n → Bytes n → Bytes N)) => Attack E accept A id x e F)
      - prob (fun ((x, e, F, ss) : E.Sk × E.Sk × (Bytes r → Bytes n → Bytes n → Bytes N) × Bytes N) =>
          Attack E accept A (fun _ => ss) x e F)|
      ≤ dhSuccess E (toDh accept A) := by
  unfold dhSuccess
  rw [prob_ind, prob_ind, prob_ind, expect_prod_type (α := E.Sk), expect_prod_type (α := E.Sk),
    expect_prod_type (α := E.Sk)]
  refine abs_expect_sub fun x => ?_
  rw [expect_prod_type (α := E.Sk), expect_prod_type (α := E.Sk), expect_prod_type (α := E.Sk)]
  refine abs_expect_sub fun e => ?_
  have e1 : 𝔼 F : Bytes r → Bytes n → Bytes n → Bytes N, ind (Attack E accept A id x e F) = 𝔼 ss, 𝔼 T, 𝔼 U,
      ind (Attack E accept A id x e (merge E accept x T (Function.update U (E.pk e) ss))) := by
    rw [expect_merge E accept x]
    refine Eq.trans ?_ (Finset.expect_comm ..)
    refine Finset.expect_congr rfl fun T _ => ?_
    rw [expect_update (E.pk e)]
  have e2 : 𝔼 y : (Bytes r → Bytes n → Bytes n → Bytes N) × Bytes N, ind (Attack E accept A (fun _ => y.2) x e y.1)
      = 𝔼 ss, 𝔼 T, 𝔼 U, ind (Attack E accept A (fun _ => ss) x e (merge E accept x T U)) := by
    rw [expect_prod_type, Finset.expect_comm]
    exact Finset.expect_congr rfl fun ss _ => expect_merge E accept x _
  refine le_trans (le_of_eq ?_) (le_trans (abs_expect_sub (f := fun y : Bytes N × (Bytes r → Bytes n → Bytes n → Bytes N) ×
      (Bytes n → Bytes N) => ind (Attack E accept A id x e (merge E accept x y.2.1 (Function.update y.2.2 (E.pk e) y.1))))
      (g := fun y => ind (Attack E accept A (fun _ => y.1) x e (merge E accept x y.2.1 y.2.2)))
      (e := fun y => ind ((toDh accept A (E.pk x) (E.pk e) y).run (fun Y Z => decide (E.dh x Y = Z)) = E.dh x (E.pk e)))
      fun y => ?_) le_rfl)
  · congr 2
    · rw [expect_prod_type]
      refine e1.trans (Finset.expect_congr rfl fun ss _ => ?_)
      rw [expect_prod_type]
    · refine e2.trans ?_
      rw [expect_prod_type (α := Bytes N)]
      refine Finset.expect_congr rfl fun ss _ => ?_
      rw [expect_prod_type]
  · exact abs_ind_sub fun hb => (swap E accept x y.2.1 y.2.2 A e (hacc e) y.1 hb).symm

end
end Rfc9180

namespace Dhkem
open Rust Fips203 Fo MlKem Sec2 Rfc9180

section
variable {c : Named}

/-- A public key, encoded as in RFC 9180 -/
def encoded (P : c.params.curve.Point) : Bytes (1 + 2 * c.params.size) := Fips203.bytes _ (sec1 c.params P)

/-- Two users run the curve KEM and RFC 9180's extraction, here `F`: one generates a key pair, drawing from the state
`s`; the other encapsulates to it, drawing from the state `s'`. The attacker is given both encoded public keys, and
`key` of the extracted secret. It may ask for `F`, and for the decapsulation, followed by the extraction, of all other
strings that encode a key. It ends with the guess `true`. -/
def CurveAttack (random : (rng : Rng) → rng.State → Res (Scalar c × rng.State)) {N : Nat}
    (A : Bytes (1 + 2 * c.params.size) → Bytes (1 + 2 * c.params.size) → Bytes N →
      DhAttacker (1 + 2 * c.params.size) c.params.size N) (key : Bytes N → Bytes N) {rng : Rng} (s s' : rng.State)
    (F : Bytes c.params.size → Bytes (1 + 2 * c.params.size) → Bytes (1 + 2 * c.params.size) → Bytes N) : Prop :=
  ∃ (dk : DhDecapsulator (Scalar c)) (ek : DhEncapsulator c.params.curve.Point) (pk : c.params.curve.Point)
    (ss : Bytes c.params.size) (t t' : rng.State),
    EcdhKem.random_keypair (named c random) rng s = .ok ((dk, ek), t) ∧
    EcdhKem.encapsulate (named c random) ek rng s' = .ok ((pk, ss), t') ∧
    (A (encoded ek.into_inner) (encoded pk) (key (F ss (encoded pk) (encoded ek.into_inner)))).output F (fun b =>
      if b = encoded pk then none else
        match parse c.params b.toList with
        | some P =>
          match EcdhKem.decapsulate (named c random) dk P with
          | .ok ss => some (F ss b (encoded ek.into_inner))
          | _ => none
        | none => none) = true

/-- RFC 9180's Diffie-Hellman function of the curve, on encoded keys -/
noncomputable abbrev curveExchange (c : Named) : Exchange (1 + 2 * c.params.size) c.params.size :=
  (rfcGroup c).exchange _ _

/-- The strings that encode a key -/
noncomputable def encodesKey (c : Named) (b : Bytes (1 + 2 * c.params.size)) : Bool := (parse c.params b.toList).isSome

theorem bytes_eq {n : Nat} {l : List UInt8} (h : l.length = n) : (Fips203.bytes n l).toList = l := by
  subst h
  apply List.ext_getElem
  · simp
  · intro i h1 h2
    simp [Fips203.bytes]

theorem encoded_toList {P : c.params.curve.Point} (h : P ≠ 0) : (encoded P).toList = sec1 c.params P :=
  bytes_eq (sec1_length h)

theorem parse_encoded {P : c.params.curve.Point} (h : P ≠ 0) : parse c.params (encoded P).toList = some P := by
  rw [encoded_toList h, parse_sec1 h]

theorem parse_ne_zero {b : List UInt8} {P : c.params.curve.Point} (h : parse c.params b = some P) : P ≠ 0 := by
  unfold parse at h
  split at h
  · rename_i h'
    exact Option.some.inj h ▸ h'.choose_spec.1
  · nomatch h

theorem curve_dh (k : Scalar c) {b : Bytes (1 + 2 * c.params.size)} {P : c.params.curve.Point}
    (h : parse c.params b.toList = some P) : (curveExchange c).dh k b = rawSecret c (k.val • P) := by
  show Fips203.bytes _ (((parse c.params b.toList).bind ((rfcGroup c).DH k)).getD []) = _
  have e : (parse c.params b.toList).bind ((rfcGroup c).DH k) = some (rawSecret c (k.val • P)).toList := by
    rw [h]
    exact dh_eq k (parse_ne_zero h)
  rw [e, Option.getD_some, bytes_toList']

theorem curve_attack (random : (rng : Rng) → rng.State → Res (Scalar c × rng.State)) {N : Nat}
    (A : Bytes (1 + 2 * c.params.size) → Bytes (1 + 2 * c.params.size) → Bytes N →
      DhAttacker (1 + 2 * c.params.size) c.params.size N) (key : Bytes N → Bytes N) {rng : Rng} {s s' t t' : rng.State}
    (F : Bytes c.params.size → Bytes (1 + 2 * c.params.size) → Bytes (1 + 2 * c.params.size) → Bytes N)
    {x e : Scalar c} (hs : random rng s = .ok (x, t)) (hs' : random rng s' = .ok (e, t')) :
    CurveAttack random A key s s' F ↔ Attack (curveExchange c) (encodesKey c) A key x e F := by
  have hx : x.val • base c ≠ 0 := secret_smul_ne_zero x (base_ne_zero c)
  have he : e.val • base c ≠ 0 := secret_smul_ne_zero e (base_ne_zero c)
  have h1 : EcdhKem.random_keypair (named c random) rng s = .ok ((⟨x⟩, ⟨x.val • base c⟩), t) :=
    ((C45_ephemeral (named c random) rng s).2.1 _).2 ⟨x, t, hs, rfl⟩
  have h2 : EcdhKem.encapsulate (named c random) ⟨x.val • base c⟩ rng s' =
      .ok ((e.val • base c, rawSecret c (e.val • x.val • base c)), t') :=
    ((C45_ephemeral (named c random) rng s').1 _ _).2 ⟨e, t', hs', rfl⟩
  have h3 : (curveExchange c).dh x (encoded (e.val • base c)) = rawSecret c (e.val • x.val • base c) := by
    rw [curve_dh x (parse_encoded he), smul_comm]
  have h4 : (fun b => if b = encoded (e.val • base c) then none else
        match parse c.params b.toList with
        | some P =>
          match EcdhKem.decapsulate (named c random) ⟨x⟩ P with
          | .ok ss => some (F ss b (encoded (x.val • base c)))
          | _ => none
        | none => none) = answer (curveExchange c) (encodesKey c) x (encoded (e.val • base c)) F := by
    funext b
    unfold answer
    by_cases hb : b = encoded (e.val • base c)
    · rw [if_pos hb, if_pos hb]
    · rw [if_neg hb, if_neg hb]
      unfold encodesKey
      cases hp : parse c.params b.toList with
      | none => rfl
      | some P =>
        rw [curve_dh x hp]
        rfl
  constructor
  · rintro ⟨dk, ek, pk, ss, u, u', g1, g2, g3⟩
    obtain ⟨e1, rfl⟩ := Prod.mk.inj (Res.ok.inj (h1.symm.trans g1))
    obtain ⟨rfl, rfl⟩ := Prod.mk.inj e1
    obtain ⟨e2, rfl⟩ := Prod.mk.inj (Res.ok.inj (h2.symm.trans g2))
    obtain ⟨rfl, rfl⟩ := Prod.mk.inj e2
    unfold Rfc9180.Attack
    rw [show (curveExchange c).pk e = encoded (e.val • base c) from rfl,
      show (curveExchange c).pk x = encoded (x.val • base c) from rfl, h3, ← h4]
    exact g3
  · intro h
    refine ⟨_, _, _, _, _, _, h1, h2, ?_⟩
    unfold Rfc9180.Attack at h
    rw [show (curveExchange c).pk e = encoded (e.val • base c) from rfl,
      show (curveExchange c).pk x = encoded (x.val • base c) from rfl, h3, ← h4] at h
    exact h

noncomputable instance : Fintype (Scalar c) :=
  Fintype.ofInjective (fun k : Scalar c => (⟨k.val, k.2.2⟩ : Fin c.params.n)) fun _ _ h =>
    Subtype.ext (congrArg Fin.val h)

theorem solve_atMost {n r N : Nat} (accept : Bytes n → Bool) (pk ct : Bytes n)
    (T : Bytes r → Bytes n → Bytes n → Bytes N) (U : Bytes n → Bytes N) {q : Nat} (B : DhAttacker n r N)
    (h : B.AtMost q) : (solve accept pk ct T U B).AtMost accept q := by
  have up : ∀ (B : DhSolver n r) {q : Nat}, B.AtMost accept q → B.AtMost accept (q + 1) := by
    intro B
    induction B with
    | answer Z => exact fun _ => trivial
    | ask Y Z next ih =>
      rintro q ⟨ha, q', rfl, h⟩
      exact ⟨ha, q' + 1, rfl, fun a => ih a (h a)⟩
  induction B generalizing q with
  | guess b => trivial
  | extract Z y p next ih =>
    obtain ⟨q', rfl, h⟩ := h
    unfold solve
    split
    · rename_i hp
      split
      · refine ⟨hp.2, q', rfl, fun a => ?_⟩
        cases a
        · exact ih _ (h _)
        · trivial
      · refine ⟨hp.2, q', rfl, fun a => ?_⟩
        cases a
        · exact ih _ (h _)
        · exact ih _ (h _)
    · exact up _ (ih _ (h _))
  | decap y next ih =>
    obtain ⟨q', rfl, h⟩ := h
    unfold solve
    split
    · exact up _ (ih _ (h _))
    · split
      · exact up _ (ih _ (h _))
      · exact up _ (ih _ (h _))

theorem prob_iff {α : Type} {E E' : α → Prop} (h : ∀ a, E a ↔ E' a) : prob E = prob E' := by
  rw [funext fun a => propext (h a)]

/-- **C94** The curve KEMs followed by RFC 9180's extraction, with the extraction drawn at random: an attacker with
decapsulation of all other strings tells the secret from a random one no better than the Diffie-Hellman problem on the
curve is solved, by somebody who may ask at most as many questions whether a value is the Diffie-Hellman value of the
recipient's key and another key. -/
theorem C94_curve (random : (rng : Rng) → rng.State → Res (Scalar c × rng.State)) {rng : Rng}
    {st : Scalar c → rng.State} (hst : ∀ k, ∃ t, random rng (st k) = .ok (k, t)) {N : Nat}
    (A : Bytes (1 + 2 * c.params.size) → Bytes (1 + 2 * c.params.size) → Bytes N →
      DhAttacker (1 + 2 * c.params.size) c.params.size N) :
    |prob (fun ((x, e, F) : Scalar c × Scalar c × (Bytes c.params.size → Bytes (1 + 2 * c.params.size) →
          Bytes (1 + 2 * c.params.size) → Bytes N)) => CurveAttack random A id (st x) (st e) F)
      - prob (fun ((x, e, F, ss) : Scalar c × Scalar c × (Bytes c.params.size → Bytes (1 + 2 * c.params.size) →
          Bytes (1 + 2 * c.params.size) → Bytes N) × Bytes N) => CurveAttack random A (fun _ => ss) (st x) (st e) F)|
      ≤ dhSuccess (curveExchange c) (toDh (encodesKey c) A) ∧
    ∀ q, (∀ pk ct ss, (A pk ct ss).AtMost q) →
      ∀ pk ct coins, (toDh (encodesKey c) A pk ct coins).AtMost (encodesKey c) q := by
  refine ⟨?_, fun q hA pk ct coins => solve_atMost _ _ _ _ _ _ (hA _ _ _)⟩
  let : Fintype (curveExchange c).Sk := instFintypeScalar
  refine le_trans (le_of_eq ?_) (attack_le (curveExchange c) (encodesKey c) (fun e => ?_) A)
  · congr 2
    · exact prob_iff fun ⟨x, e, F⟩ => by
        obtain ⟨t, h⟩ := hst x
        obtain ⟨t', h'⟩ := hst e
        exact curve_attack random A id F h h'
    · exact prob_iff fun ⟨x, e, F, ss⟩ => by
        obtain ⟨t, h⟩ := hst x
        obtain ⟨t', h'⟩ := hst e
        exact curve_attack random A _ F h h'
  · show (parse c.params (encoded (Subtype.val (p := fun k => 0 < k ∧ k < c.params.n) e • base c)).toList).isSome = true
    rw [parse_encoded (secret_smul_ne_zero e (base_ne_zero c))]
    rfl

open Classical in
/-- Ask for the decapsulation of the negated challenge, and compare. -/
noncomputable def negator (_pk ct : Bytes (1 + 2 * c.params.size)) (ss : Bytes c.params.size) :
    DhAttacker (1 + 2 * c.params.size) c.params.size c.params.size :=
  match parse c.params ct.toList with
  | some P => .decap (encoded (-P)) fun a => .guess (decide (a = some ss))
  | none => .guess false

theorem neg_ne {P : c.params.curve.Point} (h : P ≠ 0) : -P ≠ P := by
  intro he
  have h2 : (2 : Nat) • P = 0 := by
    rw [two_nsmul]
    nth_rewrite 1 [← he]
    exact neg_add_cancel P
  rw [smul_eq_zero_iff h] at h2
  have := Nat.le_of_dvd (by norm_num) h2
  have := n_gt_two c
  omega

/-- **C94** The extraction is needed: used as they are, the raw secrets do not survive one question. The same attacker
recognises the secret always, and takes a random string for it only if it is equal. -/
theorem C94_raw (random : (rng : Rng) → rng.State → Res (Scalar c × rng.State)) {rng : Rng} {s s' t t' : rng.State}
    {x e : Scalar c} (hs : random rng s = .ok (x, t)) (hs' : random rng s' = .ok (e, t')) :
    CurveAttack random negator id s s' (fun dh _ _ => dh) ∧
    ∀ v, CurveAttack random negator (fun _ => v) s s' (fun dh _ _ => dh) ↔ v = rawSecret c (e.val • x.val • base c) := by
  have he : e.val • base c ≠ 0 := secret_smul_ne_zero e (base_ne_zero c)
  have hd : (curveExchange c).dh x (encoded (e.val • base c)) = rawSecret c (e.val • x.val • base c) := by
    rw [curve_dh x (parse_encoded he), smul_comm]
  have key : ∀ v, CurveAttack random negator (fun _ => v) s s' (fun dh _ _ => dh) ↔
      v = rawSecret c (e.val • x.val • base c) := by
    intro v
    rw [curve_attack random negator _ _ hs hs']
    unfold Rfc9180.Attack negator
    rw [show (curveExchange c).pk e = encoded (e.val • base c) from rfl, parse_encoded he]
    show decide (answer (curveExchange c) (encodesKey c) x (encoded (e.val • base c)) (fun dh _ _ => dh)
      (encoded (-(e.val • base c))) = some v) = true ↔ _
    rw [decide_eq_true_iff]
    unfold answer
    have hne : encoded (-(e.val • base c)) ≠ encoded (e.val • base c) := fun h => neg_ne he
      (Option.some.inj ((parse_encoded (neg_ne_zero.2 he)).symm.trans ((congrArg (fun b : Bytes _ =>
        parse c.params b.toList) h).trans (parse_encoded he))))
    have hr : (curveExchange c).dh x (encoded (-(e.val • base c))) = rawSecret c (e.val • x.val • base c) := by
      rw [curve_dh x (parse_encoded (neg_ne_zero.2 he)), neg_nsmul, smul_comm]
      exact (rawSecret_eq_iff (neg_ne_zero.2 (secret_smul_ne_zero e (secret_smul_ne_zero x (base_ne_zero c))))
        (secret_smul_ne_zero e (secret_smul_ne_zero x (base_ne_zero c)))).2 (.inr rfl)
    rw [if_neg hne, if_pos (by unfold encodesKey; rw [parse_encoded (neg_ne_zero.2 he)]; rfl), hr]
    exact ⟨fun h => (Option.some.inj h).symm, fun h => congrArg some h.symm⟩
  refine ⟨?_, key⟩
  have h := (key _).2 rfl
  rw [curve_attack random negator _ _ hs hs'] at h ⊢
  unfold Rfc9180.Attack at h ⊢
  rw [show (curveExchange c).pk e = encoded (e.val • base c) from rfl, hd]
  exact h

end

section
open Rfc7748 (maskedInteger smallOrder)

/-- The same for X25519. With `strict`, the users refuse the all-zero Diffie-Hellman value, as RFC 9180 has it; the
adapter leaves this to them. -/
def X25519Attack (strict : Bool) {N : Nat} (A : B32 → B32 → Bytes N → DhAttacker 32 32 N) (key : Bytes N → Bytes N)
    {rng : Rng} (s s' : rng.State) (F : B32 → B32 → B32 → Bytes N) : Prop :=
  ∃ (dk : DhDecapsulator B32) (ek : DhEncapsulator B32) (pk ss : B32) (t t' : rng.State),
    X25519Kem.random_keypair x25519 rng s = .ok ((dk, ek), t) ∧
    X25519Kem.encapsulate x25519 ek rng s' = .ok ((pk, ss), t') ∧
    (A ek.into_inner pk (key (F ss pk ek.into_inner))).output F (fun b =>
      if b = pk then none else
        match X25519Kem.decapsulate x25519 dk b with
        | .ok (ss : B32) => if strict ∧ ss = Vector.replicate 32 0 then none else some (F ss b ek.into_inner)
        | _ => none) = true

/-- RFC 7748's function -/
def xExchange : Exchange 32 32 where
  Sk := B32
  pk k := Rfc7748.X25519 k XWingSpec.basePoint
  dh := Rfc7748.X25519

/-- The keys that are not refused -/
def accepted (strict : Bool) (b : B32) : Bool := !(strict && decide (maskedInteger b ∈ smallOrder))

theorem x25519_attack (strict : Bool) {N : Nat} (A : B32 → B32 → Bytes N → DhAttacker 32 32 N) (key : Bytes N → Bytes N)
    {rng : Rng} {s s' t t' : rng.State} (F : B32 → B32 → B32 → Bytes N) {x e : B32}
    (hs : rng.fill_bytes 32 s = .ok (x, t)) (hs' : rng.fill_bytes 32 s' = .ok (e, t')) :
    X25519Attack strict A key s s' F ↔ Rfc9180.Attack xExchange (accepted strict) A key x e F := by
  have h1 : X25519Kem.random_keypair x25519 rng s = .ok ((⟨x⟩, ⟨Rfc7748.X25519 x XWingSpec.basePoint⟩), t) :=
    ((C45_ephemeral x25519 rng s).2.2.2 _).2 ⟨x, t, hs, rfl⟩
  have h2 : X25519Kem.encapsulate x25519 ⟨Rfc7748.X25519 x XWingSpec.basePoint⟩ rng s' =
      .ok ((Rfc7748.X25519 e XWingSpec.basePoint, Rfc7748.X25519 e (Rfc7748.X25519 x XWingSpec.basePoint)), t') :=
    ((C45_ephemeral x25519 rng s').2.2.1 _ _).2 ⟨e, t', hs', rfl⟩
  have h3 : xExchange.dh x (Rfc7748.X25519 e XWingSpec.basePoint) =
      Rfc7748.X25519 e (Rfc7748.X25519 x XWingSpec.basePoint) := Rfc7748.C74_commutes x e _
  have h4 : (fun b => if b = Rfc7748.X25519 e XWingSpec.basePoint then none else
        match X25519Kem.decapsulate x25519 ⟨x⟩ b with
        | .ok (ss : B32) => if strict ∧ ss = Vector.replicate 32 0 then none
            else some (F ss b (Rfc7748.X25519 x XWingSpec.basePoint))
        | _ => none) = answer xExchange (accepted strict) x (Rfc7748.X25519 e XWingSpec.basePoint) F := by
    funext b
    unfold answer
    by_cases hb : b = Rfc7748.X25519 e XWingSpec.basePoint
    · rw [if_pos hb, if_pos hb]
    · rw [if_neg hb, if_neg hb]
      show (if strict ∧ Rfc7748.X25519 x b = Vector.replicate 32 0 then none
        else some (F (Rfc7748.X25519 x b) b (Rfc7748.X25519 x XWingSpec.basePoint))) = _
      have hz := Rfc7748.C74_zero_iff x b
      by_cases ha : strict = true ∧ maskedInteger b ∈ smallOrder
      · rw [if_pos ⟨ha.1, hz.2 ha.2⟩, if_neg (by unfold accepted; rw [ha.1, decide_eq_true ha.2]; simp)]
      · rw [if_neg (fun h => ha ⟨h.1, hz.1 h.2⟩), if_pos (by
          unfold accepted
          rw [Bool.not_eq_true', Bool.and_eq_false_iff, decide_eq_false_iff_not]
          by_cases hst : strict = true
          · exact .inr fun h => ha ⟨hst, h⟩
          · exact .inl (Bool.eq_false_iff.2 hst))]
        rfl
  constructor
  · rintro ⟨dk, ek, pk, ss, u, u', g1, g2, g3⟩
    obtain ⟨e1, rfl⟩ := Prod.mk.inj (Res.ok.inj (h1.symm.trans g1))
    obtain ⟨rfl, rfl⟩ := Prod.mk.inj e1
    obtain ⟨e2, rfl⟩ := Prod.mk.inj (Res.ok.inj (h2.symm.trans g2))
    obtain ⟨rfl, rfl⟩ := Prod.mk.inj e2
    unfold Rfc9180.Attack
    rw [show xExchange.pk e = Rfc7748.X25519 e XWingSpec.basePoint from rfl, h3, ← h4]
    exact g3
  · intro h
    refine ⟨_, _, _, _, _, _, h1, h2, ?_⟩
    unfold Rfc9180.Attack at h
    rw [show xExchange.pk e = Rfc7748.X25519 e XWingSpec.basePoint from rfl, h3, ← h4] at h
    exact h

/-- **C94** The same for X25519, whether or not the users refuse the all-zero value. -/
theorem C94_x25519 (strict : Bool) {rng : Rng} {st : B32 → rng.State} (hst : ∀ k, ∃ t, rng.fill_bytes 32 (st k) = .ok (k, t))
    {N : Nat} (A : B32 → B32 → Bytes N → DhAttacker 32 32 N) :
    |prob (fun ((x, e, F) : B32 × B32 × (B32 → B32 → B32 → Bytes N)) => X25519Attack strict A id (st x) (st e) F)
      - prob (fun ((x, e, F, ss) : B32 × B32 × (B32 → B32 → B32 → Bytes N) × Bytes N) =>
          X25519Attack strict A (fun _ => ss) (st x) (st e) F)|
      ≤ dhSuccess xExchange (toDh (accepted strict) A) ∧
    ∀ q, (∀ pk ct ss, (A pk ct ss).AtMost q) →
      ∀ pk ct coins, (toDh (accepted strict) A pk ct coins).AtMost (accepted strict) q := by
  refine ⟨?_, fun q hA pk ct coins => solve_atMost _ _ _ _ _ _ (hA _ _ _)⟩
  let : Fintype xExchange.Sk := instFintypeBytes 32
  refine le_trans (le_of_eq ?_) (attack_le xExchange (accepted strict) (fun e => ?_) A)
  · congr 2
    · exact prob_iff fun ⟨x, e, F⟩ => by
        obtain ⟨t, h⟩ := hst x
        obtain ⟨t', h'⟩ := hst e
        exact x25519_attack strict A id F h h'
    · exact prob_iff fun ⟨x, e, F, ss⟩ => by
        obtain ⟨t, h⟩ := hst x
        obtain ⟨t', h'⟩ := hst e
        exact x25519_attack strict A _ F h h'
  · show accepted strict (Rfc7748.X25519 e XWingSpec.basePoint) = true
    unfold accepted
    rw [decide_eq_false (Rfc7748.C74_honest e e).1, Bool.and_false]
    rfl

/-- The other string with the same masked integer -/
def flipped (b : B32) : B32 := b.set 31 (b[31] ^^^ 0x80)

theorem flipped_ne (b : B32) : flipped b ≠ b := by
  intro h
  have h1 : (flipped b)[31] = b[31] := congrArg (fun v : B32 => v[31]) h
  have h2 : ∀ a : Fin 256, UInt8.ofBitVec ⟨a⟩ ^^^ 0x80 ≠ UInt8.ofBitVec ⟨a⟩ := by decide +kernel
  exact h2 b[31].toFin ((Vector.getElem_set_self _).symm.trans h1)

theorem X25519_flipped (k b : B32) : Rfc7748.X25519 k (flipped b) = Rfc7748.X25519 k b := by
  have h2 : ∀ a : Fin 256, (UInt8.ofBitVec ⟨a⟩ ^^^ 0x80) &&& 0x7f = UInt8.ofBitVec ⟨a⟩ &&& 0x7f := by decide +kernel
  have h3 : (flipped b)[31] = b[31] ^^^ 0x80 := Vector.getElem_set_self _
  have h4 : (flipped b).set 31 ((flipped b)[31] &&& 0x7f) = b.set 31 (b[31] &&& 0x7f) := by
    rw [h3, show (b[31] ^^^ (0x80 : UInt8)) &&& (0x7f : UInt8) = b[31] &&& (0x7f : UInt8) from h2 b[31].toFin]
    exact Vector.set_set ..
  unfold Rfc7748.X25519 Rfc7748.decodeUCoordinate
  rw [h4]

/-- Ask for the decapsulation of the challenge with the bit flipped that X25519 ignores, and compare. -/
def flipper (_pk ct ss : B32) : DhAttacker 32 32 32 := .decap (flipped ct) fun a => .guess (decide (a = some ss))

theorem attack_decap (strict : Bool) (key : B32 → B32) (x e : B32) :
    Rfc9180.Attack xExchange (accepted strict) flipper key x e (fun dh _ _ => dh) ↔
      answer xExchange (accepted strict) x (xExchange.pk e) (fun dh _ _ => dh) (flipped (xExchange.pk e)) =
        some (key (xExchange.dh x (xExchange.pk e))) := by
  unfold Rfc9180.Attack
  generalize xExchange.dh x (xExchange.pk e) = d
  generalize answer xExchange (accepted strict) x (xExchange.pk e) (fun dh _ _ => dh) = a
  generalize xExchange.pk e = p
  unfold flipper DhAttacker.output DhAttacker.output
  exact decide_eq_true_iff

/-- **C94** The same for X25519: used as they are, the raw secrets do not survive one question. -/
theorem C94_raw_x25519 (strict : Bool) {rng : Rng} {s s' t t' : rng.State} {x e : B32}
    (hs : rng.fill_bytes 32 s = .ok (x, t)) (hs' : rng.fill_bytes 32 s' = .ok (e, t')) :
    X25519Attack strict flipper id s s' (fun dh _ _ => dh) ∧
    ∀ v, X25519Attack strict flipper (fun _ => v) s s' (fun dh _ _ => dh) ↔
      v = Rfc7748.X25519 e (Rfc7748.X25519 x XWingSpec.basePoint) := by
  have hd : xExchange.dh x (xExchange.pk e) = Rfc7748.X25519 e (Rfc7748.X25519 x XWingSpec.basePoint) :=
    Rfc7748.C74_commutes x e _
  have hr : answer xExchange (accepted strict) x (xExchange.pk e) (fun dh _ _ => dh) (flipped (xExchange.pk e)) =
      some (Rfc7748.X25519 e (Rfc7748.X25519 x XWingSpec.basePoint)) := by
    have ha : ¬ maskedInteger (flipped (xExchange.pk e)) ∈ smallOrder := by
      rw [← Rfc7748.C74_zero_iff x, X25519_flipped, Rfc7748.C74_zero_iff x]
      exact (Rfc7748.C74_honest e e).1
    unfold answer
    rw [if_neg (flipped_ne _), if_pos (by unfold accepted; rw [decide_eq_false ha, Bool.and_false]; rfl), ← hd]
    exact congrArg some (X25519_flipped x _)
  have key : ∀ v, X25519Attack strict flipper (fun _ => v) s s' (fun dh _ _ => dh) ↔
      v = Rfc7748.X25519 e (Rfc7748.X25519 x XWingSpec.basePoint) := by
    intro v
    rw [x25519_attack strict flipper _ _ hs hs']
    rw [attack_decap, hr]
    exact ⟨fun h => (Option.some.inj h).symm, fun h => congrArg some h.symm⟩
  refine ⟨?_, key⟩
  rw [x25519_attack strict flipper _ _ hs hs', attack_decap, hr, hd]
  rfl

end

/-! The hypotheses are met: with a source that returns what it holds, and secrets drawn as octets, most significant
first, every secret is drawn from some state. -/

/-- Returns what it holds -/
def holding : Rng where
  State := (n : Nat) × Bytes n
  fill_bytes n s := if h : s.1 = n then .ok (h ▸ s.2, s) else .panic

open Classical in
/-- One round of drawing octets until they are a secret's -/
noncomputable def drawOctets (c : Named) (rng : Rng) (s : rng.State) : Res (Scalar c × rng.State) := do
  let (b, s) ← rng.fill_bytes c.params.size s
  if h : ∃ k : Scalar c, octets c.params.size k.val = b then .ok (h.choose, s) else .panic

theorem holding_fill (n : Nat) (b : Bytes n) : holding.fill_bytes n ⟨n, b⟩ = .ok (b, ⟨n, b⟩) := dif_pos rfl

theorem n_lt_octets (c : Named) : c.params.n < 256 ^ c.params.size := by cases c <;> decide +kernel

theorem drawOctets_holding (c : Named) (k : Scalar c) :
    ∃ t, drawOctets c holding ⟨_, octets c.params.size k.val⟩ = .ok (k, t) := by
  refine ⟨⟨_, octets c.params.size k.val⟩, ?_⟩
  have h : ∃ l : Scalar c, octets c.params.size l.val = octets c.params.size k.val := ⟨k, rfl⟩
  have h2 : h.choose = k := Subtype.ext (octets_inj (h.choose.2.2.trans (n_lt_octets c)) (k.2.2.trans (n_lt_octets c))
    h.choose_spec)
  unfold drawOctets
  rw [holding_fill]
  show (if h : ∃ l : Scalar c, octets c.params.size l.val = octets c.params.size k.val then _ else _) = _
  rw [dif_pos h, h2]

/-- The bound, for the attacker that negates, on P-256 -/
example : |prob (fun ((x, e, F) : Scalar .p256 × Scalar .p256 × (Bytes 32 → Bytes 65 → Bytes 65 → Bytes 32)) =>
        CurveAttack (c := .p256) (drawOctets _) negator id (rng := holding) ⟨_, octets 32 x.val⟩ ⟨_, octets 32 e.val⟩ F)
      - prob (fun ((x, e, F, ss) : Scalar .p256 × Scalar .p256 × (Bytes 32 → Bytes 65 → Bytes 65 → Bytes 32) × Bytes 32) =>
        CurveAttack (c := .p256) (drawOctets _) negator (fun _ => ss) (rng := holding) ⟨_, octets 32 x.val⟩
          ⟨_, octets 32 e.val⟩ F)|
    ≤ dhSuccess (curveExchange .p256) (toDh (encodesKey .p256) negator) :=
  (C94_curve (drawOctets .p256) (drawOctets_holding .p256) negator).1

/-- Which asks one question -/
example (pk ct : Bytes 65) (ss : Bytes 32) : (negator (c := .p256) pk ct ss).AtMost 1 := by
  unfold negator
  split
  · exact ⟨0, rfl, fun _ => trivial⟩
  · trivial

/-- With the raw secrets it wins on P-256. -/
example (x e : Scalar .p256) : CurveAttack (c := .p256) (drawOctets _) negator id (rng := holding)
    ⟨_, octets 32 x.val⟩ ⟨_, octets 32 e.val⟩ (fun dh _ _ => dh) := by
  obtain ⟨t, h⟩ := drawOctets_holding .p256 x
  obtain ⟨t', h'⟩ := drawOctets_holding .p256 e
  exact (C94_raw (drawOctets .p256) h h').1

example (strict : Bool) : |prob (fun ((x, e, F) : B32 × B32 × (B32 → B32 → B32 → B32)) =>
        X25519Attack strict flipper id (rng := holding) ⟨32, x⟩ ⟨32, e⟩ F)
      - prob (fun ((x, e, F, ss) : B32 × B32 × (B32 → B32 → B32 → B32) × B32) =>
        X25519Attack strict flipper (fun _ => ss) (rng := holding) ⟨32, x⟩ ⟨32, e⟩ F)|
    ≤ dhSuccess xExchange (toDh (accepted strict) flipper) :=
  (C94_x25519 strict (fun k => ⟨_, holding_fill 32 k⟩) flipper).1

example (x e : B32) : X25519Attack true flipper id (rng := holding) ⟨32, x⟩ ⟨32, e⟩ (fun dh _ _ => dh) :=
  (C94_raw_x25519 true (holding_fill 32 x) (holding_fill 32 e)).1

end Dhkem
