import Verif.Props.DhkemCca
import Verif.Spec.DhkemMany
/-! C94 for any number of recipients and any number of messages. -/
namespace Rfc9180
open Rust Fips203 Finset BigOperators Fo MlKem

section
variable {n r N u t : Nat} (E : Exchange n r) (accept : Bytes n → Bool) (R : Fin u → Fin t → Bool) (w : Fin t → Fin u)

/-- What the user `i` answers -/
def answerN (x : Fin u → E.Sk) (ct : Fin t → Bytes n) (F : Bytes r → Bytes n → Bytes n → Bytes N) (i : Fin u)
    (enc : Bytes n) : Option (Bytes N) :=
  if ∃ j, R i j ∧ enc = ct j then none else if accept enc then some (F (E.dh (x i) enc) enc (E.pk (x i))) else none

/-- The shared secrets -/
def secretsN (x : Fin u → E.Sk) (e : Fin t → E.Sk) (F : Bytes r → Bytes n → Bytes n → Bytes N) (j : Fin t) : Bytes N :=
  F (E.dh (x (w j)) (E.pk (e j))) (E.pk (e j)) (E.pk (x (w j)))

/-- The attacker, given all public keys, and `key` of the shared secrets, guesses `true`. -/
def AttackN (A : (Fin u → Bytes n) → (Fin t → Bytes n) → (Fin t → Bytes N) → DhAttackerN (Fin u) n r N)
    (key : (Fin t → Bytes N) → Fin t → Bytes N) (x : Fin u → E.Sk) (e : Fin t → E.Sk)
    (F : Bytes r → Bytes n → Bytes n → Bytes N) : Prop :=
  (A (fun i => E.pk (x i)) (fun j => E.pk (e j)) (key (secretsN E w x e F))).output F
    (answerN E accept R x (fun j => E.pk (e j)) F) = true

/-- Random secrets do not depend on whom the messages are for. -/
theorem attackN_const (w' : Fin t → Fin u)
    (A : (Fin u → Bytes n) → (Fin t → Bytes n) → (Fin t → Bytes N) → DhAttackerN (Fin u) n r N) (K : Fin t → Bytes N)
    (x : Fin u → E.Sk) (e : Fin t → E.Sk) (F : Bytes r → Bytes n → Bytes n → Bytes N) :
    AttackN E accept R w A (fun _ => K) x e F ↔ AttackN E accept R w' A (fun _ => K) x e F := Iff.rfl

theorem playUsers_output (hR : ∀ j, R (w j) j) (k : Fin t) (x : Fin u → E.Sk) (x0 : E.Sk) (ct : Fin t → Bytes n)
    (F : Bytes r → Bytes n → Bytes n → Bytes N) (B : DhAttackerN (Fin u) n r N) :
    (playUsers E accept R w k (fun i => E.pk (Function.update x (w k) x0 i)) ct x B).output F
        (answer E accept x0 (ct k) F) =
      B.output F (answerN E accept R (Function.update x (w k) x0) ct F) := by
  induction B with
  | guess b => rfl
  | extract dh enc pkR next ih =>
    unfold playUsers DhAttacker.output DhAttackerN.output
    exact ih _
  | decap i enc next ih =>
    unfold playUsers DhAttackerN.output answerN
    by_cases h1 : ∃ j, R i j ∧ enc = ct j
    · rw [if_pos h1, if_pos h1]
      exact ih _
    rw [if_neg h1, if_neg h1]
    by_cases h2 : i = w k
    · rw [if_pos h2]
      subst h2
      unfold DhAttacker.output answer
      rw [if_neg (fun h => h1 ⟨k, hR k, h⟩), Function.update_self]
      exact ih _
    rw [if_neg h2, Function.update_of_ne h2]
    by_cases h3 : accept enc
    · rw [if_pos h3, if_pos h3]
      exact ih _
    · rw [if_neg h3, if_neg h3]
      exact ih _

theorem playSenders_output (pk : Fin u → Bytes n) (ct : Fin t → Bytes n) (e : Fin t → E.Sk)
    (F : Bytes r → Bytes n → Bytes n → Bytes N) (D : Bytes n → Option (Bytes N)) (f : (Fin t → Bytes N) → DhAttacker n r N)
    (l : List (Fin t)) (K : Fin t → Bytes N) :
    (playSenders E w pk ct e l K f).output F D =
      (f fun j => if j ∈ l then F (E.dh (e j) (pk (w j))) (ct j) (pk (w j)) else K j).output F D := by
  induction l generalizing K with
  | nil => simp [playSenders]
  | cons a l ih =>
    refine (ih (Function.update K a (F (E.dh (e a) (pk (w a))) (ct a) (pk (w a))))).trans ?_
    refine congrArg (fun K => (f K).output F D) (funext fun j => ?_)
    by_cases h1 : j ∈ l
    · rw [if_pos h1, if_pos (List.mem_cons_of_mem _ h1)]
    · rw [if_neg h1]
      by_cases h2 : j = a
      · subst h2
        rw [if_pos List.mem_cons_self, Function.update_self]
      · rw [Function.update_of_ne h2, if_neg (by simp [h1, h2])]

/-- Random secrets for the challenges before `k`, the right ones for the others -/
def mixed (k : Nat) (K real : Fin t → Bytes N) (j : Fin t) : Bytes N := if j.val < k then K j else real j

variable (hR : ∀ j, R (w j) j) (comm : ∀ x e, E.dh e (E.pk x) = E.dh x (E.pk e))
  (A : (Fin u → Bytes n) → (Fin t → Bytes n) → (Fin t → Bytes N) → DhAttackerN (Fin u) n r N)
include hR comm

omit hR comm in
theorem update_pk {τ : Type} [DecidableEq τ] (x : τ → E.Sk) (i : τ) (x0 : E.Sk) :
    Function.update (fun i => E.pk (x i)) i (E.pk x0) = fun j => E.pk (Function.update x i x0 j) := by
  funext j
  by_cases h : j = i
  · subst h; simp
  · simp [h]

theorem oneOf_attack (k : Fin t) (x : Fin u → E.Sk) (e : Fin t → E.Sk) (K : Fin t → Bytes N) (x0 e0 : E.Sk)
    (key : Bytes N → Bytes N) (F : Bytes r → Bytes n → Bytes n → Bytes N) :
    Attack E accept (oneOf E accept R w A k (x, e, K)) key x0 e0 F ↔
      AttackN E accept R w A (fun real j => if k < j then real j else if j = k then key (real j) else K j)
        (Function.update x (w k) x0) (Function.update e k e0) F := by
  unfold Attack AttackN oneOf
  dsimp only
  rw [update_pk E, update_pk E, playSenders_output]
  have h := playUsers_output E accept R w hR k x x0 (fun j => E.pk (Function.update e k e0 j)) F
  rw [Function.update_self] at h
  rw [h]
  have e1 : (fun j => if j ∈ List.filter (fun x => decide (k < x)) (List.finRange t) then
        F (E.dh (e j) (E.pk (Function.update x (w k) x0 (w j)))) (E.pk (Function.update e k e0 j))
          (E.pk (Function.update x (w k) x0 (w j)))
      else Function.update K k (key (F (E.dh x0 (E.pk e0)) (E.pk e0) (E.pk x0))) j) =
      fun j => if k < j then secretsN E w (Function.update x (w k) x0) (Function.update e k e0) F j
        else if j = k then key (secretsN E w (Function.update x (w k) x0) (Function.update e k e0) F j) else K j := by
    funext j
    by_cases h1 : k < j
    · rw [if_pos (by simp [h1]), if_pos h1]
      unfold secretsN
      rw [Function.update_of_ne (ne_of_gt h1), comm]
    · rw [if_neg (by simp [h1]), if_neg h1]
      by_cases h2 : j = k
      · subst h2
        rw [if_pos rfl, Function.update_self]
        unfold secretsN
        rw [Function.update_self, Function.update_self]
      · rw [if_neg h2, Function.update_of_ne h2]
  rw [e1]

theorem oneOf_real (k : Fin t) (x : Fin u → E.Sk) (e : Fin t → E.Sk) (K : Fin t → Bytes N) (x0 e0 : E.Sk)
    (F : Bytes r → Bytes n → Bytes n → Bytes N) :
    Attack E accept (oneOf E accept R w A k (x, e, K)) id x0 e0 F ↔
      AttackN E accept R w A (mixed k.val K) (Function.update x (w k) x0) (Function.update e k e0) F := by
  rw [oneOf_attack E accept R w hR comm]
  have : (fun (real : Fin t → Bytes N) j => if k < j then real j else if j = k then id (real j) else K j) = mixed k.val K := by
    funext real j
    unfold mixed
    rcases lt_trichotomy j k with h | h | h
    · rw [if_neg (not_lt_of_gt h), if_neg (ne_of_lt h), if_pos (Fin.lt_def.1 h)]
    · subst h; simp
    · rw [if_pos h, if_neg (not_lt_of_gt (Fin.lt_def.1 h))]
  rw [this]

theorem oneOf_random (k : Fin t) (x : Fin u → E.Sk) (e : Fin t → E.Sk) (K : Fin t → Bytes N) (x0 e0 : E.Sk) (ss : Bytes N)
    (F : Bytes r → Bytes n → Bytes n → Bytes N) :
    Attack E accept (oneOf E accept R w A k (x, e, K)) (fun _ => ss) x0 e0 F ↔
      AttackN E accept R w A (mixed (k.val + 1) (Function.update K k ss)) (Function.update x (w k) x0)
        (Function.update e k e0) F := by
  rw [oneOf_attack E accept R w hR comm]
  have : (fun (real : Fin t → Bytes N) j => if k < j then real j else if j = k then (fun _ => ss) (real j) else K j) =
      mixed (k.val + 1) (Function.update K k ss) := by
    funext real j
    unfold mixed
    rcases lt_trichotomy j k with h | h | h
    · rw [if_neg (not_lt_of_gt h), if_neg (ne_of_lt h), if_pos (Nat.lt_succ_of_lt (Fin.lt_def.1 h)),
        Function.update_of_ne (ne_of_lt h)]
    · subst h; simp
    · rw [if_pos h, if_neg (by have := Fin.lt_def.1 h; omega)]
  rw [this]

variable [Fintype E.Sk] [Nonempty E.Sk]

/-- How often the attacker guesses `true` when the first `k` secrets are random -/
noncomputable def gameN (k : Nat) : ℝ :=
  𝔼 x : Fin u → E.Sk, 𝔼 e : Fin t → E.Sk, 𝔼 K : Fin t → Bytes N, 𝔼 F, ind (AttackN E accept R w A (mixed k K) x e F)

omit hR comm [Fintype E.Sk] [Nonempty E.Sk] in
theorem expect_update' {τ α : Type} [Fintype τ] [DecidableEq τ] [Fintype α] [Nonempty α] (i : τ) (f : (τ → α) → ℝ) :
    𝔼 y, f y = 𝔼 y, 𝔼 a, f (Function.update y i a) :=
  (expect_update i f).trans (Finset.expect_comm ..)

omit hR comm in
theorem spread (k : Fin t) (g : (Fin u → E.Sk) → (Fin t → E.Sk) → (Fin t → Bytes N) → ℝ) :
    𝔼 x, 𝔼 e, 𝔼 K, g x e K =
      𝔼 x, 𝔼 e, 𝔼 K, 𝔼 x0, 𝔼 e0, g (Function.update x (w k) x0) (Function.update e k e0) K := by
  rw [expect_update' (w k)]
  refine Finset.expect_congr rfl fun x _ => ?_
  refine Eq.trans (Finset.expect_congr rfl fun x0 _ => expect_update' k _) ?_
  rw [Finset.expect_comm]
  refine Finset.expect_congr rfl fun e _ => ?_
  refine Eq.trans (Finset.expect_congr rfl fun x0 _ => Finset.expect_comm ..) ?_
  exact Finset.expect_comm ..

theorem stepN (hacc : ∀ e, accept (E.pk e)) (k : Fin t) :
    |gameN E accept R w A k.val - gameN E accept R w A (k.val + 1)| ≤ dhSuccess E (toDhOf E accept R w A k) := by
  have h0 : gameN E accept R w A k.val = 𝔼 o : (Fin u → E.Sk) × (Fin t → E.Sk) × (Fin t → Bytes N),
      prob (fun ((x, e, F) : E.Sk × E.Sk × (Bytes r → Bytes n → Bytes n → Bytes N)) =>
        Attack E accept (oneOf E accept R w A k o) id x e F) := by
    unfold gameN
    rw [spread E w k, expect_prod_type]
    refine Finset.expect_congr rfl fun x _ => ?_
    rw [expect_prod_type]
    refine Finset.expect_congr rfl fun e _ => Finset.expect_congr rfl fun K _ => ?_
    rw [prob_ind, expect_prod_type]
    refine Finset.expect_congr rfl fun x0 _ => ?_
    rw [expect_prod_type]
    refine Finset.expect_congr rfl fun e0 _ => Finset.expect_congr rfl fun F _ => ?_
    exact congrArg ind (propext (oneOf_real E accept R w hR comm A k x e K x0 e0 F)).symm
  have h1 : gameN E accept R w A (k.val + 1) = 𝔼 o : (Fin u → E.Sk) × (Fin t → E.Sk) × (Fin t → Bytes N),
      prob (fun ((x, e, F, ss) : E.Sk × E.Sk × (Bytes r → Bytes n → Bytes n → Bytes N) × Bytes N) =>
        Attack E accept (oneOf E accept R w A k o) (fun _ => ss) x e F) := by
    unfold gameN
    have e1 : ∀ (x : Fin u → E.Sk) (e : Fin t → E.Sk), (𝔼 K : Fin t → Bytes N, 𝔼 F,
        ind (AttackN E accept R w A (mixed (k.val + 1) K) x e F)) = 𝔼 K : Fin t → Bytes N, 𝔼 F, 𝔼 ss,
        ind (AttackN E accept R w A (mixed (k.val + 1) (Function.update K k ss)) x e F) := fun x e =>
      (expect_update' k _).trans (Finset.expect_congr rfl fun K _ => Finset.expect_comm ..)
    simp only [e1]
    rw [spread E w k, expect_prod_type]
    refine Finset.expect_congr rfl fun x _ => ?_
    rw [expect_prod_type]
    refine Finset.expect_congr rfl fun e _ => Finset.expect_congr rfl fun K _ => ?_
    rw [prob_ind, expect_prod_type]
    refine Finset.expect_congr rfl fun x0 _ => ?_
    rw [expect_prod_type]
    refine Finset.expect_congr rfl fun e0 _ => ?_
    rw [expect_prod_type]
    refine Finset.expect_congr rfl fun F _ => Finset.expect_congr rfl fun ss _ => ?_
    exact congrArg ind (propext (oneOf_random E accept R w hR comm A k x e K x0 e0 ss F)).symm
  have h2 : dhSuccess E (toDhOf E accept R w A k) = 𝔼 o : (Fin u → E.Sk) × (Fin t → E.Sk) × (Fin t → Bytes N),
      dhSuccess E (toDh accept (oneOf E accept R w A k o)) := by
    unfold dhSuccess
    simp only [prob_ind]
    rw [expect_prod_type]
    have e2 : ∀ x : E.Sk, (𝔼 b : E.Sk × ((Fin u → E.Sk) × (Fin t → E.Sk) × (Fin t → Bytes N)) ×
        Bytes N × (Bytes r → Bytes n → Bytes n → Bytes N) × (Bytes n → Bytes N),
        ind ((toDhOf E accept R w A k (E.pk x) (E.pk b.1) b.2).run (fun Y Z => decide (E.dh x Y = Z)) = E.dh x (E.pk b.1))) =
      𝔼 o : (Fin u → E.Sk) × (Fin t → E.Sk) × (Fin t → Bytes N), 𝔼 b : E.Sk × Bytes N ×
        (Bytes r → Bytes n → Bytes n → Bytes N) × (Bytes n → Bytes N),
        ind ((toDh accept (oneOf E accept R w A k o) (E.pk x) (E.pk b.1) b.2).run (fun Y Z => decide (E.dh x Y = Z))
          = E.dh x (E.pk b.1)) := by
      intro x
      rw [expect_prod_type]
      refine Eq.trans (Finset.expect_congr rfl fun e _ => expect_prod_type _) ?_
      rw [Finset.expect_comm]
      refine Finset.expect_congr rfl fun o _ => ?_
      rw [expect_prod_type]
      rfl
    refine Eq.trans (Finset.expect_congr rfl fun x _ => e2 x) ?_
    rw [Finset.expect_comm]
    refine Finset.expect_congr rfl fun o _ => ?_
    rw [expect_prod_type]
  rw [h0, h1, h2]
  exact abs_expect_sub fun o => attack_le E accept hacc (oneOf E accept R w A k o)

/-- Telling all secrets from random strings solves the Diffie-Hellman problem. -/
theorem manyN (hacc : ∀ e, accept (E.pk e)) :
    |prob (fun ((x, e, F) : (Fin u → E.Sk) × (Fin t → E.Sk) × (Bytes r → Bytes n → Bytes n → Bytes N)) =>
        AttackN E accept R w A id x e F)
      - prob (fun ((x, e, F, K) : (Fin u → E.Sk) × (Fin t → E.Sk) × (Bytes r → Bytes n → Bytes n → Bytes N) ×
          (Fin t → Bytes N)) => AttackN E accept R w A (fun _ => K) x e F)|
      ≤ ∑ k, dhSuccess E (toDhOf E accept R w A k) := by
  have h0 : prob (fun ((x, e, F) : (Fin u → E.Sk) × (Fin t → E.Sk) × (Bytes r → Bytes n → Bytes n → Bytes N)) =>
        AttackN E accept R w A id x e F) = gameN E accept R w A 0 := by
    rw [prob_ind, expect_prod_type]
    unfold gameN
    refine Finset.expect_congr rfl fun x _ => ?_
    rw [expect_prod_type]
    refine Finset.expect_congr rfl fun e _ => ?_
    have : ∀ K : Fin t → Bytes N, mixed 0 K = id := fun K => by
      funext real j
      exact if_neg (Nat.not_lt_zero _)
    simp only [this]
    rw [Fintype.expect_const]
  have h1 : prob (fun ((x, e, F, K) : (Fin u → E.Sk) × (Fin t → E.Sk) × (Bytes r → Bytes n → Bytes n → Bytes N) ×
          (Fin t → Bytes N)) => AttackN E accept R w A (fun _ => K) x e F) = gameN E accept R w A t := by
    rw [prob_ind, expect_prod_type]
    unfold gameN
    refine Finset.expect_congr rfl fun x _ => ?_
    rw [expect_prod_type]
    refine Finset.expect_congr rfl fun e _ => ?_
    rw [expect_prod_type, Finset.expect_comm]
    have : ∀ K : Fin t → Bytes N, mixed t K = fun _ => K := fun K => by
      funext real j
      exact if_pos j.2
    simp only [this]
  rw [h0, h1, ← Finset.sum_range_sub' (fun k => gameN E accept R w A k) t, ← Fin.sum_univ_eq_sum_range
    (fun k => gameN E accept R w A k - gameN E accept R w A (k + 1)) t]
  exact (Finset.abs_sum_le_sum_abs _ _).trans (Finset.sum_le_sum fun k _ => stepN E accept R w hR comm A hacc k)

omit hR comm [Fintype E.Sk] [Nonempty E.Sk] in
theorem oneOf_atMost (k : Fin t) {q : Nat} (hA : ∀ pk ct ss, (A pk ct ss).AtMost q)
    (o : (Fin u → E.Sk) × (Fin t → E.Sk) × (Fin t → Bytes N)) (pk ct : Bytes n) (ss : Bytes N) :
    (oneOf E accept R w A k o pk ct ss).AtMost (q + t) := by
  have up : ∀ (B : DhAttacker n r N) {q : Nat}, B.AtMost q → B.AtMost (q + 1) := by
    intro B
    induction B with
    | guess b => exact fun _ => trivial
    | extract dh enc pkR next ih =>
      rintro q ⟨q', rfl, h⟩
      exact ⟨q' + 1, rfl, fun a => ih a (h a)⟩
    | decap enc next ih =>
      rintro q ⟨q', rfl, h⟩
      exact ⟨q' + 1, rfl, fun a => ih a (h a)⟩
  have ups : ∀ (B : DhAttacker n r N) {q : Nat} (m : Nat), B.AtMost q → B.AtMost (q + m) := by
    intro B q m h
    induction m with
    | zero => exact h
    | succ m ih => exact up B ih
  have users : ∀ (B : DhAttackerN (Fin u) n r N) {q : Nat} (pk ct x), B.AtMost q →
      (playUsers E accept R w k pk ct x B).AtMost q := by
    intro B
    induction B with
    | guess b => exact fun _ _ _ _ => trivial
    | extract dh enc pkR next ih =>
      rintro q pk ct x ⟨q', rfl, h⟩
      exact ⟨q', rfl, fun a => ih a _ _ _ (h a)⟩
    | decap i enc next ih =>
      rintro q pk ct x ⟨q', rfl, h⟩
      unfold playUsers
      split
      · exact up _ (ih _ _ _ _ (h _))
      · split
        · exact ⟨q', rfl, fun a => ih a _ _ _ (h a)⟩
        · split
          · exact ⟨q', rfl, fun a => ih _ _ _ _ (h _)⟩
          · exact up _ (ih _ _ _ _ (h _))
  have senders : ∀ (l : List (Fin t)) (K : Fin t → Bytes N) (f : (Fin t → Bytes N) → DhAttacker n r N) (q : Nat) (pk ct e),
      (∀ K, (f K).AtMost q) → (playSenders E w pk ct e l K f).AtMost (q + l.length) := by
    intro l
    induction l with
    | nil => exact fun K f q _ _ _ h => h K
    | cons a l ih => exact fun K f q _ _ _ h => ⟨q + l.length, rfl, fun _ => ih _ _ _ _ _ _ h⟩
  obtain ⟨x, e, K⟩ := o
  have hl : ((List.finRange t).filter (k < ·)).length ≤ t :=
    (List.length_filter_le _ _).trans (le_of_eq (List.length_finRange ..))
  obtain ⟨m, hm⟩ := Nat.exists_eq_add_of_le hl
  unfold oneOf
  dsimp only
  generalize Function.update (fun i => E.pk (x i)) (w k) pk = pks
  generalize Function.update (fun j => E.pk (e j)) k ct = cts
  have h := ups _ m (senders ((List.finRange t).filter (k < ·)) (Function.update K k ss)
    (fun K => playUsers E accept R w k pks cts x (A pks cts K)) q pks cts e fun K => users _ _ _ _ (hA _ _ _))
  rw [Nat.add_assoc, ← hm] at h
  exact h

end
/-- An attacker on two users and three messages: it has the first user decapsulate the second user's challenge. -/
def forwarder {n r N : Nat} (_pk : Fin 2 → Bytes n) (ct : Fin 3 → Bytes n) (ss : Fin 3 → Bytes N) :
    DhAttackerN (Fin 2) n r N :=
  .decap 0 (ct 1) fun a => .guess (decide (a = some (ss 1)))

/-- Two users with the same key are recognised by it: decapsulation by the other one is not refused. -/
theorem forwarder_wins {n r N : Nat} (E : Exchange n r) (accept : Bytes n → Bool) (hacc : ∀ e, accept (E.pk e)) (x : E.Sk)
    (e : Fin 3 → E.Sk) (h : E.pk (e 1) ≠ E.pk (e 0)) (h' : E.pk (e 1) ≠ E.pk (e 2))
    (F : Bytes r → Bytes n → Bytes n → Bytes N) : AttackN E accept (ownOnly ![0, 1, 0]) ![0, 1, 0] forwarder id (fun _ => x) e F := by
  have ha : answerN E accept (ownOnly (![0, 1, 0] : Fin 3 → Fin 2)) (fun _ => x) (fun j => E.pk (e j)) F (0 : Fin 2)
      (E.pk (e 1)) = some (secretsN E (![0, 1, 0] : Fin 3 → Fin 2) (fun _ => x) e F 1) := by
    unfold answerN
    rw [if_neg, if_pos (hacc _)]
    · rfl
    · rintro ⟨j, hj, hb⟩
      fin_cases j
      · exact h hb
      · exact absurd hj (by decide)
      · exact h' hb
  exact decide_eq_true ha

end Rfc9180

namespace Dhkem
open Rust Fips203 Fo MlKem Sec2 Rfc9180

section
variable {c : Named} {u t : Nat}

/-- Every user `i` generates a key pair with the curve KEM, drawing from the state `s i`; for every challenge `j` somebody
encapsulates to the user `w j`, drawing from the state `s' j`. Secrets are put through RFC 9180's extraction, here `F`. The
attacker is given all encoded public keys, and `key` of the extracted secrets. It may ask for `F`, and for the
decapsulation, followed by the extraction, by the user `i`, of all strings but the challenges `j` with `R i j`. It ends with
the guess `true`. -/
def CurveAttackN (random : (rng : Rng) → rng.State → Res (Scalar c × rng.State)) {N : Nat} (R : Fin u → Fin t → Bool) (w : Fin t → Fin u)
    (A : (Fin u → Bytes (1 + 2 * c.params.size)) → (Fin t → Bytes (1 + 2 * c.params.size)) → (Fin t → Bytes N) →
      DhAttackerN (Fin u) (1 + 2 * c.params.size) c.params.size N) (key : (Fin t → Bytes N) → Fin t → Bytes N) {rng : Rng}
    (s : Fin u → rng.State) (s' : Fin t → rng.State)
    (F : Bytes c.params.size → Bytes (1 + 2 * c.params.size) → Bytes (1 + 2 * c.params.size) → Bytes N) : Prop :=
  ∃ (dk : Fin u → DhDecapsulator (Scalar c)) (ek : Fin u → DhEncapsulator c.params.curve.Point)
    (pk : Fin t → c.params.curve.Point) (ss : Fin t → Bytes c.params.size) (v : Fin u → rng.State) (v' : Fin t → rng.State),
    (∀ i, EcdhKem.random_keypair (named c random) rng (s i) = .ok ((dk i, ek i), v i)) ∧
    (∀ j, EcdhKem.encapsulate (named c random) (ek (w j)) rng (s' j) = .ok ((pk j, ss j), v' j)) ∧
    (A (fun i => encoded (ek i).into_inner) (fun j => encoded (pk j))
      (key fun j => F (ss j) (encoded (pk j)) (encoded (ek (w j)).into_inner))).output F (fun i b =>
        if ∃ j, R i j ∧ b = encoded (pk j) then none else
          match parse c.params b.toList with
          | some P =>
            match EcdhKem.decapsulate (named c random) (dk i) P with
            | .ok ss => some (F ss b (encoded (ek i).into_inner))
            | _ => none
          | none => none) = true

theorem curve_comm (x e : Scalar c) :
    (curveExchange c).dh e ((curveExchange c).pk x) = (curveExchange c).dh x ((curveExchange c).pk e) := by
  have hx : x.val • base c ≠ 0 := secret_smul_ne_zero x (base_ne_zero c)
  have he : e.val • base c ≠ 0 := secret_smul_ne_zero e (base_ne_zero c)
  rw [show (curveExchange c).pk e = encoded (e.val • base c) from rfl,
    show (curveExchange c).pk x = encoded (x.val • base c) from rfl, curve_dh x (parse_encoded he),
    curve_dh e (parse_encoded hx), smul_comm]

theorem encodesKey_pk (e : Scalar c) : encodesKey c ((curveExchange c).pk e) = true := by
  show (parse c.params (encoded (e.val • base c)).toList).isSome = true
  rw [parse_encoded (secret_smul_ne_zero e (base_ne_zero c))]
  rfl

theorem curve_attackN (random : (rng : Rng) → rng.State → Res (Scalar c × rng.State)) {N : Nat} (R : Fin u → Fin t → Bool) (w : Fin t → Fin u)
    (A : (Fin u → Bytes (1 + 2 * c.params.size)) → (Fin t → Bytes (1 + 2 * c.params.size)) → (Fin t → Bytes N) →
      DhAttackerN (Fin u) (1 + 2 * c.params.size) c.params.size N) (key : (Fin t → Bytes N) → Fin t → Bytes N) {rng : Rng}
    {s v : Fin u → rng.State} {s' v' : Fin t → rng.State}
    (F : Bytes c.params.size → Bytes (1 + 2 * c.params.size) → Bytes (1 + 2 * c.params.size) → Bytes N)
    {x : Fin u → Scalar c} {e : Fin t → Scalar c} (hs : ∀ i, random rng (s i) = .ok (x i, v i))
    (hs' : ∀ j, random rng (s' j) = .ok (e j, v' j)) :
    CurveAttackN random R w A key s s' F ↔ AttackN (curveExchange c) (encodesKey c) R w A key x e F := by
  have he : ∀ j, (e j).val • base c ≠ 0 := fun j => secret_smul_ne_zero (e j) (base_ne_zero c)
  have h1 : ∀ i, EcdhKem.random_keypair (named c random) rng (s i) = .ok ((⟨x i⟩, ⟨(x i).val • base c⟩), v i) :=
    fun i => ((C45_ephemeral (named c random) rng (s i)).2.1 _).2 ⟨x i, v i, hs i, rfl⟩
  have h2 : ∀ j, EcdhKem.encapsulate (named c random) ⟨(x (w j)).val • base c⟩ rng (s' j) =
      .ok (((e j).val • base c, rawSecret c ((e j).val • (x (w j)).val • base c)), v' j) :=
    fun j => ((C45_ephemeral (named c random) rng (s' j)).1 _ _).2 ⟨e j, v' j, hs' j, rfl⟩
  have h3 : (fun j => F (rawSecret c ((e j).val • (x (w j)).val • base c)) (encoded ((e j).val • base c))
      (encoded ((x (w j)).val • base c))) = secretsN (curveExchange c) w x e F := by
    funext j
    unfold secretsN
    rw [show (curveExchange c).pk (e j) = encoded ((e j).val • base c) from rfl, curve_dh (x (w j)) (parse_encoded (he j)),
      smul_comm]
    rfl
  have h4 : (fun i b => if ∃ j, R i j ∧ b = encoded ((e j).val • base c) then none else
        match parse c.params b.toList with
        | some P =>
          match EcdhKem.decapsulate (named c random) ⟨x i⟩ P with
          | .ok ss => some (F ss b (encoded ((x i).val • base c)))
          | _ => none
        | none => none) = answerN (curveExchange c) (encodesKey c) R x (fun j => (curveExchange c).pk (e j)) F := by
    funext i b
    unfold answerN
    by_cases hb : ∃ j, R i j ∧ b = encoded ((e j).val • base c)
    · rw [if_pos hb]
      exact (if_pos hb).symm
    · rw [if_neg hb]
      refine Eq.trans ?_ (if_neg hb).symm
      unfold encodesKey
      cases hp : parse c.params b.toList with
      | none => rfl
      | some P =>
        rw [curve_dh (x i) hp]
        rfl
  unfold AttackN
  rw [← h3, ← h4]
  constructor
  · rintro ⟨dk, ek, pk, ss, v1, v2, g1, g2, g3⟩
    obtain rfl : dk = fun i => ⟨x i⟩ := funext fun i =>
      (congrArg (fun r => r.1.1) (Res.ok.inj ((h1 i).symm.trans (g1 i)))).symm
    obtain rfl : ek = fun i => ⟨(x i).val • base c⟩ := funext fun i =>
      (congrArg (fun r => r.1.2) (Res.ok.inj ((h1 i).symm.trans (g1 i)))).symm
    obtain rfl : pk = fun j => (e j).val • base c := funext fun j =>
      (congrArg (fun r => r.1.1) (Res.ok.inj ((h2 j).symm.trans (g2 j)))).symm
    obtain rfl : ss = fun j => rawSecret c ((e j).val • (x (w j)).val • base c) := funext fun j =>
      (congrArg (fun r => r.1.2) (Res.ok.inj ((h2 j).symm.trans (g2 j)))).symm
    exact g3
  · intro h
    exact ⟨_, _, _, _, _, _, h1, h2, h⟩

theorem curve_constN (random : (rng : Rng) → rng.State → Res (Scalar c × rng.State)) {N : Nat}
    (R : Fin u → Fin t → Bool) (w w' : Fin t → Fin u)
    (A : (Fin u → Bytes (1 + 2 * c.params.size)) → (Fin t → Bytes (1 + 2 * c.params.size)) → (Fin t → Bytes N) →
      DhAttackerN (Fin u) (1 + 2 * c.params.size) c.params.size N) (K : Fin t → Bytes N) {rng : Rng}
    {s v : Fin u → rng.State} {s' v' : Fin t → rng.State}
    (F : Bytes c.params.size → Bytes (1 + 2 * c.params.size) → Bytes (1 + 2 * c.params.size) → Bytes N)
    {x : Fin u → Scalar c} {e : Fin t → Scalar c} (hs : ∀ i, random rng (s i) = .ok (x i, v i))
    (hs' : ∀ j, random rng (s' j) = .ok (e j, v' j)) :
    CurveAttackN random R w A (fun _ => K) s s' F ↔ CurveAttackN random R w' A (fun _ => K) s s' F := by
  rw [curve_attackN random R w A _ F hs hs', curve_attackN random R w' A _ F hs hs']
  exact attackN_const (curveExchange c) (encodesKey c) R w w' A K x e F

/-- **C94** Any number of recipients and of messages, where users refuse at least the challenges meant for them: the same attacker tells all secrets from random ones no better than
explicit procedures, one for each message, solve one Diffie-Hellman problem on the curve, with at most one question
for each of the attacker's and one for each message. -/
theorem C94_curve_many (random : (rng : Rng) → rng.State → Res (Scalar c × rng.State)) {rng : Rng}
    {st : Scalar c → rng.State} (hst : ∀ k, ∃ t, random rng (st k) = .ok (k, t)) {N : Nat} {R : Fin u → Fin t → Bool} {w : Fin t → Fin u}
    (hR : ∀ j, R (w j) j)
    (A : (Fin u → Bytes (1 + 2 * c.params.size)) → (Fin t → Bytes (1 + 2 * c.params.size)) → (Fin t → Bytes N) →
      DhAttackerN (Fin u) (1 + 2 * c.params.size) c.params.size N) :
    |prob (fun ((x, e, F) : (Fin u → Scalar c) × (Fin t → Scalar c) × (Bytes c.params.size →
          Bytes (1 + 2 * c.params.size) → Bytes (1 + 2 * c.params.size) → Bytes N)) =>
          CurveAttackN random R w A id (fun i => st (x i)) (fun j => st (e j)) F)
      - prob (fun ((x, e, F, ss) : (Fin u → Scalar c) × (Fin t → Scalar c) × (Bytes c.params.size →
          Bytes (1 + 2 * c.params.size) → Bytes (1 + 2 * c.params.size) → Bytes N) × (Fin t → Bytes N)) =>
          CurveAttackN random R w A (fun _ => ss) (fun i => st (x i)) (fun j => st (e j)) F)|
      ≤ ∑ k, dhSuccess (curveExchange c) (toDhOf (curveExchange c) (encodesKey c) R w A k) ∧
    ∀ q, (∀ pk ct ss, (A pk ct ss).AtMost q) → ∀ k pk ct coins,
      (toDhOf (curveExchange c) (encodesKey c) R w A k pk ct coins).AtMost (encodesKey c) (q + t) := by
  refine ⟨?_, fun q hA k pk ct coins => solve_atMost _ _ _ _ _ _ (oneOf_atMost _ _ _ _ _ _ hA _ _ _ _)⟩
  let : Fintype (curveExchange c).Sk := instFintypeScalar
  have : Nonempty (curveExchange c).Sk := ⟨(⟨1, Nat.one_pos, by have := n_gt_two c; omega⟩ : Scalar c)⟩
  choose v hv using hst
  refine le_trans (le_of_eq ?_) (manyN (curveExchange c) (encodesKey c) R w hR curve_comm A encodesKey_pk)
  · congr 2
    · exact prob_iff fun ⟨x, e, F⟩ => curve_attackN random R w A id F (fun i => hv (x i)) (fun j => hv (e j))
    · exact prob_iff fun ⟨x, e, F, ss⟩ => curve_attackN random R w A _ F (fun i => hv (x i)) (fun j => hv (e j))

/-- **C94** Nor can it tell whom the messages are for, if the users refuse all challenges: `w` says it for one world, `w'` for
the other. -/
theorem C94_curve_anonymous (random : (rng : Rng) → rng.State → Res (Scalar c × rng.State)) {rng : Rng}
    {st : Scalar c → rng.State} (hst : ∀ k, ∃ t, random rng (st k) = .ok (k, t)) {N : Nat} (w w' : Fin t → Fin u)
    (A : (Fin u → Bytes (1 + 2 * c.params.size)) → (Fin t → Bytes (1 + 2 * c.params.size)) → (Fin t → Bytes N) →
      DhAttackerN (Fin u) (1 + 2 * c.params.size) c.params.size N) :
    |prob (fun ((x, e, F) : (Fin u → Scalar c) × (Fin t → Scalar c) × (Bytes c.params.size →
          Bytes (1 + 2 * c.params.size) → Bytes (1 + 2 * c.params.size) → Bytes N)) =>
          CurveAttackN random (fun _ _ => true) w A id (fun i => st (x i)) (fun j => st (e j)) F)
      - prob (fun ((x, e, F) : (Fin u → Scalar c) × (Fin t → Scalar c) × (Bytes c.params.size →
          Bytes (1 + 2 * c.params.size) → Bytes (1 + 2 * c.params.size) → Bytes N)) =>
          CurveAttackN random (fun _ _ => true) w' A id (fun i => st (x i)) (fun j => st (e j)) F)|
      ≤ ∑ k, dhSuccess (curveExchange c) (toDhOf (curveExchange c) (encodesKey c) (fun _ _ => true) w A k)
        + ∑ k, dhSuccess (curveExchange c) (toDhOf (curveExchange c) (encodesKey c) (fun _ _ => true) w' A k) := by
  have h := (C94_curve_many random hst (R := fun _ _ => true) (w := w) (fun _ => rfl) A).1
  have h' := (C94_curve_many random hst (R := fun _ _ => true) (w := w') (fun _ => rfl) A).1
  choose v hv using hst
  have q : prob (fun ((x, e, F, ss) : (Fin u → Scalar c) × (Fin t → Scalar c) × (Bytes c.params.size →
        Bytes (1 + 2 * c.params.size) → Bytes (1 + 2 * c.params.size) → Bytes N) × (Fin t → Bytes N)) =>
      CurveAttackN random (fun _ _ => true) w A (fun _ => ss) (fun i => st (x i)) (fun j => st (e j)) F) =
    prob (fun ((x, e, F, ss) : (Fin u → Scalar c) × (Fin t → Scalar c) × (Bytes c.params.size →
        Bytes (1 + 2 * c.params.size) → Bytes (1 + 2 * c.params.size) → Bytes N) × (Fin t → Bytes N)) =>
      CurveAttackN random (fun _ _ => true) w' A (fun _ => ss) (fun i => st (x i)) (fun j => st (e j)) F) :=
    prob_iff fun ⟨x, e, F, ss⟩ => curve_constN random _ w w' A ss F (fun i => hv (x i)) (fun j => hv (e j))
  rw [q] at h
  exact (abs_sub_le _ _ _).trans (add_le_add h ((abs_sub_comm _ _).le.trans h'))

end

section
variable {u t : Nat}

/-- The same for X25519. With `strict`, the users refuse the all-zero Diffie-Hellman value. -/
def X25519AttackN (strict : Bool) {N : Nat} (R : Fin u → Fin t → Bool) (w : Fin t → Fin u)
    (A : (Fin u → B32) → (Fin t → B32) → (Fin t → Bytes N) → DhAttackerN (Fin u) 32 32 N)
    (key : (Fin t → Bytes N) → Fin t → Bytes N) {rng : Rng} (s : Fin u → rng.State) (s' : Fin t → rng.State)
    (F : B32 → B32 → B32 → Bytes N) : Prop :=
  ∃ (dk : Fin u → DhDecapsulator B32) (ek : Fin u → DhEncapsulator B32) (pk ss : Fin t → B32) (v : Fin u → rng.State)
    (v' : Fin t → rng.State),
    (∀ i, X25519Kem.random_keypair x25519 rng (s i) = .ok ((dk i, ek i), v i)) ∧
    (∀ j, X25519Kem.encapsulate x25519 (ek (w j)) rng (s' j) = .ok ((pk j, ss j), v' j)) ∧
    (A (fun i => (ek i).into_inner) pk (key fun j => F (ss j) (pk j) (ek (w j)).into_inner)).output F (fun i b =>
      if ∃ j, R i j ∧ b = pk j then none else
        match X25519Kem.decapsulate x25519 (dk i) b with
        | .ok (ss : B32) => if strict ∧ ss = Vector.replicate 32 0 then none else some (F ss b (ek i).into_inner)
        | _ => none) = true

theorem x25519_attackN (strict : Bool) {N : Nat} (R : Fin u → Fin t → Bool) (w : Fin t → Fin u)
    (A : (Fin u → B32) → (Fin t → B32) → (Fin t → Bytes N) → DhAttackerN (Fin u) 32 32 N)
    (key : (Fin t → Bytes N) → Fin t → Bytes N) {rng : Rng} {s v : Fin u → rng.State} {s' v' : Fin t → rng.State}
    (F : B32 → B32 → B32 → Bytes N) {x : Fin u → B32} {e : Fin t → B32}
    (hs : ∀ i, rng.fill_bytes 32 (s i) = .ok (x i, v i)) (hs' : ∀ j, rng.fill_bytes 32 (s' j) = .ok (e j, v' j)) :
    X25519AttackN strict R w A key s s' F ↔ AttackN xExchange (accepted strict) R w A key x e F := by
  have h1 : ∀ i, X25519Kem.random_keypair x25519 rng (s i) =
      .ok ((⟨x i⟩, ⟨Rfc7748.X25519 (x i) XWingSpec.basePoint⟩), v i) :=
    fun i => ((C45_ephemeral x25519 rng (s i)).2.2.2 _).2 ⟨x i, v i, hs i, rfl⟩
  have h2 : ∀ j, X25519Kem.encapsulate x25519 ⟨Rfc7748.X25519 (x (w j)) XWingSpec.basePoint⟩ rng (s' j) =
      .ok ((Rfc7748.X25519 (e j) XWingSpec.basePoint,
        Rfc7748.X25519 (e j) (Rfc7748.X25519 (x (w j)) XWingSpec.basePoint)), v' j) :=
    fun j => ((C45_ephemeral x25519 rng (s' j)).2.2.1 _ _).2 ⟨e j, v' j, hs' j, rfl⟩
  have h3 : (fun j => F (Rfc7748.X25519 (e j) (Rfc7748.X25519 (x (w j)) XWingSpec.basePoint))
      (Rfc7748.X25519 (e j) XWingSpec.basePoint) (Rfc7748.X25519 (x (w j)) XWingSpec.basePoint)) =
      secretsN xExchange w x e F := by
    funext j
    rw [Rfc7748.C74_commutes (e j) (x (w j))]
    rfl
  have h4 : (fun i b => if ∃ j, R i j ∧ b = Rfc7748.X25519 (e j) XWingSpec.basePoint then none else
        match X25519Kem.decapsulate x25519 ⟨x i⟩ b with
        | .ok (ss : B32) => if strict ∧ ss = Vector.replicate 32 0 then none
            else some (F ss b (Rfc7748.X25519 (x i) XWingSpec.basePoint))
        | _ => none) = answerN xExchange (accepted strict) R x (fun j => xExchange.pk (e j)) F := by
    funext i b
    unfold answerN
    by_cases hb : ∃ j, R i j ∧ b = Rfc7748.X25519 (e j) XWingSpec.basePoint
    · rw [if_pos hb]
      exact (if_pos hb).symm
    · rw [if_neg hb]
      refine Eq.trans ?_ (if_neg hb).symm
      show (if strict ∧ Rfc7748.X25519 (x i) b = Vector.replicate 32 0 then none
        else some (F (Rfc7748.X25519 (x i) b) b (Rfc7748.X25519 (x i) XWingSpec.basePoint))) = _
      have hz := Rfc7748.C74_zero_iff (x i) b
      by_cases ha : strict = true ∧ Rfc7748.maskedInteger b ∈ Rfc7748.smallOrder
      · rw [if_pos ⟨ha.1, hz.2 ha.2⟩, if_neg (by unfold accepted; rw [ha.1, decide_eq_true ha.2]; simp)]
      · rw [if_neg (fun h => ha ⟨h.1, hz.1 h.2⟩), if_pos (by
          unfold accepted
          rw [Bool.not_eq_true', Bool.and_eq_false_iff, decide_eq_false_iff_not]
          by_cases hst : strict = true
          · exact .inr fun h => ha ⟨hst, h⟩
          · exact .inl (Bool.eq_false_iff.2 hst))]
        rfl
  unfold AttackN
  rw [← h3, ← h4]
  constructor
  · rintro ⟨dk, ek, pk, ss, v1, v2, g1, g2, g3⟩
    obtain rfl : dk = fun i => ⟨x i⟩ := funext fun i =>
      (congrArg (fun r => r.1.1) (Res.ok.inj ((h1 i).symm.trans (g1 i)))).symm
    obtain rfl : ek = fun i => ⟨Rfc7748.X25519 (x i) XWingSpec.basePoint⟩ := funext fun i =>
      (congrArg (fun r => r.1.2) (Res.ok.inj ((h1 i).symm.trans (g1 i)))).symm
    obtain rfl : pk = fun j => Rfc7748.X25519 (e j) XWingSpec.basePoint := funext fun j =>
      (congrArg (fun r => r.1.1) (Res.ok.inj ((h2 j).symm.trans (g2 j)))).symm
    obtain rfl : ss = fun j => Rfc7748.X25519 (e j) (Rfc7748.X25519 (x (w j)) XWingSpec.basePoint) := funext fun j =>
      (congrArg (fun r => r.1.2) (Res.ok.inj ((h2 j).symm.trans (g2 j)))).symm
    exact g3
  · intro h
    exact ⟨_, _, _, _, _, _, h1, h2, h⟩

theorem x25519_constN (strict : Bool) {N : Nat} (R : Fin u → Fin t → Bool) (w w' : Fin t → Fin u)
    (A : (Fin u → B32) → (Fin t → B32) → (Fin t → Bytes N) → DhAttackerN (Fin u) 32 32 N) (K : Fin t → Bytes N)
    {rng : Rng} {s v : Fin u → rng.State} {s' v' : Fin t → rng.State} (F : B32 → B32 → B32 → Bytes N)
    {x : Fin u → B32} {e : Fin t → B32} (hs : ∀ i, rng.fill_bytes 32 (s i) = .ok (x i, v i))
    (hs' : ∀ j, rng.fill_bytes 32 (s' j) = .ok (e j, v' j)) :
    X25519AttackN strict R w A (fun _ => K) s s' F ↔ X25519AttackN strict R w' A (fun _ => K) s s' F := by
  rw [x25519_attackN strict R w A _ F hs hs', x25519_attackN strict R w' A _ F hs hs']
  exact attackN_const xExchange (accepted strict) R w w' A K x e F

/-- **C94** The same for X25519, whether or not the users refuse the all-zero value. -/
theorem C94_x25519_many (strict : Bool) {rng : Rng} {st : B32 → rng.State}
    (hst : ∀ k, ∃ t, rng.fill_bytes 32 (st k) = .ok (k, t)) {N : Nat} {R : Fin u → Fin t → Bool} {w : Fin t → Fin u}
    (hR : ∀ j, R (w j) j)
    (A : (Fin u → B32) → (Fin t → B32) → (Fin t → Bytes N) → DhAttackerN (Fin u) 32 32 N) :
    |prob (fun ((x, e, F) : (Fin u → B32) × (Fin t → B32) × (B32 → B32 → B32 → Bytes N)) =>
          X25519AttackN strict R w A id (fun i => st (x i)) (fun j => st (e j)) F)
      - prob (fun ((x, e, F, ss) : (Fin u → B32) × (Fin t → B32) × (B32 → B32 → B32 → Bytes N) × (Fin t → Bytes N)) =>
          X25519AttackN strict R w A (fun _ => ss) (fun i => st (x i)) (fun j => st (e j)) F)|
      ≤ ∑ k, dhSuccess xExchange (toDhOf xExchange (accepted strict) R w A k) ∧
    ∀ q, (∀ pk ct ss, (A pk ct ss).AtMost q) → ∀ k pk ct coins,
      (toDhOf xExchange (accepted strict) R w A k pk ct coins).AtMost (accepted strict) (q + t) := by
  refine ⟨?_, fun q hA k pk ct coins => solve_atMost _ _ _ _ _ _ (oneOf_atMost _ _ _ _ _ _ hA _ _ _ _)⟩
  let : Fintype xExchange.Sk := instFintypeBytes 32
  have : Nonempty xExchange.Sk := ⟨XWingSpec.basePoint⟩
  choose v hv using hst
  refine le_trans (le_of_eq ?_) (manyN xExchange (accepted strict) R w hR
    (fun x e => Rfc7748.C74_commutes e x XWingSpec.basePoint) A (fun e => ?_))
  · congr 2
    · exact prob_iff fun ⟨x, e, F⟩ => x25519_attackN strict R w A id F (fun i => hv (x i)) (fun j => hv (e j))
    · exact prob_iff fun ⟨x, e, F, ss⟩ => x25519_attackN strict R w A _ F (fun i => hv (x i)) (fun j => hv (e j))
  · show accepted strict (Rfc7748.X25519 e XWingSpec.basePoint) = true
    unfold accepted
    rw [decide_eq_false (Rfc7748.C74_honest e e).1, Bool.and_false]
    rfl

/-- **C94** The same for X25519 -/
theorem C94_x25519_anonymous (strict : Bool) {rng : Rng} {st : B32 → rng.State}
    (hst : ∀ k, ∃ t, rng.fill_bytes 32 (st k) = .ok (k, t)) {N : Nat} (w w' : Fin t → Fin u)
    (A : (Fin u → B32) → (Fin t → B32) → (Fin t → Bytes N) → DhAttackerN (Fin u) 32 32 N) :
    |prob (fun ((x, e, F) : (Fin u → B32) × (Fin t → B32) × (B32 → B32 → B32 → Bytes N)) =>
          X25519AttackN strict (fun _ _ => true) w A id (fun i => st (x i)) (fun j => st (e j)) F)
      - prob (fun ((x, e, F) : (Fin u → B32) × (Fin t → B32) × (B32 → B32 → B32 → Bytes N)) =>
          X25519AttackN strict (fun _ _ => true) w' A id (fun i => st (x i)) (fun j => st (e j)) F)|
      ≤ ∑ k, dhSuccess xExchange (toDhOf xExchange (accepted strict) (fun _ _ => true) w A k)
        + ∑ k, dhSuccess xExchange (toDhOf xExchange (accepted strict) (fun _ _ => true) w' A k) := by
  have h := (C94_x25519_many strict hst (R := fun _ _ => true) (w := w) (fun _ => rfl) A).1
  have h' := (C94_x25519_many strict hst (R := fun _ _ => true) (w := w') (fun _ => rfl) A).1
  choose v hv using hst
  have q : prob (fun ((x, e, F, ss) : (Fin u → B32) × (Fin t → B32) × (B32 → B32 → B32 → Bytes N) × (Fin t → Bytes N)) =>
      X25519AttackN strict (fun _ _ => true) w A (fun _ => ss) (fun i => st (x i)) (fun j => st (e j)) F) =
    prob (fun ((x, e, F, ss) : (Fin u → B32) × (Fin t → B32) × (B32 → B32 → B32 → Bytes N) × (Fin t → Bytes N)) =>
      X25519AttackN strict (fun _ _ => true) w' A (fun _ => ss) (fun i => st (x i)) (fun j => st (e j)) F) :=
    prob_iff fun ⟨x, e, F, ss⟩ => x25519_constN strict _ w w' A ss F (fun i => hv (x i)) (fun j => hv (e j))
  rw [q] at h
  exact (abs_sub_le _ _ _).trans (add_le_add h ((abs_sub_comm _ _).le.trans h'))

end

/-- It asks one question, and the bound applies to it. -/
example (pk : Fin 2 → B32) (ct ss : Fin 3 → B32) : (forwarder (r := 32) pk ct ss).AtMost 1 := ⟨0, rfl, fun _ => trivial⟩

example : |prob (fun ((x, e, F) : (Fin 2 → B32) × (Fin 3 → B32) × (B32 → B32 → B32 → B32)) =>
        X25519AttackN true (ownOnly ![0, 1, 0]) ![0, 1, 0] forwarder id (rng := holding) (fun i => ⟨32, x i⟩) (fun j => ⟨32, e j⟩) F)
      - prob (fun ((x, e, F, ss) : (Fin 2 → B32) × (Fin 3 → B32) × (B32 → B32 → B32 → B32) × (Fin 3 → B32)) =>
        X25519AttackN true (ownOnly ![0, 1, 0]) ![0, 1, 0] forwarder (fun _ => ss) (rng := holding) (fun i => ⟨32, x i⟩)
          (fun j => ⟨32, e j⟩) F)|
    ≤ ∑ k, dhSuccess xExchange (toDhOf (N := 32) xExchange (accepted true) (ownOnly ![0, 1, 0]) ![0, 1, 0] forwarder k) :=
  (C94_x25519_many true (fun k => ⟨_, holding_fill 32 k⟩) (by decide) forwarder).1

/-- Three messages between two recipients, under any two assignments. -/
example (w w' : Fin 3 → Fin 2) : |prob (fun ((x, e, F) : (Fin 2 → B32) × (Fin 3 → B32) × (B32 → B32 → B32 → B32)) =>
        X25519AttackN true (fun _ _ => true) w forwarder id (rng := holding) (fun i => ⟨32, x i⟩) (fun j => ⟨32, e j⟩) F)
      - prob (fun ((x, e, F) : (Fin 2 → B32) × (Fin 3 → B32) × (B32 → B32 → B32 → B32)) =>
        X25519AttackN true (fun _ _ => true) w' forwarder id (rng := holding) (fun i => ⟨32, x i⟩)
          (fun j => ⟨32, e j⟩) F)|
    ≤ ∑ k, dhSuccess xExchange (toDhOf (N := 32) xExchange (accepted true) (fun _ _ => true) w forwarder k)
      + ∑ k, dhSuccess xExchange (toDhOf (N := 32) xExchange (accepted true) (fun _ _ => true) w' forwarder k) :=
  C94_x25519_anonymous true (fun k => ⟨_, holding_fill 32 k⟩) w w' forwarder

/-- On every curve, with the same key for both users and three different challenges, it guesses `true`. -/
example (c : Named) (x : Scalar c) (e : Fin 3 → Scalar c) (h : (curveExchange c).pk (e 1) ≠ (curveExchange c).pk (e 0))
    (h' : (curveExchange c).pk (e 1) ≠ (curveExchange c).pk (e 2))
    (F : Bytes c.params.size → Bytes (1 + 2 * c.params.size) → Bytes (1 + 2 * c.params.size) → B32) :
    CurveAttackN (drawOctets c) (ownOnly ![0, 1, 0]) ![0, 1, 0] forwarder id (rng := holding) (fun _ => ⟨_, octets c.params.size x.val⟩)
      (fun j => ⟨_, octets c.params.size (e j).val⟩) F := by
  obtain ⟨t, ht⟩ := drawOctets_holding c x
  choose t' ht' using fun j => drawOctets_holding c (e j)
  exact (curve_attackN (drawOctets c) (ownOnly ![0, 1, 0]) ![0, 1, 0] forwarder id F (x := fun _ => x) (v := fun _ => t) (fun _ => ht) ht').2
    (forwarder_wins (curveExchange c) (encodesKey c) encodesKey_pk x e h h' F)

end Dhkem
