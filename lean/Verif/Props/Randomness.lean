import Verif.Spec.Tape
import Verif.Props.History
import Verif.Props.XWingHistory
/-! C62: a history of calls reads the generator's output once, in order. -/
namespace Fips203
open Rust
open MlKem (Rng)

theorem Draws.append {rng : Rng} {s s1 s2 : rng.State} {a b} (h : Draws rng s a s1) (h' : Draws rng s1 b s2) :
    Draws rng s (a ++ b) s2 := by
  induction h with
  | none => exact h'
  | next h0 _ ih => exact .next h0 (ih h')

/-- The generator determines what is drawn. -/
theorem Draws.unique {rng : Rng} {s s1 s2 : rng.State} {a b} (h : Draws rng s a s1) (h' : Draws rng s b s2)
    (hl : a.length = b.length) : a = b ∧ s1 = s2 := by
  induction h generalizing b with
  | none => cases h' with
    | none => exact ⟨rfl, rfl⟩
    | next => nomatch hl
  | next h0 _ ih => cases h' with
    | none => nomatch hl
    | next h0' h1' =>
      obtain ⟨rfl, rfl⟩ := Prod.mk.inj (Res.ok.inj (h0.symm.trans h0'))
      obtain ⟨rfl, rfl⟩ := ih h1' (Nat.succ.inj hl)
      exact ⟨rfl, rfl⟩

theorem Draws.nil {rng : Rng} {s s' : rng.State} (h : Draws rng s [] s') : s = s' := by
  cases h; rfl

theorem Draws.split {rng : Rng} {s s2 : rng.State} {a b} (h : Draws rng s (a ++ b) s2) :
    ∃ s1, Draws rng s a s1 ∧ Draws rng s1 b s2 := by
  induction a generalizing s with
  | nil => exact ⟨s, .none _, h⟩
  | cons x a ih =>
    cases h with
    | next h0 h1 =>
      obtain ⟨s1, h2, h3⟩ := ih h1
      exact ⟨s1, .next h0 h2, h3⟩

end Fips203

namespace MlKem.History
open Rust Fips203

variable [Build] (S : Sha3) {P : ParameterSet} {rng : Rng}

/-- Encapsulations with randomness from the generator that returned -/
def isEncaps : Obs P → Bool
  | .encaps .. => true
  | _ => false

/-- Key generations with randomness from the generator -/
def isGenerate : Op P → Bool
  | .generate => true
  | _ => false

theorem step_tape {w w' : World P rng} {op : Op P} {os} (h : step S w op = .ok (w', os)) :
    ∃ bs, Draws rng w.st bs w'.st ∧
      bs.length = 2 * [op].countP isGenerate + os.countP isEncaps ∧
      (isGenerate op = false → (∀ j, op ≠ .encaps j) → bs = []) ∧
      ∀ (rng2 : Rng) (t t' : rng2.State), Draws rng2 t bs t' →
        step S ({ dks := w.dks, eks := w.eks, st := t } : World P rng2) op
          = .ok ({ dks := w'.dks, eks := w'.eks, st := t' }, os) := by
  cases op with
  | generate =>
    simp only [step, Kem.generate, DecapsulationKey.generate, rand, Res.bind_eq_ok] at h
    obtain ⟨⟨⟨dk, ek⟩, st⟩, ⟨⟨dk', s2⟩, ⟨⟨d, s1⟩, h1, ⟨z, s2'⟩, h2, dk'', h3, h4⟩, h5⟩, h6⟩ := h
    simp only [Res.ok.injEq, Prod.mk.injEq] at h4 h5 h6
    obtain ⟨rfl, rfl⟩ := h4
    obtain ⟨⟨rfl, rfl⟩, rfl⟩ := h5
    obtain ⟨rfl, rfl⟩ := h6
    refine ⟨[d, z], .next h1 (.next h2 (.none _)), rfl, nofun, ?_⟩
    rintro rng2 t t' (_ | ⟨g1, _ | ⟨g2, _ | _⟩⟩)
    simp only [step, Kem.generate, DecapsulationKey.generate, rand, g1, g2, Res.ok_bind, h3]
  | encaps j =>
    simp only [step] at h ⊢
    split at h
    · rename_i ek _
      simp only [EncapsulationKey.encapsulate, rand, Res.bind_eq_ok] at h
      obtain ⟨⟨⟨c, K⟩, st⟩, ⟨⟨m, s1⟩, h1, ck, h2, h3⟩, h4⟩ := h
      simp only [Res.ok.injEq, Prod.mk.injEq] at h3 h4
      obtain ⟨rfl, rfl⟩ := h3
      obtain ⟨rfl, rfl⟩ := h4
      refine ⟨[m], .next h1 (.none _), rfl, fun _ h => absurd rfl (h j), ?_⟩
      rintro rng2 t t' (_ | ⟨g1, _ | _⟩)
      simp only [EncapsulationKey.encapsulate, rand, g1, Res.ok_bind, h2]
    · rename_i hn
      simp only [Res.ok.injEq, Prod.mk.injEq] at h
      obtain ⟨rfl, rfl⟩ := h
      exact ⟨[], .none _, rfl, fun _ _ => rfl, by rintro rng2 t t' (_ | _); simp only⟩
  | generateDet d z =>
    simp only [step, Res.bind_eq_ok] at h
    obtain ⟨⟨dk, ek⟩, h1, h2⟩ := h
    simp only [Res.ok.injEq, Prod.mk.injEq] at h2
    obtain ⟨rfl, rfl⟩ := h2
    refine ⟨[], .none _, rfl, fun _ _ => rfl, ?_⟩
    rintro rng2 t t' (_ | _)
    simp only [step, h1, Res.ok_bind]
  | parseDk b =>
    simp only [step, Res.bind_eq_ok] at h
    obtain ⟨dk, h1, h2⟩ := h
    simp only [Res.ok.injEq, Prod.mk.injEq] at h2
    obtain ⟨rfl, rfl⟩ := h2
    refine ⟨[], .none _, rfl, fun _ _ => rfl, ?_⟩
    rintro rng2 t t' (_ | _)
    simp only [step, h1, Res.ok_bind]
  | parseEk b =>
    simp only [step, Res.bind_eq_ok] at h
    obtain ⟨ek, h1, h2⟩ := h
    simp only [Res.ok.injEq, Prod.mk.injEq] at h2
    obtain ⟨rfl, rfl⟩ := h2
    refine ⟨[], .none _, rfl, fun _ _ => rfl, ?_⟩
    rintro rng2 t t' (_ | _)
    simp only [step, h1, Res.ok_bind]
  | extract i =>
    simp only [step] at h ⊢
    split at h
    · simp only [Res.ok.injEq, Prod.mk.injEq] at h
      obtain ⟨rfl, rfl⟩ := h
      exact ⟨[], .none _, rfl, fun _ _ => rfl, by rintro rng2 t t' (_ | _); simp only⟩
    · simp only [Res.ok.injEq, Prod.mk.injEq] at h
      obtain ⟨rfl, rfl⟩ := h
      exact ⟨[], .none _, rfl, fun _ _ => rfl, by rintro rng2 t t' (_ | _); simp only⟩
  | writeDk i =>
    simp only [step] at h ⊢
    split at h
    · rw [Res.bind_eq_ok] at h
      obtain ⟨b, h1, h2⟩ := h
      simp only [Res.ok.injEq, Prod.mk.injEq] at h2
      obtain ⟨rfl, rfl⟩ := h2
      refine ⟨[], .none _, rfl, fun _ _ => rfl, ?_⟩
      rintro rng2 t t' (_ | _)
      simp only [h1, Res.ok_bind]
    · simp only [Res.ok.injEq, Prod.mk.injEq] at h
      obtain ⟨rfl, rfl⟩ := h
      exact ⟨[], .none _, rfl, fun _ _ => rfl, by rintro rng2 t t' (_ | _); simp only⟩
  | writeEk j =>
    simp only [step] at h ⊢
    split at h
    · rw [Res.bind_eq_ok] at h
      obtain ⟨b, h1, h2⟩ := h
      simp only [Res.ok.injEq, Prod.mk.injEq] at h2
      obtain ⟨rfl, rfl⟩ := h2
      refine ⟨[], .none _, rfl, fun _ _ => rfl, ?_⟩
      rintro rng2 t t' (_ | _)
      simp only [h1, Res.ok_bind]
    · simp only [Res.ok.injEq, Prod.mk.injEq] at h
      obtain ⟨rfl, rfl⟩ := h
      exact ⟨[], .none _, rfl, fun _ _ => rfl, by rintro rng2 t t' (_ | _); simp only⟩
  | encapsDet j m =>
    simp only [step] at h ⊢
    split at h
    · rw [Res.bind_eq_ok] at h
      obtain ⟨⟨c, K⟩, h1, h2⟩ := h
      simp only [Res.ok.injEq, Prod.mk.injEq] at h2
      obtain ⟨rfl, rfl⟩ := h2
      refine ⟨[], .none _, rfl, fun _ _ => rfl, ?_⟩
      rintro rng2 t t' (_ | _)
      simp only [h1, Res.ok_bind]
    · simp only [Res.ok.injEq, Prod.mk.injEq] at h
      obtain ⟨rfl, rfl⟩ := h
      exact ⟨[], .none _, rfl, fun _ _ => rfl, by rintro rng2 t t' (_ | _); simp only⟩
  | decaps i c =>
    simp only [step] at h ⊢
    split at h
    · rw [Res.bind_eq_ok] at h
      obtain ⟨K, h1, h2⟩ := h
      simp only [Res.ok.injEq, Prod.mk.injEq] at h2
      obtain ⟨rfl, rfl⟩ := h2
      refine ⟨[], .none _, rfl, fun _ _ => rfl, ?_⟩
      rintro rng2 t t' (_ | _)
      simp only [h1, Res.ok_bind]
    · simp only [Res.ok.injEq, Prod.mk.injEq] at h
      obtain ⟨rfl, rfl⟩ := h
      exact ⟨[], .none _, rfl, fun _ _ => rfl, by rintro rng2 t t' (_ | _); simp only⟩
  | dropDk i =>
    simp only [step, Res.ok.injEq, Prod.mk.injEq] at h
    obtain ⟨rfl, rfl⟩ := h
    exact ⟨[], .none _, rfl, fun _ _ => rfl, by rintro rng2 t t' (_ | _); rfl⟩
  | dropEk j =>
    simp only [step, Res.ok.injEq, Prod.mk.injEq] at h
    obtain ⟨rfl, rfl⟩ := h
    exact ⟨[], .none _, rfl, fun _ _ => rfl, by rintro rng2 t t' (_ | _); rfl⟩

/-- **C62** A history of ML-KEM calls reads the generator's output in order, each block once: two blocks for
every key pair and one for every encapsulation. What the caller sees depends on the generator only through
those blocks. -/
theorem C62_ml_kem {w w' : World P rng} {ops : List (Op P)} {log} (h : run S w ops = .ok (w', log)) :
    ∃ bs, Draws rng w.st bs w'.st ∧ bs.length = 2 * ops.countP isGenerate + log.countP isEncaps ∧
      ∀ (rng2 : Rng) (t t' : rng2.State), Draws rng2 t bs t' →
        run S ({ dks := w.dks, eks := w.eks, st := t } : World P rng2) ops
          = .ok ({ dks := w'.dks, eks := w'.eks, st := t' }, log) := by
  induction ops generalizing w log with
  | nil =>
    simp only [run, Res.ok.injEq, Prod.mk.injEq] at h
    obtain ⟨rfl, rfl⟩ := h
    exact ⟨[], .none _, rfl, by rintro rng2 t t' (_ | _); rfl⟩
  | cons op ops ih =>
    simp only [run, Res.bind_eq_ok] at h
    obtain ⟨⟨w1, o⟩, h1, ⟨w2, os⟩, h2, h3⟩ := h
    simp only [Res.ok.injEq, Prod.mk.injEq] at h3
    obtain ⟨rfl, rfl⟩ := h3
    obtain ⟨b1, d1, l1, -, r1⟩ := step_tape S h1
    obtain ⟨b2, d2, l2, r2⟩ := ih h2
    refine ⟨b1 ++ b2, d1.append d2, ?_, fun rng2 t t' ht => ?_⟩
    · rw [← List.singleton_append, List.length_append, List.countP_append, List.countP_append, l1, l2]
      omega
    · obtain ⟨t1, g1, g2⟩ := ht.split
      simp only [run, r1 _ _ _ g1, r2 _ _ _ g2, Res.ok_bind]

/-- `det` is `ops` with the blocks written out as arguments of the deterministic calls, in order. -/
inductive Fill : List (Op P) → List (Bytes 32) → List (Op P) → Prop
  | nil : Fill [] [] []
  | generate {ops bs det d z} : Fill ops bs det → Fill (.generate :: ops) (d :: z :: bs) (.generateDet d z :: det)
  | encaps {ops bs det j m} : Fill ops bs det → Fill (.encaps j :: ops) (m :: bs) (.encapsDet j m :: det)
  | other {ops bs det} (op) : Fill ops bs det → Fill (op :: ops) bs (op :: det)

/-- An observation, up to whether the randomness was given by the caller -/
def seen : Obs P → Option (Obs P)
  | .generated .. => none
  | .encapsDet j _ c K => some (.encaps j c K)
  | o => some o

theorem step_fill {w w' : World P rng} {op : Op P} {os} (h : step S w op = .ok (w', os)) :
    ∃ bs op' os', Draws rng w.st bs w'.st ∧
      (∀ ops bs' det, Fill ops bs' det → Fill (op :: ops) (bs ++ bs') (op' :: det)) ∧
      step S ({ dks := w.dks, eks := w.eks, st := () } : World P noRng) op'
        = .ok ({ dks := w'.dks, eks := w'.eks, st := () }, os') ∧
      os'.filterMap seen = os.filterMap seen := by
  have key : ∀ op : Op P, step S w op = .ok (w', os) → w'.st = w.st →
      (∀ (rng2 : Rng) (t t' : rng2.State), Draws rng2 t [] t' →
        step S ({ dks := w.dks, eks := w.eks, st := t } : World P rng2) op
          = .ok ({ dks := w'.dks, eks := w'.eks, st := t' }, os)) → ∃ bs op' os', Draws rng w.st bs w'.st ∧
      (∀ ops bs' det, Fill ops bs' det → Fill (op :: ops) (bs ++ bs') (op' :: det)) ∧
      step S ({ dks := w.dks, eks := w.eks, st := () } : World P noRng) op'
        = .ok ({ dks := w'.dks, eks := w'.eks, st := () }, os') ∧
      os'.filterMap seen = os.filterMap seen := by
    intro op h hst hs
    refine ⟨[], op, os, ?_, fun ops bs det hf => .other op hf, hs noRng () () (.none _), rfl⟩
    rw [hst]; exact .none _
  obtain ⟨bs, d0, l0, n0, r0⟩ := step_tape S h
  by_cases hb : bs = []
  · subst hb
    exact key op h d0.nil.symm r0
  cases op with
  | generate =>
    simp only [step, Kem.generate, DecapsulationKey.generate, rand, Res.bind_eq_ok] at h
    obtain ⟨⟨⟨dk, ek⟩, st⟩, ⟨⟨dk', s2⟩, ⟨⟨d, s1⟩, h1, ⟨z, s2'⟩, h2, dk'', h3, h4⟩, h5⟩, h6⟩ := h
    simp only [Res.ok.injEq, Prod.mk.injEq] at h4 h5 h6
    obtain ⟨rfl, rfl⟩ := h4
    obtain ⟨⟨rfl, rfl⟩, rfl⟩ := h5
    obtain ⟨rfl, rfl⟩ := h6
    refine ⟨[d, z], .generateDet d z, [.generated w.dks.length w.eks.length d z], .next h1 (.next h2 (.none _)), fun ops bs det hf => .generate hf, ?_, ?_⟩
    · simp only [step, Kem.generate_deterministic, h3, Res.ok_bind]
    · rfl
  | encaps j =>
    simp only [step] at h
    split at h
    · rename_i ek he
      simp only [EncapsulationKey.encapsulate, rand, Res.bind_eq_ok] at h
      obtain ⟨⟨⟨c, K⟩, st⟩, ⟨⟨m, s1⟩, h1, ck, h2, h3⟩, h4⟩ := h
      simp only [Res.ok.injEq, Prod.mk.injEq] at h3 h4
      obtain ⟨rfl, rfl⟩ := h3
      obtain ⟨rfl, rfl⟩ := h4
      refine ⟨[m], .encapsDet j m, [.encapsDet j m c K], .next h1 (.none _), fun ops bs det hf => .encaps hf, ?_, rfl⟩
      simp only [step, he, EncapsulationKey.encapsulate_deterministic, h2, Res.ok_bind]
    · simp only [Res.ok.injEq, Prod.mk.injEq] at h
      obtain ⟨rfl, rfl⟩ := h
      exact absurd (List.length_eq_zero_iff.1 l0) hb
  | _ => exact absurd (n0 rfl nofun) hb

/-- **C62** The randomised calls of a history are the deterministic ones on the generator's successive blocks:
with the blocks written out as arguments, the same history runs without a generator, ends with the same keys
and shows the caller the same. -/
theorem C62_derandomised {w w' : World P rng} {ops : List (Op P)} {log} (h : run S w ops = .ok (w', log)) :
    ∃ bs det log', Draws rng w.st bs w'.st ∧ Fill ops bs det ∧
      run S ({ dks := w.dks, eks := w.eks, st := () } : World P noRng) det
        = .ok ({ dks := w'.dks, eks := w'.eks, st := () }, log') ∧
      log'.filterMap seen = log.filterMap seen := by
  induction ops generalizing w log with
  | nil =>
    simp only [run, Res.ok.injEq, Prod.mk.injEq] at h
    obtain ⟨rfl, rfl⟩ := h
    exact ⟨[], [], [], .none _, .nil, rfl, rfl⟩
  | cons op ops ih =>
    simp only [run, Res.bind_eq_ok] at h
    obtain ⟨⟨w1, o⟩, h1, ⟨w2, os⟩, h2, h3⟩ := h
    simp only [Res.ok.injEq, Prod.mk.injEq] at h3
    obtain ⟨rfl, rfl⟩ := h3
    obtain ⟨b1, op', o', d1, f1, r1, e1⟩ := step_fill S h1
    obtain ⟨b2, det, os', d2, f2, r2, e2⟩ := ih h2
    refine ⟨b1 ++ b2, op' :: det, o' ++ os', d1.append d2, f1 _ _ _ f2, ?_, ?_⟩
    · simp only [run, r1, r2, Res.ok_bind]
    · rw [List.filterMap_append, List.filterMap_append, e1, e2]

theorem sample_draws {s s1 s2 s3 : rng.State} {dk ek c K c' K'} (hg : Kem.generate S P rng s = .ok ((dk, ek), s1))
    (h2 : ek.encapsulate S rng s1 = .ok ((c, K), s2)) (h3 : ek.encapsulate S rng s2 = .ok ((c', K'), s3)) :
    ∃ w log bs, run S (start (P := P) s) [.generate, .encaps 0, .encaps 0] = .ok (w, log) ∧
      Draws rng s bs w.st ∧ bs.length = 4 := by
  have hr : run S (start (P := P) (rng := rng) s) [.generate, .encaps 0, .encaps 0]
      = .ok (⟨[some dk], [some ek], s3⟩, [.encaps 0 c K, .encaps 0 c' K']) := by
    simp only [run, step, start, hg, h2, h3, Res.ok_bind, List.nil_append, List.cons_append,
      List.getElem?_cons_zero, List.append_nil]
  obtain ⟨bs, g1, g2, -⟩ := C62_ml_kem S hr
  exact ⟨_, _, bs, hr, g1, g2⟩

/-- A key pair and two encapsulations with the toy primitives: the history runs to the end and reads four
blocks. -/
example (s : Nat) : ∃ w log bs, run Toy.S (start (P := MlKem768Params) (rng := Toy.rng) s)
    [.generate, .encaps 0, .encaps 0] = .ok (w, log) ∧ Draws Toy.rng s bs w.st ∧ bs.length = 4 := by
  obtain ⟨dk, ek, eb, db, h1, -⟩ := C01_keygen_is_fips203 Toy.S supported_768
    (Vector.ofFn fun i => UInt8.ofNat (s + i.val)) (Vector.ofFn fun i => UInt8.ofNat (s + 1 + i.val)) (Toy.seedOk _ _)
  have hg := (((C19_generate_randomness Toy.S MlKem768Params Toy.rng s).1 _ _ _ _ (toy_draw s)
    (toy_draw (s + 1))).1 _).2 ⟨_, h1, rfl⟩
  have he : ∀ t : Nat, ∃ c K, ek.encapsulate Toy.S Toy.rng t = .ok ((c, K), t + 1) := fun t => by
    obtain ⟨_, _, hc⟩ := C02_encaps_is_fips203 Toy.S supported_768 (.generated h1)
      (Vector.ofFn fun i => UInt8.ofNat (t + i.val))
    obtain ⟨c, K, hc, -⟩ := hc (Toy.seedOk _ _)
    exact ⟨c, K, (((C20_encapsulate_randomness Toy.S ek Toy.rng t).1 _ _ (toy_draw t)).1 _).2 ⟨_, hc, rfl⟩⟩
  obtain ⟨c, K, h2⟩ := he (s + 1 + 1)
  obtain ⟨c', K', h3⟩ := he (s + 1 + 1 + 1)
  exact sample_draws Toy.S hg h2 h3

end MlKem.History

namespace XWing.History
open Rust MlKem Fips203

variable [Build] (S : Sha3) (X : X25519) {rng : Rng}

/-- Encapsulations that returned -/
def isEncaps : Obs → Bool
  | .encaps .. => true
  | _ => false

/-- Generations of secret keys -/
def isGenerate : Op → Bool
  | .generate => true
  | .generateSk => true
  | _ => false

theorem step_tape {w w' : World rng} {op : Op} {os} (h : step S X w op = .ok (w', os)) :
    ∃ bs, Draws rng w.st bs w'.st ∧
      bs.length = [op].countP isGenerate + 2 * os.countP isEncaps ∧
      ∀ (rng2 : Rng) (t t' : rng2.State), Draws rng2 t bs t' →
        step S X ({ sks := w.sks, pks := w.pks, st := t } : World rng2) op
          = .ok ({ sks := w'.sks, pks := w'.pks, st := t' }, os) := by
  cases op with
  | generate =>
    simp only [step, generate_key_pair, DecapsulationKey.generate, XWing.generate, Res.bind_eq_ok] at h
    obtain ⟨⟨⟨dk, ek⟩, st⟩, ⟨⟨dk', s2⟩, ⟨⟨d, s1⟩, h1, h4⟩, pk, h3, h5⟩, h6⟩ := h
    simp only [Res.ok.injEq, Prod.mk.injEq] at h4 h5 h6
    obtain ⟨rfl, rfl⟩ := h4
    obtain ⟨⟨rfl, rfl⟩, rfl⟩ := h5
    obtain ⟨rfl, rfl⟩ := h6
    refine ⟨[d], .next h1 (.none _), rfl, ?_⟩
    rintro rng2 t t' (_ | ⟨g1, _ | _⟩)
    simp only [step, generate_key_pair, DecapsulationKey.generate, XWing.generate, g1, Res.ok_bind, h3]
  | generateSk =>
    simp only [step, DecapsulationKey.generate, XWing.generate, Res.bind_eq_ok] at h
    obtain ⟨⟨dk, st⟩, ⟨⟨d, s1⟩, h1, h4⟩, h6⟩ := h
    simp only [Res.ok.injEq, Prod.mk.injEq] at h4 h6
    obtain ⟨rfl, rfl⟩ := h4
    obtain ⟨rfl, rfl⟩ := h6
    refine ⟨[d], .next h1 (.none _), rfl, ?_⟩
    rintro rng2 t t' (_ | ⟨g1, _ | _⟩)
    simp only [step, DecapsulationKey.generate, XWing.generate, g1, Res.ok_bind]
  | encaps j =>
    simp only [step] at h ⊢
    split at h
    · simp only [EncapsulationKey.encapsulate, MlKem.EncapsulationKey.encapsulate, rand, XWing.generate,
        Res.bind_eq_ok] at h
      obtain ⟨⟨⟨ct, ss⟩, st⟩, ⟨⟨⟨ct_m, ss_m⟩, s1⟩, ⟨⟨m, s1'⟩, h1, ck, h2, h3⟩, ⟨e, s2⟩, h4, h5⟩, c, h6, h7⟩ := h
      simp only [Res.ok.injEq, Prod.mk.injEq] at h3 h5 h7
      obtain ⟨rfl, rfl⟩ := h3
      obtain ⟨⟨rfl, rfl⟩, rfl⟩ := h5
      obtain ⟨rfl, rfl⟩ := h7
      refine ⟨[m, e], .next h1 (.next h4 (.none _)), rfl, ?_⟩
      rintro rng2 t t' (_ | ⟨g1, _ | ⟨g2, _ | _⟩⟩)
      simp only [EncapsulationKey.encapsulate, MlKem.EncapsulationKey.encapsulate, rand, XWing.generate, g1, g2,
        Res.ok_bind, h2]
      simp only [h6, Res.ok_bind]
    · simp only [Res.ok.injEq, Prod.mk.injEq] at h
      obtain ⟨rfl, rfl⟩ := h
      exact ⟨[], .none _, rfl, by rintro rng2 t t' (_ | _); simp only⟩
  | parseSk b =>
    simp only [step, Res.ok.injEq, Prod.mk.injEq] at h
    obtain ⟨rfl, rfl⟩ := h
    exact ⟨[], .none _, rfl, by rintro rng2 t t' (_ | _); rfl⟩
  | parsePk b =>
    simp only [step, Res.bind_eq_ok] at h
    obtain ⟨pk, h1, h2⟩ := h
    simp only [Res.ok.injEq, Prod.mk.injEq] at h2
    obtain ⟨rfl, rfl⟩ := h2
    refine ⟨[], .none _, rfl, ?_⟩
    rintro rng2 t t' (_ | _)
    simp only [step, h1, Res.ok_bind]
  | derive i =>
    simp only [step] at h ⊢
    split at h
    · rw [Res.bind_eq_ok] at h
      obtain ⟨pk, h1, h2⟩ := h
      simp only [Res.ok.injEq, Prod.mk.injEq] at h2
      obtain ⟨rfl, rfl⟩ := h2
      refine ⟨[], .none _, rfl, ?_⟩
      rintro rng2 t t' (_ | _)
      simp only [h1, Res.ok_bind]
    · simp only [Res.ok.injEq, Prod.mk.injEq] at h
      obtain ⟨rfl, rfl⟩ := h
      exact ⟨[], .none _, rfl, by rintro rng2 t t' (_ | _); simp only⟩
  | writeSk i =>
    simp only [step] at h ⊢
    split at h
    · simp only [Res.ok.injEq, Prod.mk.injEq] at h
      obtain ⟨rfl, rfl⟩ := h
      exact ⟨[], .none _, rfl, by rintro rng2 t t' (_ | _); simp only⟩
    · simp only [Res.ok.injEq, Prod.mk.injEq] at h
      obtain ⟨rfl, rfl⟩ := h
      exact ⟨[], .none _, rfl, by rintro rng2 t t' (_ | _); simp only⟩
  | writePk j =>
    simp only [step] at h ⊢
    split at h
    · rw [Res.bind_eq_ok] at h
      obtain ⟨b, h1, h2⟩ := h
      simp only [Res.ok.injEq, Prod.mk.injEq] at h2
      obtain ⟨rfl, rfl⟩ := h2
      refine ⟨[], .none _, rfl, ?_⟩
      rintro rng2 t t' (_ | _)
      simp only [h1, Res.ok_bind]
    · simp only [Res.ok.injEq, Prod.mk.injEq] at h
      obtain ⟨rfl, rfl⟩ := h
      exact ⟨[], .none _, rfl, by rintro rng2 t t' (_ | _); simp only⟩
  | decaps i c =>
    simp only [step] at h ⊢
    split at h
    · simp only [Res.bind_eq_ok] at h
      obtain ⟨ct, h1, ss, h2, h3⟩ := h
      simp only [Res.ok.injEq, Prod.mk.injEq] at h3
      obtain ⟨rfl, rfl⟩ := h3
      refine ⟨[], .none _, rfl, ?_⟩
      rintro rng2 t t' (_ | _)
      simp only [h1, h2, Res.ok_bind]
    · simp only [Res.ok.injEq, Prod.mk.injEq] at h
      obtain ⟨rfl, rfl⟩ := h
      exact ⟨[], .none _, rfl, by rintro rng2 t t' (_ | _); simp only⟩
  | dropSk i =>
    simp only [step, Res.ok.injEq, Prod.mk.injEq] at h
    obtain ⟨rfl, rfl⟩ := h
    exact ⟨[], .none _, rfl, by rintro rng2 t t' (_ | _); rfl⟩
  | dropPk j =>
    simp only [step, Res.ok.injEq, Prod.mk.injEq] at h
    obtain ⟨rfl, rfl⟩ := h
    exact ⟨[], .none _, rfl, by rintro rng2 t t' (_ | _); rfl⟩

/-- **C62** A history of X-Wing calls reads the generator's output in order, each block once: one block for
every secret key and two for every encapsulation. What the caller sees depends on the generator only through
those blocks. -/
theorem C62_xwing {w w' : World rng} {ops : List Op} {log} (h : run S X w ops = .ok (w', log)) :
    ∃ bs, Draws rng w.st bs w'.st ∧ bs.length = ops.countP isGenerate + 2 * log.countP isEncaps ∧
      ∀ (rng2 : Rng) (t t' : rng2.State), Draws rng2 t bs t' →
        run S X ({ sks := w.sks, pks := w.pks, st := t } : World rng2) ops
          = .ok ({ sks := w'.sks, pks := w'.pks, st := t' }, log) := by
  induction ops generalizing w log with
  | nil =>
    simp only [run, Res.ok.injEq, Prod.mk.injEq] at h
    obtain ⟨rfl, rfl⟩ := h
    exact ⟨[], .none _, rfl, by rintro rng2 t t' (_ | _); rfl⟩
  | cons op ops ih =>
    simp only [run, Res.bind_eq_ok] at h
    obtain ⟨⟨w1, o⟩, h1, ⟨w2, os⟩, h2, h3⟩ := h
    simp only [Res.ok.injEq, Prod.mk.injEq] at h3
    obtain ⟨rfl, rfl⟩ := h3
    obtain ⟨b1, d1, l1, r1⟩ := step_tape S X h1
    obtain ⟨b2, d2, l2, r2⟩ := ih h2
    refine ⟨b1 ++ b2, d1.append d2, ?_, fun rng2 t t' ht => ?_⟩
    · rw [← List.singleton_append, List.length_append, List.countP_append, List.countP_append, l1, l2]
      omega
    · obtain ⟨t1, g1, g2⟩ := ht.split
      simp only [run, r1 _ _ _ g1, r2 _ _ _ g2, Res.ok_bind]

theorem sample_draws {s s1 s2 : rng.State} {sk pk ct ss c} (hg : generate_key_pair S X rng s = .ok ((sk, pk), s1))
    (h2 : pk.encapsulate S X rng s1 = .ok ((ct, ss), s2)) (h3 : ct.as_bytes = .ok c) :
    ∃ w log bs, run S X (start s) [.generate, .encaps 0] = .ok (w, log) ∧
      Draws rng s bs w.st ∧ bs.length = 3 := by
  have hr : run S X (start (rng := rng) s) [.generate, .encaps 0]
      = .ok (⟨[some sk], [some pk], s2⟩, [.derived 0 0, .encaps 0 c ss]) := by
    simp only [run, step, start, hg, h2, h3, Res.ok_bind, List.nil_append, List.cons_append,
      List.getElem?_cons_zero, List.append_nil, List.length_nil]
  obtain ⟨bs, g1, g2, -⟩ := C62_xwing S X hr
  exact ⟨_, _, bs, hr, g1, g2⟩

/-- A key pair and an encapsulation with the toy primitives: the history runs to the end and reads three
blocks. -/
example (s : Nat) : ∃ w log bs, run Toy.S toyX (start (rng := Toy.rng) s) [.generate, .encaps 0] = .ok (w, log) ∧
    Draws Toy.rng s bs w.st ∧ bs.length = 3 := by
  obtain ⟨pk, b, h1, -⟩ := C38_keygen Toy.S toyX toyX_base
    (DecapsulationKey.from_bytes (Vector.ofFn fun i => UInt8.ofNat (s + i.val))) (Toy.seedOk _ _)
  have hgen := ((C40_randomness Toy.S toyX Toy.rng s).1 _).2 ⟨_, s + 1, pk, rfl, h1, rfl⟩
  obtain ⟨pb, h2, h3⟩ := C38_encaps Toy.S toyX (.derived h1) (rng := Toy.rng) (s := s + 1) rfl rfl
  obtain ⟨ct, ss, cb, h4, h5, -⟩ := h3 (Toy.seedOk _ _)
  exact sample_draws Toy.S toyX hgen h4 h5

end XWing.History
