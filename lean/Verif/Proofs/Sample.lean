import Verif.Model.Sample
import Verif.Proofs.Codec
import Verif.Proofs.Tables
/-! The samplers of the model compute `SamplePolyCBD` and `SampleNTT`. -/
namespace MlKem
open Rust MInt Fips203 FieldElement

variable [Build]

/-! ### Centred binomial -/

omit [Build] in
theorem ofBits_add (a b : Nat) (f : Nat → Bool) :
    ofBits (a + b) f = ofBits a f + 2 ^ a * ofBits b (fun j => f (a + j)) := by
  induction b with
  | zero => simp [ofBits]
  | succ b ih =>
    rw [← Nat.add_assoc, ofBits_succ, ih, ofBits_succ, Nat.pow_add]
    ring

omit [Build] in
theorem cbd_sum (eta : Nat) (B : List UInt8) (i : Fin 256) :
    (∑ j ∈ Finset.range eta,
        (((ofBits eta fun j => bit B (2 * i.val * eta + j)).testBit j).toNat : Zq))
      - ∑ j ∈ Finset.range eta,
        (((ofBits eta fun j => bit B (2 * i.val * eta + eta + j)).testBit j).toNat : Zq)
      = SamplePolyCBD eta B i := by
  rw [SamplePolyCBD]
  have h1 : ∀ f : Nat → Bool, (∑ j ∈ Finset.range eta, (((ofBits eta f).testBit j).toNat : Zq))
      = ∑ j ∈ Finset.range eta, ((f j).toNat : Zq) := by
    intro f
    apply Finset.sum_congr rfl
    intro j hj
    rw [testBit_ofBits]; simp [Finset.mem_range.mp hj]
  rw [h1, h1]

theorem cbd_ok (Eta : CbdSize) (B : EncodedPolynomial Eta.SampleSize) :
    Polynomial.sample_cbd Eta B = .ok ⟨polyVec (SamplePolyCBD Eta.toNat B.toList)⟩ := by
  unfold Polynomial.sample_cbd Polynomial.decode
  cases Eta with
  | U2 =>
    rw [byte_decode_raw (by decide) (by decide)]
    simp only [Res.ok_bind]
    rw [mapVec_ok (g := fun i => ofZ (SamplePolyCBD 2 B.toList i)), ofFn_eq_polyVec]
    · rfl
    intro i
    rw [Fin.getElem_fin, rawVec_getElem]
    have hd : ByteDecode 4 B.toList i = ofBits 2 (fun j => bit B.toList (2 * i.val * 2 + j))
        + 4 * ofBits 2 (fun j => bit B.toList (2 * i.val * 2 + 2 + j)) := by
      rw [ByteDecode, if_neg (by decide), Nat.mod_eq_of_lt (ofBits_lt _ _), ofBits_add 2 2]
      congr 1
      · exact ofBits_congr fun j _ => by congr 1; omega
      · congr 1; exact ofBits_congr fun j _ => by congr 1; omega
    have hx := ofBits_lt 2 (fun j => bit B.toList (2 * i.val * 2 + j))
    have hy := ofBits_lt 2 (fun j => bit B.toList (2 * i.val * 2 + 2 + j))
    have t := ones_table_2 ⟨_, hx⟩ ⟨_, hy⟩
    simp only at t
    change idx (CbdSize.ONES .U2) (ofN (ByteDecode 4 B.toList i)).val.toNat = _
    rw [hd, ofN_val (by omega), idx_ok _ (by show _ < 16; omega), t]
    rw [cbd_sum]
  | U3 =>
    rw [byte_decode_raw (by decide) (by decide)]
    simp only [Res.ok_bind]
    rw [mapVec_ok (g := fun i => ofZ (SamplePolyCBD 3 B.toList i)), ofFn_eq_polyVec]
    · rfl
    intro i
    rw [Fin.getElem_fin, rawVec_getElem]
    have hd : ByteDecode 6 B.toList i = ofBits 3 (fun j => bit B.toList (2 * i.val * 3 + j))
        + 8 * ofBits 3 (fun j => bit B.toList (2 * i.val * 3 + 3 + j)) := by
      rw [ByteDecode, if_neg (by decide), Nat.mod_eq_of_lt (ofBits_lt _ _), ofBits_add 3 3]
      congr 1
      · exact ofBits_congr fun j _ => by congr 1; omega
      · congr 1; exact ofBits_congr fun j _ => by congr 1; omega
    have hx := ofBits_lt 3 (fun j => bit B.toList (2 * i.val * 3 + j))
    have hy := ofBits_lt 3 (fun j => bit B.toList (2 * i.val * 3 + 3 + j))
    have t := ones_table_3 ⟨_, hx⟩ ⟨_, hy⟩
    simp only at t
    change idx (CbdSize.ONES .U3) (ofN (ByteDecode 6 B.toList i)).val.toNat = _
    rw [hd, ofN_val (by omega), idx_ok _ (by show _ < 64; omega), t]
    rw [cbd_sum]

/-! ### Rejection sampling -/

/-- The reader has consumed the first `o` bytes of the stream `s`. -/
structure At (s : Nat → UInt8) (o : Nat) (r : FieldElementReader) : Prop where
  stream : r.xof.stream = s
  start : r.start ≤ 96
  mod3 : r.start % 3 = 0
  pos : r.xof.pos + r.start = o + 96
  base : 96 ≤ r.xof.pos
  data : ∀ (i : Nat) (h : i < 96), r.data[i] = s (r.xof.pos - 96 + i)

/-- The body of the loop of `FieldElementReader::next`, with the recursive call abstracted -/
def loopBody (f : FieldElementReader → Res (FieldElement × FieldElementReader))
    (self : FieldElementReader) : Res (FieldElement × FieldElementReader) := do
  let self :=
    if self.start == 96 then
      let (data, xof) := self.xof.read 96
      { self with data, xof, start := 0 }
    else self
  let stop ← addUsize self.start 3
  let b0 ← idx self.data self.start
  let b1 ← idx self.data (self.start + 1)
  let b2 ← idx self.data (self.start + 2)
  let self := { self with start := stop }
  let d1 ← Rust.add (cast b0 : UInt16) (← Rust.shl (Rust.and (cast b1 : UInt16) 0xf) 8)
  let d2 ← Rust.add (← Rust.shr (cast b1 : UInt16) 4) (← Rust.shl (cast b2 : UInt16) 4)
  if Rust.lt d1 FieldElement.Q then
    let self := if Rust.lt d2 FieldElement.Q then { self with next := some d2 } else self
    .ok (⟨d1⟩, self)
  else if Rust.lt d2 FieldElement.Q then
    .ok (⟨d2⟩, self)
  else
    f self

theorem nextLoop_eq (r : FieldElementReader) :
    r.nextLoop = loopBody FieldElementReader.nextLoop r := by
  rw [FieldElementReader.nextLoop]; rfl

theorem cand_bytes (b0 b1 b2 : UInt8) :
    (∃ d1 : UInt16, Rust.add (cast b0 : UInt16)
        (ofNat (toNat (Rust.and (cast b1 : UInt16) 0xf) * 2 ^ 8)) = .ok d1 ∧
      d1 = UInt16.ofNat (b0.toNat + 256 * (b1.toNat % 16))) ∧
    (∃ d2 : UInt16, Rust.add (ofNat (toNat (cast b1 : UInt16) / 2 ^ 4))
        (ofNat (toNat (cast b2 : UInt16) * 2 ^ 4)) = .ok d2 ∧
      d2 = UInt16.ofNat (b1.toNat / 16 + 16 * b2.toNat)) := by
  have h0 := b0.toNat_lt
  have h1 := b1.toNat_lt
  have h2 := b2.toNat_lt
  have c : ∀ b : UInt8, toNat (cast b : UInt16) = b.toNat := fun b => by
    rw [toNat_cast_le (by simp), toNat_u8]
  have a1 : toNat (Rust.and (cast b1 : UInt16) 0xf) = b1.toNat % 16 := by
    rw [toNat_and, c, show toNat (0xf : UInt16) = 2 ^ 4 - 1 from rfl, Nat.and_two_pow_sub_one_eq_mod]
  constructor
  · have e1 : toNat (ofNat (b1.toNat % 16 * 2 ^ 8) : UInt16) = b1.toNat % 16 * 2 ^ 8 :=
      toNat_ofNat_lt (by simp only [bits_u16]; omega)
    rw [a1, add_ok (by rw [c, e1]; simp only [bits_u16]; omega), c, e1]
    exact ⟨_, rfl, by rw [show b1.toNat % 16 * 2 ^ 8 = 256 * (b1.toNat % 16) by omega]; rfl⟩
  · have e1 : toNat (ofNat (b2.toNat * 2 ^ 4) : UInt16) = b2.toNat * 2 ^ 4 :=
      toNat_ofNat_lt (by simp only [bits_u16]; omega)
    have e2 : toNat (ofNat (b1.toNat / 2 ^ 4) : UInt16) = b1.toNat / 2 ^ 4 :=
      toNat_ofNat_lt (by simp only [bits_u16]; omega)
    rw [c, c, add_ok (by rw [e1, e2]; simp only [bits_u16]; omega), e1, e2]
    exact ⟨_, rfl, by
      rw [show b1.toNat / 2 ^ 4 + b2.toNat * 2 ^ 4 = b1.toNat / 16 + 16 * b2.toNat by omega]; rfl⟩

omit [Build] in
theorem candidate_lt (s : Nat → UInt8) (n : Nat) : candidate s n < 4096 := by
  unfold candidate
  have h0 := (s (3 * (n / 2))).toNat_lt
  have h1 := (s (3 * (n / 2) + 1)).toNat_lt
  have h2 := (s (3 * (n / 2) + 2)).toNat_lt
  simp only
  split <;> omega

omit [Build] in
theorem lt_Q {n : Nat} (h : n < 4096) : Rust.lt (UInt16.ofNat n) FieldElement.Q = decide (n < 3329) := by
  have : toNat (UInt16.ofNat n) = n := u16_toNat_ofNat (by omega)
  have hq : toNat FieldElement.Q = 3329 := rfl
  simp [Rust.lt, this, hq]

/-- One iteration: the two candidates of the next three bytes are examined. -/
theorem loopBody_step {s : Nat → UInt8} {j : Nat} {r : FieldElementReader}
    (h : At s (3 * j) r) (hn : r.next = none) :
    ∃ r2, At s (3 * (j + 1)) r2 ∧ r2.next = none ∧
      ∀ f, loopBody f r =
        if candidate s (2 * j) < 3329 then
          .ok (ofN (candidate s (2 * j)),
            if candidate s (2 * j + 1) < 3329 then
              { r2 with next := some (UInt16.ofNat (candidate s (2 * j + 1))) } else r2)
        else if candidate s (2 * j + 1) < 3329 then .ok (ofN (candidate s (2 * j + 1)), r2)
        else f r2 := by
  -- after the possible refill
  obtain ⟨r1, hr1, hat, hst, hnone⟩ : ∃ r1 : FieldElementReader,
      (if r.start == 96 then
        { r with data := (r.xof.read 96).1, xof := (r.xof.read 96).2, start := 0 } else r) = r1 ∧
      At s (3 * j) r1 ∧ r1.start < 96 ∧ r1.next = none := by
    by_cases h96 : r.start = 96
    · refine ⟨{ r with data := (r.xof.read 96).1, xof := (r.xof.read 96).2, start := 0 },
        if_pos (by simp [h96]), ?_, by simp, hn⟩
      have hp := h.pos
      refine ⟨h.stream, by simp, by simp, ?_, by simp [XofReader.read], ?_⟩
      · simp [XofReader.read]; omega
      · intro i hi
        simp [XofReader.read, h.stream]
    · exact ⟨r, if_neg (by simp [h96]), h, by have := h.start; omega, hn⟩
  have hm := hat.mod3
  have hp := hat.pos
  have hb := hat.base
  have c0 : candidate s (2 * j) = (s (3 * j)).toNat + 256 * ((s (3 * j + 1)).toNat % 16) := by
    simp [candidate]
  have c1 : candidate s (2 * j + 1) = (s (3 * j + 1)).toNat / 16 + 16 * (s (3 * j + 2)).toNat := by
    have e1 : (2 * j + 1) / 2 = j := by omega
    have e2 : ¬ (2 * j + 1) % 2 = 0 := by omega
    simp only [candidate, e1, if_neg e2]
  refine ⟨{ r1 with start := r1.start + 3 }, ⟨hat.stream, by simp; omega, by simp; omega,
    by simp; omega, hb, hat.data⟩, hnone, fun f => ?_⟩
  obtain ⟨⟨d1, hd1, hd1'⟩, ⟨d2, hd2, hd2'⟩⟩ := cand_bytes (s (3 * j)) (s (3 * j + 1)) (s (3 * j + 2))
  unfold loopBody
  simp only [hr1]
  have e0 : r1.xof.pos - 96 + r1.start = 3 * j := by omega
  rw [addUsize_ok (by omega), Res.ok_bind, idx_ok _ hst, idx_ok _ (by omega : r1.start + 1 < 96), idx_ok _ (by omega : r1.start + 2 < 96),
    hat.data _ hst, hat.data _ (by omega), hat.data _ (by omega), ← Nat.add_assoc, ← Nat.add_assoc, e0]
  simp only [Res.ok_bind]
  rw [shl_ok (by simp), shr_ok (by simp), shl_ok (by simp)]
  simp only [Res.ok_bind]
  rw [hd1, Res.ok_bind, hd2, Res.ok_bind, hd1', hd2', ← c0, ← c1,
    lt_Q (candidate_lt s _), lt_Q (candidate_lt s _)]
  simp only [decide_eq_true_eq]
  rfl

/-- The next candidate to be examined is number `c`. -/
inductive Pos (s : Nat → UInt8) (c : Nat) (r : FieldElementReader) : Prop where
  | even (j : Nat) (hc : c = 2 * j) (hn : r.next = none) (h : At s (3 * j) r)
  | odd (j : Nat) (hc : c = 2 * j + 1) (hn : r.next = some (UInt16.ofNat (candidate s c)))
      (hlt : candidate s c < 3329) (h : At s (3 * (j + 1)) r)

/-- `k` values have been returned. -/
def Returned (s : Nat → UInt8) (k : Nat) (r : FieldElementReader) : Prop :=
  ∃ c, Pos s c r ∧ Nat.count (fun n => candidate s n < 3329) c = k

omit [Build] in
theorem At.withNext {s : Nat → UInt8} {o : Nat} {r : FieldElementReader} (h : At s o r)
    (n : Option UInt16) : At s o { r with next := n } :=
  ⟨h.stream, h.start, h.mod3, h.pos, h.base, h.data⟩

/-- While an acceptable candidate lies ahead, the loop returns the first one. -/
theorem nextLoop_ok {s : Nat → UInt8} {m : Nat} (hm : candidate s m < 3329) :
    ∀ {d j : Nat} {r : FieldElementReader}, d = m - 2 * j → 2 * j ≤ m →
      Nat.count (fun n => candidate s n < 3329) (2 * j)
        = Nat.count (fun n => candidate s n < 3329) m →
      At s (3 * j) r → r.next = none →
      ∃ r', r.nextLoop = .ok (ofN (candidate s m), r') ∧
        Returned s (Nat.count (fun n => candidate s n < 3329) m + 1) r' := by
  intro d
  induction d using Nat.strong_induction_on with
  | _ d ih =>
    intro j r hd hj hcount hat hn
    obtain ⟨r2, hat2, hn2, hstep⟩ := loopBody_step hat hn
    rw [nextLoop_eq, hstep]
    -- no candidate in [2j, m) is acceptable
    have hno : ∀ n, 2 * j ≤ n → n < m → ¬ candidate s n < 3329 := by
      intro n h1 h2 h3
      have a := Nat.count_strict_mono (p := fun n => candidate s n < 3329) h3 h2
      have b := Nat.count_monotone (fun n => candidate s n < 3329) h1
      omega
    have hs1 : Nat.count (fun n => candidate s n < 3329) (m + 1)
        = Nat.count (fun n => candidate s n < 3329) m + 1 := by
      rw [Nat.count_succ, if_pos hm]
    by_cases h0 : m = 2 * j
    · rw [if_pos (by rw [← h0]; exact hm), ← h0]
      refine ⟨_, rfl, ?_⟩
      by_cases h1 : candidate s (2 * j + 1) < 3329
      · rw [h0, if_pos h1]
        refine ⟨2 * j + 1, .odd j rfl rfl h1 (hat2.withNext _), ?_⟩
        rw [← h0]; exact hs1
      · rw [h0, if_neg h1]
        refine ⟨2 * (j + 1), .even (j + 1) rfl hn2 hat2, ?_⟩
        rw [show 2 * (j + 1) = 2 * j + 1 + 1 by omega, Nat.count_succ, if_neg h1, ← h0]
        exact hs1
    · rw [if_neg (hno _ (by omega) (by omega))]
      by_cases h1 : m = 2 * j + 1
      · rw [if_pos (by rw [← h1]; exact hm), ← h1]
        refine ⟨_, rfl, 2 * (j + 1), .even (j + 1) rfl hn2 hat2, ?_⟩
        rw [show 2 * (j + 1) = m + 1 by omega]
        exact hs1
      · rw [if_neg (hno _ (by omega) (by omega))]
        refine ih (m - 2 * (j + 1)) (by omega) rfl (by omega) ?_ hat2 hn2
        rw [← hcount, show 2 * (j + 1) = 2 * j + 1 + 1 by omega, Nat.count_succ, Nat.count_succ,
          if_neg (hno _ (by omega) (by omega)), if_neg (hno _ (by omega) (by omega))]
        rfl

/-- With no acceptable candidate ahead, the loop never ends. -/
theorem nextLoop_div {s : Nat → UInt8} :
    ∀ (r : FieldElementReader) (j : Nat), At s (3 * j) r → r.next = none →
      (∀ n, 2 * j ≤ n → ¬ candidate s n < 3329) → r.nextLoop = .div := by
  apply FieldElementReader.nextLoop.fixpoint_induct
    (motive := fun f => ∀ (r : FieldElementReader) (j : Nat), At s (3 * j) r → r.next = none →
      (∀ n, 2 * j ≤ n → ¬ candidate s n < 3329) → f r = .div)
  · apply Lean.Order.admissible_pi_apply
      (P := fun r (y : Res (FieldElement × FieldElementReader)) => ∀ j : Nat, At s (3 * j) r →
        r.next = none → (∀ n, 2 * j ≤ n → ¬ candidate s n < 3329) → y = .div)
    intro r
    apply Lean.Order.admissible_flatOrder
    intros; rfl
  · intro f ih r j hat hn hno
    obtain ⟨r2, hat2, hn2, hstep⟩ := loopBody_step hat hn
    change loopBody f r = .div
    rw [hstep, if_neg (hno _ (by omega)), if_neg (hno _ (by omega))]
    exact ih r2 (j + 1) hat2 hn2 (fun n h => hno n (by omega))

theorem getNext_ok {s : Nat → UInt8} {k m : Nat} {r : FieldElementReader} (h : Returned s k r)
    (hm : candidate s m < 3329) (hk : Nat.count (fun n => candidate s n < 3329) m = k) :
    ∃ r', r.getNext = .ok (ofN (candidate s m), r') ∧ Returned s (k + 1) r' := by
  obtain ⟨c, hpos, hc⟩ := h
  have hcm : c ≤ m := by
    by_contra hlt
    have := Nat.count_strict_mono (p := fun n => candidate s n < 3329) hm (by omega : m < c)
    omega
  cases hpos with
  | even j hj hn hat =>
    obtain ⟨r', h1, h2⟩ := nextLoop_ok hm (j := j) rfl (by omega) (by rw [← hj, hc, hk]) hat hn
    refine ⟨r', ?_, by rw [← hk]; exact h2⟩
    rw [FieldElementReader.getNext, hn]; exact h1
  | odd j hj hn hlt hat =>
    have : m = c := by
      by_contra hne
      have := Nat.count_strict_mono (p := fun n => candidate s n < 3329) hlt (by omega : c < m)
      omega
    subst this
    refine ⟨{ r with next := none }, ?_, 2 * (j + 1), .even (j + 1) rfl rfl (hat.withNext _), ?_⟩
    · rw [FieldElementReader.getNext, hn]; rfl
    · rw [show 2 * (j + 1) = m + 1 by omega, Nat.count_succ, if_pos hm, hk]

theorem getNext_div {s : Nat → UInt8} {k : Nat} {r : FieldElementReader} (h : Returned s k r)
    (hno : ∀ m, Nat.count (fun n => candidate s n < 3329) m = k → ¬ candidate s m < 3329) :
    r.getNext = .div := by
  obtain ⟨c, hpos, hc⟩ := h
  cases hpos with
  | even j hj hn hat =>
    rw [FieldElementReader.getNext, hn]
    refine nextLoop_div r j hat hn ?_
    -- the count stays at k
    intro n hle
    induction n using Nat.strong_induction_on with
    | _ n ih =>
      refine hno n ?_
      have : ∀ t, 2 * j + t ≤ n → Nat.count (fun n => candidate s n < 3329) (2 * j + t) = k := by
        intro t
        induction t with
        | zero => intro _; rw [Nat.add_zero, ← hj, hc]
        | succ t iht =>
          intro ht
          rw [← Nat.add_assoc, Nat.count_succ, if_neg (ih (2 * j + t) (by omega) (by omega)),
            iht (by omega)]
          rfl
      have := this (n - 2 * j) (by omega)
      rwa [show 2 * j + (n - 2 * j) = n by omega] at this
  | odd j hj hn hlt hat => exact absurd hlt (hno c hc)

omit [Build] in
theorem returned_new (s : Nat → UInt8) :
    Returned s 0 (FieldElementReader.new { stream := s, pos := 0 }) := by
  refine ⟨0, .even 0 rfl rfl ⟨rfl, by simp [FieldElementReader.new], by simp [FieldElementReader.new],
    by simp [FieldElementReader.new, XofReader.read], by simp [FieldElementReader.new, XofReader.read],
    ?_⟩, by simp⟩
  intro i hi
  simp [FieldElementReader.new, XofReader.read]

omit [Build] in
theorem exists_of_count {p : Nat → Prop} [DecidablePred p] {k N : Nat} (h : k < Nat.count p N) :
    ∃ m, p m ∧ Nat.count p m = k := by
  induction N with
  | zero => simp at h
  | succ N ih =>
    rw [Nat.count_succ] at h
    by_cases hk : k < Nat.count p N
    · exact ih hk
    · split at h
      · exact ⟨N, by assumption, by omega⟩
      · omega

/-- Sampling from a stream with 256 acceptable candidates -/
theorem sample_uniform_ok {s : Nat → UInt8} (h : Accepts s) :
    NttPolynomial.sample_uniform { stream := s, pos := 0 } = .ok ⟨polyVec (SampleNTT s)⟩ := by
  obtain ⟨N, hN⟩ := h
  unfold NttPolynomial.sample_uniform
  dsimp only
  obtain ⟨s', h1, _⟩ := tabulateState_inv (n := 256) (f := fun _ r => FieldElementReader.getNext r)
    (s0 := FieldElementReader.new { stream := s, pos := 0 })
    (Returned s) (fun i => ofZ (SampleNTT s i)) (returned_new s) (by
      intro i r hr
      obtain ⟨m, hm, hc⟩ := exists_of_count (Nat.lt_of_lt_of_le i.isLt hN)
      obtain ⟨r', h1, h2⟩ := getNext_ok hr hm hc
      refine ⟨r', ?_, h2⟩
      rw [h1]
      have : candidate s m = (SampleNTT s i).val := by
        rw [SampleNTT, ← hc, Nat.nth_count (p := fun n => candidate s n < 3329) hm,
          ZMod.val_natCast, Nat.mod_eq_of_lt hm]
      rw [this, ofZ_eq_ofN])
  rw [h1, ofFn_eq_polyVec]
  rfl

omit [Build] in
theorem tabulateState_div {α σ : Type} {n : Nat} {f : Fin n → σ → Res (α × σ)} {s0 : σ}
    (I : Nat → σ → Prop) (h0 : I 0 s0)
    (hs : ∀ (i : Fin n) s, I i.val s → (∃ a s', f i s = .ok (a, s') ∧ I (i.val + 1) s') ∨ f i s = .div) :
    (∃ v s', tabulateState n f s0 = .ok (v, s') ∧ I n s') ∨ tabulateState n f s0 = .div := by
  induction n with
  | zero => exact .inl ⟨_, s0, rfl, h0⟩
  | succ n ih =>
    rcases ih (f := fun i => f i.castSucc) (fun i s hi => hs i.castSucc s hi) with ⟨v, s1, h1, hI1⟩ | h1
    · rcases hs (Fin.last n) s1 hI1 with ⟨a, s2, h2, hI2⟩ | h2
      · exact .inl ⟨_, s2, by rw [tabulateState, h1, Res.ok_bind]; dsimp only; rw [h2]; rfl, hI2⟩
      · exact .inr (by rw [tabulateState, h1, Res.ok_bind]; dsimp only; rw [h2]; rfl)
    · exact .inr (by rw [tabulateState, h1]; rfl)

/-- Sampling from any other stream diverges. -/
theorem sample_uniform_div {s : Nat → UInt8} (h : ¬ Accepts s) :
    NttPolynomial.sample_uniform { stream := s, pos := 0 } = .div := by
  unfold NttPolynomial.sample_uniform
  dsimp only
  rcases tabulateState_div (n := 256) (f := fun _ r => FieldElementReader.getNext r)
    (s0 := FieldElementReader.new { stream := s, pos := 0 }) (Returned s) (returned_new s) (by
      intro i r hr
      by_cases hm : ∃ m, candidate s m < 3329 ∧
          Nat.count (fun n => candidate s n < 3329) m = i.val
      · obtain ⟨m, hm, hc⟩ := hm
        obtain ⟨r', h1, h2⟩ := getNext_ok hr hm hc
        exact .inl ⟨_, r', h1, h2⟩
      · refine .inr (getNext_div hr ?_)
        intro m hc hlt
        exact hm ⟨m, hlt, hc⟩) with ⟨v, s', _, ⟨c, _, hc⟩⟩ | h1
  · exact absurd ⟨c, by rw [hc]⟩ h
  · rw [h1]; rfl

end MlKem
