import Verif.Props.Leak
import Verif.Props.LocalsKey
/-!
C64: the directions of the conditional subtractions alone, in decapsulations of a few chosen ciphertexts, determine the
secret vector of an ML-KEM key.
-/
namespace Rust.Leak
variable {O α β γ δ : Type} {v : Event → Option O}

/-- Counts what `v` notices -/
def countOf (v : Event → Option O) : Event → Option Unit := fun e => (v e).map fun _ => ()

theorem countOf_length (x : Leak α) : (seen (countOf v) x).length = (seen v x).length := by
  unfold seen
  induction x.trace with
  | nil => rfl
  | cons e _ ih =>
    cases h : v e with
    | none => rw [List.filterMap_cons_none (by simp [countOf, h]), List.filterMap_cons_none h, ih]
    | some o =>
      rw [List.filterMap_cons_some (b := ()) (by simp [countOf, h]), List.filterMap_cons_some h, List.length_cons, List.length_cons, ih]

theorem seen_split {x : Leak α} {y : Leak β} {f : α → Leak γ} {g : β → Leak δ} {a : α} {b : β} (hx : x.res = .ok a)
    (hy : y.res = .ok b) (hc : Eqv (countOf v) x y) (h : seen v (x >>= f) = seen v (y >>= g)) :
    seen v x = seen v y ∧ seen v (f a) = seen v (g b) := by
  rw [seen_bind hx, seen_bind hy] at h
  exact List.append_inj h ((countOf_length x).symm.trans ((congrArg List.length (hc a b hx hy).1).trans (countOf_length y)))

/-- The same computation first -/
theorem seen_same {x : Leak α} {f : α → Leak γ} {g : α → Leak δ} {a : α} (hx : x.res = .ok a)
    (h : seen v (x >>= f) = seen v (x >>= g)) : seen v (f a) = seen v (g a) :=
  (seen_split hx hx (fun _ _ _ _ => ⟨rfl, trivial⟩) h).2

theorem elements_returns {n : Nat} {f : Fin n → Leak α} (h : ∀ i, ∃ a, (f i).res = .ok a) :
    ∃ w, (elements n f).res = .ok w := by
  induction n with
  | zero => exact ⟨_, rfl⟩
  | succ n ih =>
    obtain ⟨w, hw⟩ := ih fun i => h i.castSucc
    obtain ⟨a, ha⟩ := h (Fin.last n)
    unfold elements
    exact ⟨_, by rw [res_bind, hw, Res.ok_bind, res_bind, ha, Res.ok_bind]; rfl⟩

theorem seen_elements {n : Nat} {f : Fin n → Leak α} {g : Fin n → Leak β} (hf : ∀ i, ∃ a, (f i).res = .ok a)
    (hg : ∀ i, ∃ b, (g i).res = .ok b) (hc : ∀ i, Eqv (countOf v) (f i) (g i))
    (h : seen v (elements n f) = seen v (elements n g)) : ∀ i, seen v (f i) = seen v (g i) := by
  induction n with
  | zero => exact fun i => i.elim0
  | succ n ih =>
    obtain ⟨w, hw⟩ := elements_returns fun i => hf i.castSucc
    obtain ⟨w', hw'⟩ := elements_returns fun i => hg i.castSucc
    unfold elements at h
    obtain ⟨h1, h2⟩ := seen_split hw hw' (Eqv.elements fun i => hc _) h
    obtain ⟨a, ha⟩ := hf (Fin.last n)
    obtain ⟨b, hb⟩ := hg (Fin.last n)
    have h3 := (seen_split ha hb (hc _) h2).1
    have h4 := ih (fun i => hf _) (fun i => hg _) (fun i => hc _) h1
    intro i
    induction i using Fin.lastCases with
    | last => exact h3
    | cast i => exact h4 i

theorem seen_elements_ofFn {n : Nat} {f : Fin n → Leak α} {o : Fin n → O} (h : ∀ i, (∃ a, (f i).res = .ok a) ∧ seen v (f i) = [o i]) :
    seen v (elements n f) = List.ofFn o := by
  induction n with
  | zero => rfl
  | succ n ih =>
    obtain ⟨w, hw⟩ := elements_returns fun i => (h i.castSucc).1
    obtain ⟨⟨a, ha⟩, h1⟩ := h (Fin.last n)
    unfold elements
    rw [seen_bind hw, seen_bind ha, ih fun i => h i.castSucc, h1, List.ofFn_succ', List.concat_eq_append]
    simp [seen, op]

/-- Runs that look alike up to what exactly is noticed all notice the same number of things. -/
theorem fixed_length {f : γ → Leak α} (h : ∀ x y, Eqv (countOf v) (f x) (f y)) :
    ∃ N, ∀ x a, (f x).res = .ok a → (seen v (f x)).length = N := by
  by_cases hx : ∃ x a, (f x).res = .ok a
  · obtain ⟨x, a, hx⟩ := hx
    refine ⟨(seen v (f x)).length, fun y b hy => ?_⟩
    rw [← countOf_length, ← countOf_length (f x), (h y x b a hy hx).1]
  · exact ⟨0, fun x a h' => absurd ⟨x, a, h'⟩ hx⟩

end Rust.Leak

namespace MlKem
open Rust Rust.Leak Fips203 MlKem.Locals MlKem.FieldElement

variable [Build] (H : Sha3) {P : ParameterSet} {p : Params}

/-! ### One subtraction -/

theorem seen_sub (x y : Zq) : seen directions (Leaky.sub (ofZ x) (ofZ y)) = [decide (x.val < y.val)] := by
  have hx : (ofZ x).val.toNat = x.val := ofZ_val x
  have hy : (ofZ y).val.toNat = y.val := ofZ_val y
  have hx' : x.val < 3329 := ZMod.val_lt x
  have hy' : y.val < 3329 := ZMod.val_lt y
  have h1 : (op (Rust.add (ofZ x).val FieldElement.Q)).res = .ok (UInt16.ofNat (x.val + 3329)) := by
    rw [res_op, ← hx]
    exact add_ok (α := UInt16) (show (ofZ x).val.toNat + 3329 < 2 ^ 16 by omega)
  have h0 : (UInt16.ofNat (x.val + 3329)).toNat = x.val + 3329 := UInt16.toNat_ofNat_of_lt' (by show _ < 65536; omega)
  have h2 : (op (Rust.sub (UInt16.ofNat (x.val + 3329)) (ofZ y).val)).res = .ok (UInt16.ofNat (x.val + 3329 - y.val)) := by
    have : Rust.sub (UInt16.ofNat (x.val + 3329)) (ofZ y).val
        = .ok (UInt16.ofNat ((UInt16.ofNat (x.val + 3329)).toNat - (ofZ y).val.toNat)) :=
      sub_ok (α := UInt16) (show (ofZ y).val.toNat ≤ (UInt16.ofNat (x.val + 3329)).toNat by omega)
    rw [res_op, this, h0, hy]
  have hb : ∀ z : Leak UInt16, (z >>= fun r => op (.ok (⟨r⟩ : FieldElement))).trace = z.trace := by
    intro z
    show (Leak.bind z _).trace = _
    unfold Leak.bind
    cases z.res
    · exact List.append_nil _
    · rfl
    · rfl
  unfold Leaky.sub
  rw [seen_bind h1, seen_bind h2]
  show List.filterMap directions [] ++ (List.filterMap directions [] ++ List.filterMap directions _) = _
  rw [hb]
  show [Rust.lt (UInt16.ofNat (x.val + 3329 - y.val)) FieldElement.Q] = _
  have hlt : Rust.lt (UInt16.ofNat (x.val + 3329 - y.val)) FieldElement.Q = decide (x.val < y.val) := by
    show decide ((UInt16.ofNat (x.val + 3329 - y.val)).toNat < 3329) = _
    rw [UInt16.toNat_ofNat_of_lt' (by show _ < 65536; omega)]
    exact decide_eq_decide.mpr (by omega)
  rw [hlt]

theorem seen_polySub {V S S' : Poly}
    (h : seen directions (Leaky.polySub ⟨polyVec V⟩ ⟨polyVec S⟩) = seen directions (Leaky.polySub ⟨polyVec V⟩ ⟨polyVec S'⟩))
    (n : Fin 256) : (V n).val < (S n).val ↔ (V n).val < (S' n).val := by
  have hr : ∀ x y, ∃ a, (Leaky.sub (ofZ x) (ofZ y)).res = .ok a := fun x y =>
    ⟨_, (Leaky.sub_res _ _).trans (sub_ofZ x y)⟩
  have hr' : ∀ (S : Poly) (i : Fin 256), ∃ a, (Leaky.sub (polyVec V)[i] (polyVec S)[i]).res = .ok a := by
    intro S i
    rw [Fin.getElem_fin, Fin.getElem_fin, polyVec_getElem, polyVec_getElem]
    exact hr _ _
  have hcd : HidesReduce (countOf directions) := fun _ _ => rfl
  have hE : ∀ S : Poly, ∃ w, (Leak.zipVec Leaky.sub (polyVec V) (polyVec S)).res = .ok w := by
    intro S
    obtain ⟨w, hw⟩ := elements_returns (hr' S)
    exact ⟨w, by unfold Leak.zipVec Leak.tabulate; rw [res_bind, res_emit, Res.ok_bind, hw]⟩
  obtain ⟨w, hw⟩ := hE S
  obtain ⟨w', hw'⟩ := hE S'
  unfold Leaky.polySub at h
  have h1 := (seen_split hw hw' (Eqv.zipVec (Leaky.sub_eqv hcd · · · ·) _ _ _ _) h).1
  unfold Leak.zipVec Leak.tabulate at h1
  have h2 := seen_same (x := Leak.emit (.loop 256)) rfl h1
  have h3 := seen_elements (hr' S) (hr' S') (fun i => Leaky.sub_eqv hcd _ _ _ _) h2 n
  rw [Fin.getElem_fin, Fin.getElem_fin, Fin.getElem_fin, polyVec_getElem, polyVec_getElem, polyVec_getElem,
    seen_sub, seen_sub] at h3
  simpa using h3

/-! ### One decapsulation -/

/-- What the directions during a decapsulation tell about the product of the secret vector with that of the ciphertext:
how each of its coefficients compares with that of the second part of the ciphertext -/
theorem seen_decapsulate (hV : P.Valid) (hdu : P.Du ≠ 12) (hdv : P.Dv ≠ 12) {dk dk' : DecapsulationKey P} {s s' : Fin P.K → Poly}
    (hs : dk.dk_pke = ⟨nv s⟩) (hs' : dk'.dk_pke = ⟨nv s'⟩) {c : P.EncodedCiphertext} {U : Fin P.K → Poly} {V : Poly}
    {u : PolynomialVector P.K} {w : Polynomial} (hu : PolynomialVector.decode P.Du (P.split_ct c).1 = .ok u)
    (hU : u.decompress P.Du = .ok (pv U)) (hw : Polynomial.decode P.Dv (P.split_ct c).2 = .ok w)
    (hW : w.decompress P.Dv = .ok ⟨polyVec V⟩)
    (h : seen directions (Leaky.decapsulate H dk c) = seen directions (Leaky.decapsulate H dk' c)) (n : Fin 256) :
    (V n).val < (NTTinv (∑ i, MultiplyNTTs (s i) (NTT (U i))) n).val ↔
      (V n).val < (NTTinv (∑ i, MultiplyNTTs (s' i) (NTT (U i))) n).val := by
  have hcd : HidesReduce (countOf directions) := fun _ _ => rfl
  have hS : ∀ e : CbdSize, e.SampleSize ≠ 12 := by intro e; cases e <;> decide
  have hfit : Leaky.Fit (countOf directions) P := ⟨hS _, hS _, hdu, hdv, fun _ _ _ _ => rfl, fun _ _ _ _ => rfl⟩
  unfold Leaky.decapsulate at h
  rw [hs, hs'] at h
  have h := (seen_split ((Leaky.decrypt_res _ _).trans (decrypt_ok hV s c)) ((Leaky.decrypt_res _ _).trans (decrypt_ok hV s' c))
    (Leaky.decrypt_eqv hcd hfit _ _ _ _) h).1
  unfold Leaky.decrypt at h
  have h := seen_same ((Leaky.vecDecode_res _ _).trans hu) h
  have h := seen_same ((Leaky.vecDecompress_res _ _).trans hU) h
  have h := seen_same ((Leaky.decode_res _ _).trans hw) h
  have h := seen_same ((Leaky.polyDecompress_res _ _).trans hW) h
  have h := seen_same ((Leaky.vecNtt_res _).trans (pv_ntt U)) h
  have h := (seen_split ((Leaky.dot_res _ _).trans (nv_mul s _)) ((Leaky.dot_res _ _).trans (nv_mul s' _))
    (Leaky.dot_eqv hcd _ _ _ _) h).2
  have h := (seen_split ((Leaky.ntt_inverse_res _).trans (ntt_inverse_ok _)) ((Leaky.ntt_inverse_res _).trans (ntt_inverse_ok _))
    (Leaky.ntt_inverse_eqv hcd _ _) h).2
  have h := (seen_split ((Leaky.polySub_res _ _).trans (poly_sub_ok _ _)) ((Leaky.polySub_res _ _).trans (poly_sub_ok _ _))
    (Leaky.polySub_eqv hcd _ _ _ _) h).1
  exact seen_polySub h n

/-! ### The ciphertexts -/

/-- The ciphertext with the single number `y` in the constant coefficient of polynomial `i` of its first part, and `t` everywhere
in the second -/
def compareProbe (i : Fin P.K) (y t : Nat) : P.EncodedCiphertext :=
  bytesOf (encodeVec P.Du (fun j n => if j = i ∧ n = 0 then y else 0 : Fin P.K → Fin 256 → Nat) ++ ByteEncode P.Dv fun _ => t)

theorem compareProbe_decode (hV : P.Valid) (hdu : P.Du ≠ 12) (hdv : P.Dv ≠ 12) (i : Fin P.K) {y t : Nat} (hy : y < 2 ^ P.Du)
    (ht : t < 2 ^ P.Dv) :
    (∃ u, PolynomialVector.decode P.Du (P.split_ct (compareProbe i y t)).1 = .ok u ∧
      u.decompress P.Du = .ok (pv fun j => constPoly (if j = i then Decompress P.Du y else 0))) ∧
    ∃ w, Polynomial.decode P.Dv (P.split_ct (compareProbe i y t)).2 = .ok w ∧
      w.decompress P.Dv = .ok ⟨polyVec fun _ => Decompress P.Dv t⟩ := by
  let F : Fin P.K → Fin 256 → Nat := fun j n => if j = i ∧ n = 0 then y else 0
  have hpos : 0 < 2 ^ P.Du := Nat.two_pow_pos _
  have hF : ∀ j n, F j n < decMod P.Du := by
    intro j n
    show (if j = i ∧ n = 0 then y else 0) < _
    unfold decMod
    rw [if_neg hdu]
    split <;> assumption
  have hG : ∀ n : Fin 256, (fun _ => t : Fin 256 → Nat) n < decMod P.Dv := by
    intro n
    unfold decMod
    rwa [if_neg hdv]
  have hl : (encodeVec P.Du F ++ ByteEncode P.Dv fun _ => t).length = P.CiphertextSize := by
    rw [List.length_append, encodeVec_length, ByteEncode_length]
    show _ = P.Du * 32 * P.K + P.Dv * 32
    ring
  have hc : (compareProbe i y t : P.EncodedCiphertext).toList = encodeVec P.Du F ++ ByteEncode P.Dv fun _ => t := toList_bytesOf hl
  have h1 : (P.split_ct (compareProbe i y t)).1.toList = encodeVec P.Du F := by
    have : (P.split_ct (compareProbe i y t)).1.toList = (compareProbe i y t : P.EncodedCiphertext).toList.take (P.Du * 32 * P.K) :=
      splitRef_fst _
    rw [this, hc, List.take_left' (by rw [encodeVec_length])]
  have h2 : (P.split_ct (compareProbe i y t)).2.toList = ByteEncode P.Dv fun _ => t := by
    have : (P.split_ct (compareProbe i y t)).2.toList = (compareProbe i y t : P.EncodedCiphertext).toList.drop (P.Du * 32 * P.K) :=
      splitRef_snd _
    rw [this, hc, List.drop_left' (by rw [encodeVec_length])]
  have hb : ∀ j : Fin P.K, ByteDecode P.Du (block P.Du (P.split_ct (compareProbe i y t)).1.toList j.val) = F j := by
    intro j
    have := block_encodeVec P.Du F [] j
    rw [List.append_nil] at this
    rw [h1, this, ByteDecode_ByteEncode hV.du1 (hF j) hV.du2]
  refine ⟨⟨_, rv_decode hV.du1 hV.du2 _, ?_⟩, ⟨_, ?_, poly_decompress_ok hV.dv1 hV.dv2 (F := fun _ => t) fun _ => ht⟩⟩
  · rw [rv_decompress hV.du1 hV.du2 (fun j n => ByteDecode_lt_pow _ n)]
    simp only [hb]
    congr 2
    funext j n
    have h0 : Decompress P.Du 0 = 0 := by
      have : (2 ^ (P.Du - 1)) / 2 ^ P.Du = 0 := Nat.div_eq_of_lt (Nat.pow_lt_pow_right (by omega) (by have := hV.du1; omega))
      rw [Decompress_eq hV.du1, Nat.mul_zero, Nat.zero_add, this]
      rfl
    show Decompress P.Du (if j = i ∧ n = 0 then y else 0) = _
    unfold constPoly
    by_cases hj : j = i <;> by_cases hn : n = 0 <;> simp [hj, hn, h0]
  · unfold Polynomial.decode
    rw [byte_decode_raw hV.dv1 hV.dv2, h2, ByteDecode_ByteEncode hV.dv1 hG hV.dv2]
    rfl

/-! ### Numbers -/

omit [Build] in
/-- Sixteen thresholds cut the residues into intervals of at most 209. -/
theorem threshold_between {X Y : Nat} (h : X + 209 ≤ Y) (hY : Y < 3329) :
    ∃ t, t < 16 ∧ X ≤ (3329 * t + 8) / 16 ∧ (3329 * t + 8) / 16 < Y := by
  have key : ∀ a b : Fin 58, 58 * a.val + b.val + 209 < 3329 → ∃ t : Fin 16, 58 * a.val + b.val ≤ (3329 * t.val + 8) / 16 ∧
      (3329 * t.val + 8) / 16 < 58 * a.val + b.val + 209 := by
    decide +kernel
  obtain ⟨t, h1, h2⟩ := key ⟨X / 58, by omega⟩ ⟨X % 58, by omega⟩ (by simp only; omega)
  simp only at h1 h2
  exact ⟨t.val, t.isLt, by omega, by omega⟩

omit [Build] in
/-- Numbers that lie alike to all thresholds are close. -/
theorem close_of_thresholds {X Y : Nat} (hX : X < 3329) (hY : Y < 3329)
    (h : ∀ t, t < 16 → ((3329 * t + 8) / 16 < X ↔ (3329 * t + 8) / 16 < Y)) : X < Y + 209 ∧ Y < X + 209 := by
  constructor
  · by_contra hc
    obtain ⟨t, ht, h1, h2⟩ := threshold_between (X := Y) (Y := X) (by omega) hX
    have := (h t ht).1 h2
    omega
  · by_contra hc
    obtain ⟨t, ht, h1, h2⟩ := threshold_between (X := X) (Y := Y) (by omega) hY
    have := (h t ht).2 h2
    omega

/-- Three factors that move every difference away from zero, for ten and for eleven bits -/
def factors (d : Nat) : List Nat := if d = 10 then [864, 743, 813] else [1340, 1851, 1956]

omit [Build] in
theorem factors_lt {d y : Nat} (hd : d = 10 ∨ d = 11) (hy : y ∈ factors d) : y < 2 ^ d := by
  rcases hd with rfl | rfl <;> simp [factors] at hy <;> omega

omit [Build] in
theorem factor_far {d : Nat} (hd : d = 10 ∨ d = 11) {x : Nat} (h0 : 0 < x) (hx : x < 3329) :
    ∃ y ∈ factors d, 209 ≤ (3329 * y + 2 ^ (d - 1)) / 2 ^ d * x % 3329 ∧ (3329 * y + 2 ^ (d - 1)) / 2 ^ d * x % 3329 + 209 ≤ 3329 := by
  have key10 : ∀ a b : Fin 58, 0 < 58 * a.val + b.val → 58 * a.val + b.val < 3329 → ∃ y ∈ factors 10,
      209 ≤ (3329 * y + 2 ^ (10 - 1)) / 2 ^ 10 * (58 * a.val + b.val) % 3329 ∧
      (3329 * y + 2 ^ (10 - 1)) / 2 ^ 10 * (58 * a.val + b.val) % 3329 + 209 ≤ 3329 := by
    decide +kernel
  have key11 : ∀ a b : Fin 58, 0 < 58 * a.val + b.val → 58 * a.val + b.val < 3329 → ∃ y ∈ factors 11,
      209 ≤ (3329 * y + 2 ^ (11 - 1)) / 2 ^ 11 * (58 * a.val + b.val) % 3329 ∧
      (3329 * y + 2 ^ (11 - 1)) / 2 ^ 11 * (58 * a.val + b.val) % 3329 + 209 ≤ 3329 := by
    decide +kernel
  have hx' : 58 * (x / 58) + x % 58 = x := Nat.div_add_mod x 58
  have ha : x / 58 < 58 := by omega
  have hb : x % 58 < 58 := by omega
  rcases hd with rfl | rfl
  · have := key10 ⟨x / 58, ha⟩ ⟨x % 58, hb⟩
    simp only [hx'] at this
    exact this h0 hx
  · have := key11 ⟨x / 58, ha⟩ ⟨x % 58, hb⟩
    simp only [hx'] at this
    exact this h0 hx

omit [Build] in
/-- Two residues whose multiples by the three factors lie alike to all thresholds are equal. -/
theorem eq_of_thresholds {d : Nat} (hd : d = 10 ∨ d = 11) {x x' : Zq}
    (h : ∀ y ∈ factors d, ∀ t, t < 16 →
      ((3329 * t + 8) / 16 < (Decompress d y * x).val ↔ (3329 * t + 8) / 16 < (Decompress d y * x').val)) : x = x' := by
  by_contra hne
  have hz : (x - x').val ≠ 0 := fun h0 => hne (sub_eq_zero.1 ((ZMod.val_eq_zero _).1 h0))
  obtain ⟨y, hy, h1, h2⟩ := factor_far hd (Nat.pos_of_ne_zero hz) (ZMod.val_lt _)
  have hD : (Decompress d y).val = (3329 * y + 2 ^ (d - 1)) / 2 ^ d :=
    Decompress_val (by omega) (by omega) (factors_lt hd hy)
  have hm : (Decompress d y * (x - x')).val = (3329 * y + 2 ^ (d - 1)) / 2 ^ d * (x - x').val % 3329 := by
    rw [ZMod.val_mul, hD]
  rw [← hm] at h1 h2
  have hs : (Decompress d y * x).val = ((Decompress d y * x').val + (Decompress d y * (x - x')).val) % 3329 := by
    rw [← ZMod.val_add]
    congr 1
    ring
  have hX : (Decompress d y * x).val < 3329 := ZMod.val_lt _
  have hX' : (Decompress d y * x').val < 3329 := ZMod.val_lt _
  have hc := close_of_thresholds hX hX' (h y hy)
  generalize (Decompress d y * x).val = X at *
  generalize (Decompress d y * x').val = X' at *
  generalize (Decompress d y * (x - x')).val = e at *
  omega

/-! ### All coefficients -/

omit [Build] in
theorem NTT_smul (b : Zq) (f : Poly) : NTT (b • f) = b • NTT f := by
  funext i
  simp only [NTT, Pi.smul_apply, smul_eq_mul, Finset.mul_sum, mul_assoc]

omit [Build] in
theorem NTTinv_smul (b : Zq) (f : Poly) : NTTinv (b • f) = b • NTTinv f := by
  have := NTTinv_NTT (b • NTTinv f)
  rwa [NTT_smul, NTT_NTTinv] at this

omit [Build] in
theorem probe_sum (s : Fin P.K → Poly) (i : Fin P.K) (b : Zq) :
    ∑ j, MultiplyNTTs (s j) (NTT (constPoly (if j = i then b else 0))) = b • s i := by
  simp only [mul_const, ite_smul, zero_smul, Finset.sum_ite_eq', Finset.mem_univ, if_true]

/-- The chosen ciphertexts: for every polynomial of the vector three factors and sixteen thresholds -/
def compareProbes (P : ParameterSet) : List P.EncodedCiphertext :=
  (List.finRange P.K).flatMap fun i => (factors P.Du).flatMap fun y =>
    (List.range 16).map fun t => compareProbe i y (t * 2 ^ (P.Dv - 4))

/-- **C64** The direction of the conditional subtraction gives the key away: whoever sees nothing but these directions, while a
decapsulation key is used on 48 ciphertexts per polynomial of its secret vector, the same ciphertexts for all keys, has seen
enough to tell its secret vector from every other. That decapsulation is safe to watch rests on compilers turning that `if`
into a conditional move. -/
theorem C64_decapsulate_shows (hP : P = MlKem512Params ∨ P = MlKem768Params ∨ P = MlKem1024Params) :
    ∃ cs : List P.EncodedCiphertext, cs.length = 48 * P.K ∧
      ∀ dk dk' : DecapsulationKey P, DkReach H dk → DkReach H dk' →
        (∀ c ∈ cs, seen directions (Leaky.decapsulate H dk c) = seen directions (Leaky.decapsulate H dk' c)) →
        dk.dk_pke = dk'.dk_pke := by
  have hV : P.Valid := by rcases hP with rfl | rfl | rfl <;> exact Supported.valid (by first | exact supported_512 | exact supported_768 | exact supported_1024)
  have hdu : P.Du = 10 ∨ P.Du = 11 := by rcases hP with rfl | rfl | rfl <;> decide
  have hdv : P.Dv = 4 ∨ P.Dv = 5 := by rcases hP with rfl | rfl | rfl <;> decide
  refine ⟨compareProbes P, ?_, fun dk dk' hk hk' h => ?_⟩
  · rcases hP with rfl | rfl | rfl <;> simp [compareProbes, List.length_flatMap, factors] <;> decide
  obtain ⟨s, t, rho, hh, z, hdk⟩ := hk.shape H hV
  obtain ⟨s', t', rho', hh', z', hdk'⟩ := hk'.shape H hV
  have hs : dk.dk_pke = ⟨nv s⟩ := by rw [hdk]; rfl
  have hs' : dk'.dk_pke = ⟨nv s'⟩ := by rw [hdk']; rfl
  suffices hE : s = s' by rw [hs, hs', hE]
  funext i
  rw [← NTT_NTTinv (s i), ← NTT_NTTinv (s' i)]
  congr 1
  funext n
  refine eq_of_thresholds hdu fun y hy t ht => ?_
  have hy' := factors_lt hdu hy
  have ht' : t * 2 ^ (P.Dv - 4) < 2 ^ P.Dv := by
    rcases hdv with e | e <;> rw [e] <;> norm_num <;> omega
  have hmem : compareProbe i y (t * 2 ^ (P.Dv - 4)) ∈ compareProbes P :=
    List.mem_flatMap.2 ⟨i, List.mem_finRange i, List.mem_flatMap.2 ⟨y, hy, List.mem_map.2 ⟨t, List.mem_range.2 ht, rfl⟩⟩⟩
  obtain ⟨⟨u, hu, hU⟩, w, hw, hW⟩ := compareProbe_decode hV (by omega) (by omega) i hy' ht'
  have key := seen_decapsulate H hV (by omega) (by omega) hs hs' hu hU hw hW (h _ hmem) n
  rw [probe_sum, probe_sum, NTTinv_smul, NTTinv_smul, Decompress_val hV.dv1 hV.dv2 ht'] at key
  have hv : (3329 * (t * 2 ^ (P.Dv - 4)) + 2 ^ (P.Dv - 1)) / 2 ^ P.Dv = (3329 * t + 8) / 16 := by
    rcases hdv with e | e <;> rw [e] <;> norm_num <;> omega
  rw [hv] at key
  exact key

/-! ### The vector as a function of the directions -/

theorem seen_polySub_eq (V S : Poly) :
    seen directions (Leaky.polySub ⟨polyVec V⟩ ⟨polyVec S⟩) = List.ofFn fun n => decide ((V n).val < (S n).val) := by
  have hr : ∀ i : Fin 256, (∃ a, (Leaky.sub (polyVec V)[i] (polyVec S)[i]).res = .ok a) ∧
      seen directions (Leaky.sub (polyVec V)[i] (polyVec S)[i]) = [decide ((V i).val < (S i).val)] := by
    intro i
    rw [Fin.getElem_fin, Fin.getElem_fin, polyVec_getElem, polyVec_getElem]
    exact ⟨⟨_, (Leaky.sub_res _ _).trans (sub_ofZ _ _)⟩, seen_sub _ _⟩
  obtain ⟨w, hw⟩ := elements_returns fun i => (hr i).1
  have hz : (Leak.zipVec Leaky.sub (polyVec V) (polyVec S)).res = .ok w := by
    unfold Leak.zipVec Leak.tabulate
    rw [res_bind, res_emit, Res.ok_bind, hw]
  unfold Leaky.polySub
  rw [seen_bind hz]
  unfold Leak.zipVec Leak.tabulate
  rw [seen_bind (a := ()) rfl, seen_elements_ofFn hr]
  have e1 : seen directions (emit (.loop 256)) = [] := rfl
  have e2 : seen directions (op (.ok (⟨w⟩ : Polynomial))) = [] := rfl
  rw [e1, e2, List.nil_append, List.append_nil]

/-- The directions of the last subtraction of a decryption come after a fixed number of others. -/
theorem decapsulate_directions (hV : P.Valid) (hdu : P.Du ≠ 12) (hdv : P.Dv ≠ 12) :
    ∃ skip, ∀ (dk : DecapsulationKey P) (s : Fin P.K → Poly) (c : P.EncodedCiphertext) (U : Fin P.K → Poly) (V : Poly)
      (u : PolynomialVector P.K) (w : Polynomial), dk.dk_pke = ⟨nv s⟩ →
      PolynomialVector.decode P.Du (P.split_ct c).1 = .ok u → u.decompress P.Du = .ok (pv U) →
      Polynomial.decode P.Dv (P.split_ct c).2 = .ok w → w.decompress P.Dv = .ok ⟨polyVec V⟩ →
      ∃ before after, before.length = skip ∧ seen directions (Leaky.decapsulate H dk c) = before ++
        ((List.ofFn fun n => decide ((V n).val < (NTTinv (∑ i, MultiplyNTTs (s i) (NTT (U i))) n).val)) ++ after) := by
  have hcd : HidesReduce (countOf directions) := fun _ _ => rfl
  have hS : ∀ e : CbdSize, e.SampleSize ≠ 12 := by intro e; cases e <;> decide
  have hfit : Leaky.Fit (countOf directions) P := ⟨hS _, hS _, hdu, hdv, fun _ _ _ _ => rfl, fun _ _ _ _ => rfl⟩
  obtain ⟨n1, f1⟩ := fixed_length (v := directions) (f := fun x : EncodedPolynomialVector P.Du P.K => Leaky.vecDecode P.Du x)
    (Leaky.vecDecode_eqv _ fun h => absurd h hdu)
  obtain ⟨n2, f2⟩ := fixed_length (v := directions) (f := fun x : PolynomialVector P.K => Leaky.vecDecompress P.Du x)
    (Leaky.vecDecompress_eqv _)
  obtain ⟨n3, f3⟩ := fixed_length (v := directions) (f := fun x : EncodedPolynomial P.Dv => Leaky.decode P.Dv x)
    (Leaky.decode_eqv _ fun h => absurd h hdv)
  obtain ⟨n4, f4⟩ := fixed_length (v := directions) (f := fun x : Polynomial => Leaky.polyDecompress P.Dv x)
    (Leaky.polyDecompress_eqv _)
  obtain ⟨n5, f5⟩ := fixed_length (v := directions) (f := fun x : PolynomialVector P.K => Leaky.vecNtt x) (Leaky.vecNtt_eqv hcd)
  obtain ⟨n6, f6⟩ := fixed_length (v := directions) (f := fun x : NttVector P.K × NttVector P.K => Leaky.dot x.1 x.2)
    (fun _ _ => Leaky.dot_eqv hcd _ _ _ _)
  obtain ⟨n7, f7⟩ := fixed_length (v := directions) (f := fun x : NttPolynomial => Leaky.ntt_inverse x)
    (Leaky.ntt_inverse_eqv hcd)
  refine ⟨n1 + (n2 + (n3 + (n4 + (n5 + (n6 + n7))))), fun dk s c U V u w hs hu hU hw hW => ?_⟩
  have g1 := (Leaky.vecDecode_res _ _).trans hu
  have g2 := (Leaky.vecDecompress_res _ _).trans hU
  have g3 := (Leaky.decode_res _ _).trans hw
  have g4 := (Leaky.polyDecompress_res _ _).trans hW
  have g5 := (Leaky.vecNtt_res _).trans (pv_ntt U)
  have g6 := (Leaky.dot_res _ _).trans (nv_mul s fun i => NTT (U i))
  have g7 := (Leaky.ntt_inverse_res _).trans (ntt_inverse_ok (∑ i, MultiplyNTTs (s i) (NTT (U i))))
  have g8 := (Leaky.polySub_res _ _).trans (poly_sub_ok V (NTTinv (∑ i, MultiplyNTTs (s i) (NTT (U i)))))
  unfold Leaky.decapsulate
  rw [hs, seen_bind ((Leaky.decrypt_res _ _).trans (decrypt_ok hV s c))]
  unfold Leaky.decrypt
  dsimp only
  rw [seen_bind g1, seen_bind g2, seen_bind g3, seen_bind g4, seen_bind g5, seen_bind g6, seen_bind g7, seen_bind g8, seen_polySub_eq]
  refine ⟨_ ++ (_ ++ (_ ++ (_ ++ (_ ++ (_ ++ _))))), _, ?_, by simp only [List.append_assoc]; rfl⟩
  simp only [List.length_append]
  rw [f1 _ _ g1, f2 _ _ g2, f3 _ _ g3, f4 _ _ g4, f5 _ _ g5, f7 _ _ g7]
  have := f6 (nv s, nv fun i => NTT (U i)) _ g6
  simp only at this
  rw [this]

/-- The coefficient whose multiples by the three factors compare with the sixteen thresholds in a given way -/
def readCoefficient (d : Nat) (less : Nat → Nat → Bool) : Nat :=
  ((List.range 3329).find? fun x => (factors d).all fun y => (List.range 16).all fun t =>
    less y t == decide ((3329 * t + 8) / 16 < (3329 * y + 2 ^ (d - 1)) / 2 ^ d * x % 3329)).getD 0

/-- The secret vector, computed from the directions in the decapsulations of the chosen ciphertexts -/
noncomputable def readVector (P : ParameterSet) (skip : Nat) (obs : P.EncodedCiphertext → List Bool) : DecryptionKey P :=
  { s_hat := nv fun i => NTT fun n => (readCoefficient P.Du fun y t =>
      (obs (compareProbe i y (t * 2 ^ (P.Dv - 4)))).getD (skip + n.val) false : Nat) }

omit [Build] in
theorem readCoefficient_eq {d : Nat} (hd : d = 10 ∨ d = 11) (x : Zq) {less : Nat → Nat → Bool}
    (h : ∀ y ∈ factors d, ∀ t, t < 16 → less y t = decide ((3329 * t + 8) / 16 < (Decompress d y * x).val)) :
    ((readCoefficient d less : Nat) : Zq) = x := by
  have hm : ∀ y ∈ factors d, ∀ z : Zq, (3329 * y + 2 ^ (d - 1)) / 2 ^ d * z.val % 3329 = (Decompress d y * z).val := by
    intro y hy z
    rw [ZMod.val_mul, Decompress_val (by omega) (by omega) (factors_lt hd hy)]
  unfold readCoefficient
  cases hf : (List.range 3329).find? fun x => (factors d).all fun y => (List.range 16).all fun t =>
      less y t == decide ((3329 * t + 8) / 16 < (3329 * y + 2 ^ (d - 1)) / 2 ^ d * x % 3329) with
  | none =>
    rw [List.find?_eq_none] at hf
    refine absurd ?_ (hf x.val (List.mem_range.2 (ZMod.val_lt x)))
    rw [List.all_eq_true]
    intro y hy
    rw [List.all_eq_true]
    intro t ht
    rw [hm y hy x, h y hy t (List.mem_range.1 ht), beq_self_eq_true]
  | some z =>
    have hz := List.find?_some hf
    have hzr : z < 3329 := List.mem_range.1 (List.mem_of_find?_eq_some hf)
    have hzv : ((z : Nat) : Zq).val = z := by rw [ZMod.val_natCast, Nat.mod_eq_of_lt hzr]
    rw [Option.getD_some]
    refine eq_of_thresholds hd fun y hy t ht => ?_
    rw [List.all_eq_true] at hz
    have h1 := hz y hy
    rw [List.all_eq_true] at h1
    have h2 := h1 t (List.mem_range.2 ht)
    rw [h y hy t ht, ← hm y hy x] at h2
    rw [← hm y hy x, ← hm y hy ((z : Nat) : Zq), hzv]
    have h3 := decide_eq_decide.1 (eq_of_beq h2)
    exact h3.symm

theorem readVector_ok (hP : P = MlKem512Params ∨ P = MlKem768Params ∨ P = MlKem1024Params) :
    ∃ skip, ∀ (dk : DecapsulationKey P) (n0 : Nat) (pre post : P.EncodedCiphertext → List Bool), DkReach H dk →
      (∀ c, (pre c).length = n0) →
      readVector P (n0 + skip) (fun c => pre c ++ (seen directions (Leaky.decapsulate H dk c) ++ post c)) = dk.dk_pke := by
  have hV : P.Valid := by rcases hP with rfl | rfl | rfl <;> exact Supported.valid (by first | exact supported_512 | exact supported_768 | exact supported_1024)
  have hdu : P.Du = 10 ∨ P.Du = 11 := by rcases hP with rfl | rfl | rfl <;> decide
  have hdv : P.Dv = 4 ∨ P.Dv = 5 := by rcases hP with rfl | rfl | rfl <;> decide
  obtain ⟨skip, hskip⟩ := decapsulate_directions H hV (by omega) (by omega)
  refine ⟨skip, fun dk n0 pre post hk hpre => ?_⟩
  obtain ⟨s, t, rho, hh, z, hdk⟩ := hk.shape H hV
  have hs : dk.dk_pke = ⟨nv s⟩ := by rw [hdk]; rfl
  rw [hs]
  unfold readVector
  have key : ∀ i : Fin P.K, (fun n : Fin 256 => ((readCoefficient P.Du fun y t =>
      (pre (compareProbe i y (t * 2 ^ (P.Dv - 4))) ++ (seen directions (Leaky.decapsulate H dk
        (compareProbe i y (t * 2 ^ (P.Dv - 4)))) ++ post (compareProbe i y (t * 2 ^ (P.Dv - 4))))).getD
        (n0 + skip + n.val) false : Nat) : Zq))
      = NTTinv (s i) := by
    intro i
    funext n
    refine readCoefficient_eq hdu (NTTinv (s i) n) fun y hy t ht => ?_
    have ht' : t * 2 ^ (P.Dv - 4) < 2 ^ P.Dv := by
      rcases hdv with e | e <;> rw [e] <;> norm_num <;> omega
    obtain ⟨⟨u, hu, hU⟩, w, hw, hW⟩ := compareProbe_decode hV (by omega) (by omega) i (factors_lt hdu hy) ht'
    obtain ⟨before, after, hb, he⟩ := hskip dk s _ _ _ u w hs hu hU hw hW
    have hv : (3329 * (t * 2 ^ (P.Dv - 4)) + 2 ^ (P.Dv - 1)) / 2 ^ P.Dv = (3329 * t + 8) / 16 := by
      rcases hdv with e | e <;> rw [e] <;> norm_num <;> omega
    have hp := hpre (compareProbe i y (t * 2 ^ (P.Dv - 4)))
    rw [he, List.getD_eq_getElem?_getD, List.getElem?_append_right (by omega), hp, Nat.add_assoc, Nat.add_sub_cancel_left,
      List.append_assoc, List.append_assoc, List.getElem?_append_right (by omega), hb, Nat.add_sub_cancel_left,
      List.getElem?_append_left (by rw [List.length_ofFn]; exact n.isLt), List.getElem?_ofFn, dif_pos n.isLt, Option.getD_some,
      probe_sum, NTTinv_smul, Decompress_val hV.dv1 hV.dv2 ht', hv]
    rfl
  simp only [key, NTT_NTTinv]

/-- **C64** The secret vector of a key is a function, the same for all keys, of the directions of the conditional subtractions during
decapsulations of the chosen ciphertexts: skip a fixed number of them, and read off how each coefficient compares. -/
theorem C64_decapsulate_reads (hP : P = MlKem512Params ∨ P = MlKem768Params ∨ P = MlKem1024Params) :
    ∃ skip, ∀ dk : DecapsulationKey P, DkReach H dk →
      readVector P skip (fun c => seen directions (Leaky.decapsulate H dk c)) = dk.dk_pke := by
  obtain ⟨skip, h⟩ := readVector_ok H hP
  refine ⟨skip, fun dk hk => ?_⟩
  have := h dk 0 (fun _ => []) (fun _ => []) hk fun _ => rfl
  simpa only [Nat.zero_add, List.nil_append, List.append_nil] using this

/-- Two keys to which the theorem applies, and that one of the ciphertexts therefore tells apart: their first coefficients are 0
and 257. -/
example : ∃ (dk dk' : DecapsulationKey MlKem512Params) (c : MlKem512Params.EncodedCiphertext), DkReach H dk ∧ DkReach H dk' ∧
    seen directions (Leaky.decapsulate H dk c) ≠ seen directions (Leaky.decapsulate H dk' c) := by
  obtain ⟨cs, -, h⟩ := C64_decapsulate_shows H (P := MlKem512Params) (.inl rfl)
  obtain ⟨s, t, rho, hh, z, es, -, -, -, -, hf⟩ := kem_dk_from_bytes (P := MlKem512Params) (Vector.replicate _ 0)
  obtain ⟨s', t', rho', hh', z', es', -, -, -, -, hf'⟩ := kem_dk_from_bytes (P := MlKem512Params) (Vector.replicate _ 1)
  by_contra hc
  push Not at hc
  have key := h _ _ (.parsed hf) (.parsed hf') fun c _ => hc _ _ c (.parsed hf) (.parsed hf')
  have hs : s = s' := nv_inj (congrArg DecryptionKey.s_hat key)
  have e := field12_enc12 es (n := 0) (by decide)
  have e' := field12_enc12 es' (n := 0) (by decide)
  rw [hs, e', Vector.toList_replicate, Vector.toList_replicate, List.take_replicate, List.take_replicate] at e
  exact absurd e (by decide +kernel)

end MlKem
