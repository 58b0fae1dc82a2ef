import Verif.Spec.KeyTables
import Verif.Spec.Collision
import Verif.Props.Hang
import Verif.Props.XWing
/-! C98: different secrets give different public keys. -/
namespace MlKem
open Rust Fips203 Finset BigOperators

variable [Build]
variable (S : Sha3) {P : ParameterSet} {p : Params}

theorem ek_rho (h : Supported P p) {d z : B32} {dk : DecapsulationKey P} {ek : EncapsulationKey P}
    (hg : Kem.generate_deterministic S P d z = .ok (dk, ek)) :
    ek.ek_pke.rho.toList = (Fips203.G S (d.toList ++ [UInt8.ofNat p.k])).1 := by
  obtain rfl := h.eq
  obtain ⟨-, -, rfl⟩ := (generate_ok_iff S h.valid).1 hg
  show (bytesOf _ : B32).toList = _
  rw [toList_bytesOf (seeds_length S _ _).1]
  rfl

omit [Build] in
theorem seed_input {d d' : B32} {x y : UInt8} (h : d.toList ++ [x] = d'.toList ++ [y]) : d = d' ∧ x = y := by
  obtain ⟨h1, h2⟩ := List.append_inj h (by rw [Vector.length_toList, Vector.length_toList])
  exact ⟨bytes_ext h1, by simpa using h2⟩

/-- **C98** Seeds whose encapsulation keys are equal are equal or give a collision of SHA3-512's first half. Equal
decapsulation keys moreover have the same `z`. -/
theorem C98_ml_kem (h : Supported P p) {d z d' z' : B32} {dk dk' : DecapsulationKey P} {ek ek' : EncapsulationKey P}
    (hg : Kem.generate_deterministic S P d z = .ok (dk, ek)) (hg' : Kem.generate_deterministic S P d' z' = .ok (dk', ek')) :
    (ek.as_bytes = ek'.as_bytes → d = d' ∨ CollideG S (d.toList ++ [UInt8.ofNat p.k]) (d'.toList ++ [UInt8.ofNat p.k])) ∧
    (dk.as_bytes = dk'.as_bytes →
      z = z' ∧ (d = d' ∨ CollideG S (d.toList ++ [UInt8.ofNat p.k]) (d'.toList ++ [UInt8.ofNat p.k]))) := by
  have key : ek = ek' → d = d' ∨ CollideG S (d.toList ++ [UInt8.ofNat p.k]) (d'.toList ++ [UInt8.ofNat p.k]) := by
    intro e
    by_cases hd : d = d'
    · exact .inl hd
    · refine .inr ⟨fun g => hd (seed_input g).1, ?_⟩
      rw [← ek_rho S h hg, ← ek_rho S h hg', e]
  refine ⟨fun e => key ((C17_ek_eq_iff S h (.generated hg) (.generated hg')).2 e), fun e => ?_⟩
  have e := (C17_dk_eq_iff S h (.generated hg) (.generated hg')).2 e
  obtain rfl := h.eq
  obtain ⟨-, rfl, rfl⟩ := (generate_ok_iff S h.valid).1 hg
  obtain ⟨-, rfl, rfl⟩ := (generate_ok_iff S h.valid).1 hg'
  exact ⟨congrArg DecapsulationKey.z e, key (congrArg DecapsulationKey.ek e)⟩

/-- **C98** One seed used for two parameter sets gives unrelated public seeds: they are equal only if SHA3-512's first half
collides on `d ‖ k` and `d' ‖ k'`. -/
theorem C98_parameter_sets {P' : ParameterSet} {p' : Params} (h : Supported P p) (h' : Supported P' p')
    (hk : p.k % 256 ≠ p'.k % 256) {d z d' z' : B32} {dk : DecapsulationKey P} {ek : EncapsulationKey P}
    {dk' : DecapsulationKey P'} {ek' : EncapsulationKey P'} (hg : Kem.generate_deterministic S P d z = .ok (dk, ek))
    (hg' : Kem.generate_deterministic S P' d' z' = .ok (dk', ek')) (e : ek.ek_pke.rho = ek'.ek_pke.rho) :
    CollideG S (d.toList ++ [UInt8.ofNat p.k]) (d'.toList ++ [UInt8.ofNat p'.k]) := by
  refine ⟨fun g => hk ?_, ?_⟩
  · have := congrArg UInt8.toNat (seed_input g).2
    rwa [UInt8.toNat_ofNat', UInt8.toNat_ofNat'] at this
  · rw [← ek_rho S h hg, ← ek_rho S h' hg', e]

/-! ### With random tables -/

omit [Build] in
theorem prob_fibers {α β : Type} [Finite α] [Finite β] [Nonempty β] (E : α × β → Prop) {c : ℝ}
    (h : ∀ b, prob (fun a => E (a, b)) ≤ c) : prob E ≤ c := by
  classical
  have := Fintype.ofFinite α
  have := Fintype.ofFinite β
  rw [prob_eq_expect]
  have e : (𝔼 x : α × β, if E x then (1 : ℝ) else 0) = 𝔼 b, 𝔼 a, if E (a, b) then (1 : ℝ) else 0 := by
    rw [← expect_prod_type fun x : β × α => if E (x.2, x.1) then (1 : ℝ) else 0]
    exact Fintype.expect_equiv (Equiv.prodComm α β) _ _ fun x => rfl
  rw [e]
  refine (Finset.expect_le_expect (g := fun _ => c) fun b _ => ?_).trans (Finset.expect_const Finset.univ_nonempty c).le
  rw [← prob_eq_expect]
  exact h b

omit [Build] in
theorem prob_snd {α β : Type} [Finite α] [Finite β] [Nonempty α] (E : β → Prop) : prob (fun x : α × β => E x.2) = prob E := by
  classical
  have := Fintype.ofFinite α
  have := Fintype.ofFinite β
  rw [prob_eq_expect, prob_eq_expect, expect_prod_type]
  exact Fintype.expect_const (ι := α) (𝔼 b : β, if E b then (1 : ℝ) else 0)

omit [Build] in
/-- A uniform value has a given beginning with probability `2^-256`. -/
theorem prob_front {n : Nat} (s : List UInt8) : prob (fun b : Bytes (32 + n) => b.toList.take 32 = s) ≤ (2 : ℝ) ^ (-256 : ℤ) := by
  unfold prob
  have h : Nat.card {b : Bytes (32 + n) // b.toList.take 32 = s} ≤ Nat.card (Bytes n) := by
    refine Nat.card_le_card_of_injective (fun b => (bytesOf (b.1.toList.drop 32) : Bytes n)) ?_
    rintro ⟨a, ha⟩ ⟨b, hb⟩ h
    have h := congrArg Vector.toList h
    simp only at h
    rw [toList_bytesOf (by simp), toList_bytesOf (by simp)] at h
    have e : a.toList = b.toList := by
      rw [← List.take_append_drop 32 a.toList, h, ha, ← hb, List.take_append_drop]
    exact Subtype.ext (bytes_ext e)
  rw [card_bytes] at h ⊢
  rw [div_le_iff₀ (by positivity)]
  calc ((Nat.card {b : Bytes (32 + n) // b.toList.take 32 = s} : ℕ) : ℝ) ≤ ((256 ^ n : ℕ) : ℝ) := by exact_mod_cast h
    _ = 2 ^ (-256 : ℤ) * ((256 ^ (32 + n) : ℕ) : ℝ) := by
      push_cast
      rw [pow_add, ← mul_assoc]
      norm_num

omit [Build] in
/-- The values of a random table at two points are independent. -/
theorem prob_two {ι α : Type} [Finite ι] [Finite α] [Nonempty α] {x y : ι} (hxy : x ≠ y) (E : α → α → Prop) {c : ℝ}
    (h : ∀ b, prob (fun a => E a b) ≤ c) : prob (fun T : ι → α => E (T x) (T y)) ≤ c := by
  classical
  have := Fintype.ofFinite ι
  have := Fintype.ofFinite α
  rw [prob_eq_expect]
  have h1 := expect_comp_injective (α := α) (j := fun b : Bool => if b then x else y)
    (by
      rintro (_ | _) (_ | _) e
      · rfl
      · exact absurd e.symm hxy
      · exact absurd e hxy
      · rfl)
    fun f => if E (f true) (f false) then (1 : ℝ) else 0
  refine (show _ = _ from h1).trans_le ?_
  rw [Fintype.expect_equiv (Equiv.boolArrowEquivProd α)
    (fun f => if E (f true) (f false) then (1 : ℝ) else 0)
    (fun w => if E w.2 w.1 then (1 : ℝ) else 0) fun f => rfl]
  rw [expect_prod_type]
  refine (Finset.expect_le_expect (g := fun _ => c) fun b _ => ?_).trans (Finset.expect_const Finset.univ_nonempty _).le
  rw [← prob_eq_expect]
  exact h b

omit [Build] in
/-- The values of a random table at two points begin alike with probability `2^-256`. -/
theorem prob_collide {k n l : Nat} (hl : l = 32 + n) {x y : Bytes k} (hxy : x ≠ y) :
    prob (fun T : Bytes k → Bytes l => (T x).toList.take 32 = (T y).toList.take 32) ≤ (2 : ℝ) ^ (-256 : ℤ) := by
  subst hl
  have : Nonempty (Bytes (32 + n)) := ⟨Vector.replicate _ 0⟩
  exact prob_two hxy (fun a b : Bytes (32 + n) => a.toList.take 32 = b.toList.take 32) fun b => prob_front (b.toList.take 32)

omit [Build] in
theorem prob_collide_at {k n l N : Nat} (hl : l = 32 + n) (f : B32 → Bytes k) (hf : ∀ a b, f a = f b → a = b) (i j : Fin N) :
    prob (fun x : (Bytes k → Bytes l) × (Fin N → B32) => x.2 i ≠ x.2 j ∧
      (x.1 (f (x.2 i))).toList.take 32 = (x.1 (f (x.2 j))).toList.take 32) ≤ (2 : ℝ) ^ (-256 : ℤ) := by
  have : Nonempty (Fin N → B32) := ⟨fun _ => Vector.replicate _ 0⟩
  refine prob_fibers _ fun d => ?_
  by_cases e : d i = d j
  · refine le_trans (le_of_eq ?_) (zpow_nonneg zero_le_two _)
    simp [prob, e]
  · have h := prob_collide (k := k) (n := n) hl (x := f (d i)) (y := f (d j)) fun g => e (hf _ _ g)
    exact (prob_mono fun G hG => hG.2).trans h

omit [Build] in
theorem prob_point (b : B32) : prob (fun a : B32 => a = b) ≤ (2 : ℝ) ^ (-256 : ℤ) := by
  unfold prob
  rw [card_bytes, Nat.card_unique]
  norm_num

omit [Build] in
/-- Two of many uniform strings are equal with probability `2^-256`. -/
theorem prob_equal {N : Nat} {i j : Fin N} (hij : i ≠ j) :
    prob (fun d : Fin N → B32 => d i = d j) ≤ (2 : ℝ) ^ (-256 : ℤ) := by
  have : Nonempty B32 := ⟨Vector.replicate _ 0⟩
  exact prob_two hij (fun a b : B32 => a = b) prob_point

omit [Build] in
/-- Something happens for one of the pairs. -/
theorem prob_pairs {α : Type} [Finite α] {N : Nat} (E : Fin N → Fin N → α → Prop) (hs : ∀ i j a, E i j a → E j i a) {c : ℝ}
    (h : ∀ i j, i ≠ j → prob (E i j) ≤ c) :
    prob (fun a => ∃ i j, i ≠ j ∧ E i j a) ≤ ((N * (N - 1) / 2 : ℕ) : ℝ) * c := by
  have hu := prob_exists_le (ι := Σ j : Fin N, Fin j.val) (fun x a => E ⟨x.2.val, x.2.isLt.trans x.1.isLt⟩ x.1 a)
    (fun x => h _ _ fun e => absurd (congrArg Fin.val e) (Nat.ne_of_lt x.2.isLt)) Finset.univ.toList
  have hc : (Finset.univ : Finset (Σ j : Fin N, Fin j.val)).toList.length = N * (N - 1) / 2 := by
    rw [Finset.length_toList, Finset.card_univ, Fintype.card_sigma]
    simp only [Fintype.card_fin]
    rw [Fin.sum_univ_eq_sum_range (fun n => n) N, Finset.sum_range_id]
  rw [hc] at hu
  refine le_trans (prob_mono ?_) hu
  rintro a ⟨i, j, hij, he⟩
  rcases lt_or_gt_of_ne hij with hl | hl
  · exact ⟨⟨j, ⟨i, hl⟩⟩, Finset.mem_toList.2 (Finset.mem_univ _), he⟩
  · exact ⟨⟨i, ⟨j, hl⟩⟩, Finset.mem_toList.2 (Finset.mem_univ _), hs _ _ _ he⟩

/-- The encapsulation keys of two seeds are equal. -/
def SameKey (S : Sha3) (P : ParameterSet) (d d' : B32) : Prop :=
  ∃ (z z' : B32) (dk dk' : DecapsulationKey P) (ek ek' : EncapsulationKey P),
    Kem.generate_deterministic S P d z = .ok (dk, ek) ∧ Kem.generate_deterministic S P d' z' = .ok (dk', ek') ∧
    ek.as_bytes = ek'.as_bytes

omit [Build] in
theorem keySeeds_point (G : Bytes 33 → Bytes 64) (d : B32) (k : UInt8) :
    (Fips203.G (withKeySeeds S G) (d.toList ++ [k])).1 = (G (d.push k)).toList.take 32 := by
  have h : (d.toList ++ [k]).toArray.size = 33 := by simp
  have e : (⟨(d.toList ++ [k]).toArray, h⟩ : Bytes 33) = d.push k := bytes_ext (by simp [Vector.toList])
  unfold Fips203.G withKeySeeds
  simp only
  rw [dif_pos h, e]

/-- **C98** If SHA3-512 is random on the strings that key generation hashes, then among `N` key pairs generated from
independent seeds two have the same encapsulation key with probability at most `N (N - 1) / 2^256`. -/
theorem C98_ml_kem_random (h : Supported P p) (N : Nat) :
    prob (fun ((G, d) : (Bytes 33 → Bytes 64) × (Fin N → B32)) =>
        ∃ i j, i ≠ j ∧ SameKey (withKeySeeds S G) P (d i) (d j))
      ≤ ((N * (N - 1) / 2 : ℕ) : ℝ) * (2 * (2 : ℝ) ^ (-256 : ℤ)) := by
  have : Nonempty (Fin N → B32) := ⟨fun _ => Vector.replicate _ 0⟩
  have : Nonempty (Bytes 33 → Bytes 64) := ⟨fun _ => Vector.replicate _ 0⟩
  refine prob_pairs (N := N) (fun i j (x : (Bytes 33 → Bytes 64) × (Fin N → B32)) => SameKey (withKeySeeds S x.1) P (x.2 i) (x.2 j))
    (fun i j x ⟨z, z', dk, dk', ek, ek', h1, h2, h3⟩ => ⟨z', z, dk', dk, ek', ek, h2, h1, h3.symm⟩) fun i j hij => ?_
  have hb := prob_or_le (fun x : (Bytes 33 → Bytes 64) × (Fin N → B32) => x.2 i = x.2 j)
    fun x => x.2 i ≠ x.2 j ∧ (x.1 ((x.2 i).push (UInt8.ofNat p.k))).toList.take 32
      = (x.1 ((x.2 j).push (UInt8.ofNat p.k))).toList.take 32
  refine le_trans (prob_mono ?_) (hb.trans ?_)
  · rintro ⟨G, d⟩ ⟨z, z', dk, dk', ek, ek', h1, h2, h3⟩
    by_cases e : d i = d j
    · exact .inl e
    · refine .inr ⟨e, ?_⟩
      rcases (C98_ml_kem (withKeySeeds S G) h h1 h2).1 h3 with e' | e'
      · exact absurd e' e
      · have := e'.2
        rwa [keySeeds_point, keySeeds_point] at this
  · have h1 : prob (fun x : (Bytes 33 → Bytes 64) × (Fin N → B32) => x.2 i = x.2 j) ≤ (2 : ℝ) ^ (-256 : ℤ) := by
      rw [prob_snd fun d : Fin N → B32 => d i = d j]
      exact prob_equal hij
    have h2 := prob_collide_at (k := 33) (l := 64) (n := 32) rfl (fun d : B32 => d.push (UInt8.ofNat p.k))
      (fun a b g => Vector.push_inj_left.1 g) i j
    rw [two_mul]
    exact add_le_add h1 h2

/-- Seeds for which key generation returns exist, so that the theorems are about something; and with a hash function that
collides, different seeds do have the same key. -/
example :
    let d : B32 := (Vector.replicate 32 0).set 0 1
    let d' : B32 := (Vector.replicate 32 0).set 1 1
    d ≠ d' ∧ SameKey Toy.S MlKem768Params d d' := by
  intro d d'
  refine ⟨by decide, ?_⟩
  obtain ⟨⟨dk, ek⟩, h⟩ := (C04_generate_outcome Toy.S supported_768 d d).2.2 (Toy.seedOk _ _)
  obtain ⟨⟨dk', ek'⟩, h'⟩ := (C04_generate_outcome Toy.S supported_768 d' d).2.2 (Toy.seedOk _ _)
  refine ⟨d, d, dk, dk', ek, ek', h, h', ?_⟩
  obtain ⟨-, -, rfl⟩ := (generate_ok_iff Toy.S (Supported.valid supported_768)).1 h
  obtain ⟨-, -, rfl⟩ := (generate_ok_iff Toy.S (Supported.valid supported_768)).1 h'
  have e : seeds Toy.S MlKem768Params.toParams d.toList = seeds Toy.S MlKem768Params.toParams d'.toList := by
    have : Toy.total (d.toList ++ [UInt8.ofNat 3]) = Toy.total (d'.toList ++ [UInt8.ofNat 3]) := by decide
    simp only [seeds, Fips203.G, Toy.S]
    rw [show MlKem768Params.K = 3 from rfl, this]
  unfold genEk
  simp only [e]

end MlKem

namespace XWing
open Rust Fips203 XWingSpec Finset BigOperators
open MlKem hiding G

variable [Build]
variable (S : Sha3) (X : X25519)

/-- **C98** X-Wing secret keys whose public keys are equal are equal, or the first 32 bytes of SHAKE128 collide on them, or
SHA3-512's first half on the seeds made from them. -/
theorem C98_xwing {sk sk' : DecapsulationKey} {pk pk' : EncapsulationKey} (h : sk.encapsulation_key S X = .ok pk)
    (h' : sk'.encapsulation_key S X = .ok pk') (e : pk.as_bytes = pk'.as_bytes) :
    sk = sk' ∨
    (sk.as_bytes ≠ sk'.as_bytes ∧ prefixBytes 32 (S.shake128 sk.as_bytes.toList) = prefixBytes 32 (S.shake128 sk'.as_bytes.toList)) ∨
    CollideG S ((seedD S sk.as_bytes.toList).toList ++ [3]) ((seedD S sk'.as_bytes.toList).toList ++ [3]) := by
  obtain ⟨b, h1, h2⟩ := C39_public_roundtrip S X (.derived h)
  obtain ⟨b', h1', h2'⟩ := C39_public_roundtrip S X (.derived h')
  obtain rfl : b = b' := Res.ok.inj (h1.symm.trans (e.trans h1'))
  obtain rfl : pk = pk' := Res.ok.inj (h2.symm.trans h2')
  obtain ⟨dk, g, -⟩ := derived_shape S X h
  obtain ⟨dk', g', -⟩ := derived_shape S X h'
  by_cases hs : sk.as_bytes = sk'.as_bytes
  · left
    cases sk; cases sk'
    exact congrArg _ hs
  · right
    rcases (C98_ml_kem S supported_768 g g').1 rfl with hd | hc
    · left
      refine ⟨hs, ?_⟩
      unfold seedD at hd
      rw [slice_expand S _ (by omega), slice_expand S _ (by omega)] at hd
      have := congrArg Vector.toList hd
      simp only [Vector.toList_ofFn, Nat.zero_add] at this
      exact this
    · exact .inr hc

omit [Build] in
theorem expansion_point (E : Bytes 32 → Bytes 96) (sk : Bytes 32) :
    prefixBytes 32 ((withExpansion S E).shake128 sk.toList) = (E sk).toList.take 32 := by
  have h : sk.toList.toArray.size = 32 := by simp
  have e : (⟨sk.toList.toArray, h⟩ : Bytes 32) = sk := bytes_ext rfl
  apply List.ext_getElem
  · simp [prefixBytes]
  · intro n hn hn'
    have hn : n < 32 := by simpa [prefixBytes] using hn
    simp only [prefixBytes, List.getElem_ofFn, List.getElem_take, Vector.getElem_toList, withExpansion]
    rw [dif_pos ⟨h, by omega⟩, e]

/-- The public keys of two secrets are equal. -/
def SameKey (S : Sha3) (b b' : Bytes 32) : Prop :=
  ∃ pk pk' : EncapsulationKey, (DecapsulationKey.from_bytes b).encapsulation_key S X = .ok pk ∧
    (DecapsulationKey.from_bytes b').encapsulation_key S X = .ok pk' ∧ pk.as_bytes = pk'.as_bytes

/-- The ML-KEM seed of a secret, with a table -/
def seedOf (S : Sha3) (E : Bytes 32 → Bytes 96) (b : Bytes 32) : B32 := seedD (withExpansion S E) b.toList

theorem SameKey.cases {G : Bytes 33 → Bytes 64} {E : Bytes 32 → Bytes 96} {b b' : Bytes 32}
    (h : SameKey X (withExpansion (withKeySeeds S G) E) b b') :
    b = b' ∨ (b ≠ b' ∧ (E b).toList.take 32 = (E b').toList.take 32) ∨
    (seedOf S E b ≠ seedOf S E b' ∧ (G ((seedOf S E b).push 3)).toList.take 32 = (G ((seedOf S E b').push 3)).toList.take 32) := by
  obtain ⟨pk, pk', h1, h2, h3⟩ := h
  have hd : ∀ b : Bytes 32, seedD (withExpansion (withKeySeeds S G) E) b.toList = seedOf S E b := fun _ => rfl
  have hG : ∀ l, Fips203.G (withExpansion (withKeySeeds S G) E) l = Fips203.G (withKeySeeds S G) l := fun _ => rfl
  rcases C98_xwing _ X h1 h2 h3 with e | e | e
  · exact .inl (congrArg DecapsulationKey.sk e)
  · replace e : b ≠ b' ∧ prefixBytes 32 ((withExpansion (withKeySeeds S G) E).shake128 (Vector.toList (n := 32) b))
        = prefixBytes 32 ((withExpansion (withKeySeeds S G) E).shake128 (Vector.toList (n := 32) b')) := e
    rw [expansion_point, expansion_point] at e
    exact .inr (.inl e)
  · replace e : CollideG (withExpansion (withKeySeeds S G) E)
        ((seedD (withExpansion (withKeySeeds S G) E) (Vector.toList (n := 32) b)).toList ++ [3])
        ((seedD (withExpansion (withKeySeeds S G) E) (Vector.toList (n := 32) b')).toList ++ [3]) := e
    unfold CollideG at e
    rw [hd, hd, hG, hG, keySeeds_point, keySeeds_point] at e
    exact .inr (.inr ⟨fun g => e.1 (by rw [g]), e.2⟩)

theorem same_pair {N : Nat} {i j : Fin N} (hij : i ≠ j) :
    prob (fun x : (Bytes 33 → Bytes 64) × (Bytes 32 → Bytes 96) × (Fin N → B32) =>
      SameKey X (withExpansion (withKeySeeds S x.1) x.2.1) (x.2.2 i) (x.2.2 j)) ≤ 3 * (2 : ℝ) ^ (-256 : ℤ) := by
  have : Nonempty (Fin N → B32) := ⟨fun _ => Vector.replicate _ 0⟩
  have : Nonempty (Bytes 33 → Bytes 64) := ⟨fun _ => Vector.replicate _ 0⟩
  have : Nonempty (Bytes 32 → Bytes 96) := ⟨fun _ => Vector.replicate _ 0⟩
  have h1 : prob (fun x : (Bytes 33 → Bytes 64) × (Bytes 32 → Bytes 96) × (Fin N → B32) => x.2.2 i = x.2.2 j)
      ≤ (2 : ℝ) ^ (-256 : ℤ) := by
    rw [prob_snd fun x : (Bytes 32 → Bytes 96) × (Fin N → B32) => x.2 i = x.2 j, prob_snd fun d : Fin N → B32 => d i = d j]
    exact prob_equal hij
  have h2 : prob (fun x : (Bytes 33 → Bytes 64) × (Bytes 32 → Bytes 96) × (Fin N → B32) =>
      x.2.2 i ≠ x.2.2 j ∧ (x.2.1 (x.2.2 i)).toList.take 32 = (x.2.1 (x.2.2 j)).toList.take 32) ≤ (2 : ℝ) ^ (-256 : ℤ) := by
    rw [prob_snd fun x : (Bytes 32 → Bytes 96) × (Fin N → B32) =>
      x.2 i ≠ x.2 j ∧ (x.1 (x.2 i)).toList.take 32 = (x.1 (x.2 j)).toList.take 32]
    exact prob_collide_at (k := 32) (l := 96) (n := 64) rfl (fun d : B32 => d) (fun a b g => g) i j
  have h3 : prob (fun x : (Bytes 33 → Bytes 64) × (Bytes 32 → Bytes 96) × (Fin N → B32) =>
      seedOf S x.2.1 (x.2.2 i) ≠ seedOf S x.2.1 (x.2.2 j) ∧ (x.1 ((seedOf S x.2.1 (x.2.2 i)).push 3)).toList.take 32
        = (x.1 ((seedOf S x.2.1 (x.2.2 j)).push 3)).toList.take 32) ≤ (2 : ℝ) ^ (-256 : ℤ) := by
    refine prob_fibers _ fun y => ?_
    by_cases e : seedOf S y.1 (y.2 i) = seedOf S y.1 (y.2 j)
    · refine le_trans (le_of_eq ?_) (zpow_nonneg zero_le_two _)
      simp [prob, e]
    · have h := prob_collide (k := 33) (l := 64) (n := 32) rfl (x := (seedOf S y.1 (y.2 i)).push 3)
        (y := (seedOf S y.1 (y.2 j)).push 3) fun g => e (Vector.push_inj_left.1 g)
      exact (prob_mono fun G hG => hG.2).trans h
  generalize (2 : ℝ) ^ (-256 : ℤ) = c at h1 h2 h3 ⊢
  refine (prob_mono fun x hx => SameKey.cases S X hx).trans ?_
  refine (prob_or_le _ _).trans ?_
  have := prob_or_le (fun x : (Bytes 33 → Bytes 64) × (Bytes 32 → Bytes 96) × (Fin N → B32) =>
      x.2.2 i ≠ x.2.2 j ∧ (x.2.1 (x.2.2 i)).toList.take 32 = (x.2.1 (x.2.2 j)).toList.take 32)
    fun x => seedOf S x.2.1 (x.2.2 i) ≠ seedOf S x.2.1 (x.2.2 j) ∧ (x.1 ((seedOf S x.2.1 (x.2.2 i)).push 3)).toList.take 32
        = (x.1 ((seedOf S x.2.1 (x.2.2 j)).push 3)).toList.take 32
  linarith

/-- **C98** If SHAKE128 and SHA3-512 are random on the strings that key generation hashes, then among `N` X-Wing key pairs
from independent secrets two have the same public key with probability at most `3 N (N - 1) / 2^257`. -/
theorem C98_xwing_random (N : Nat) :
    prob (fun ((G, E, sk) : (Bytes 33 → Bytes 64) × (Bytes 32 → Bytes 96) × (Fin N → B32)) =>
        ∃ i j, i ≠ j ∧ SameKey X (withExpansion (withKeySeeds S G) E) (sk i) (sk j))
      ≤ ((N * (N - 1) / 2 : ℕ) : ℝ) * (3 * (2 : ℝ) ^ (-256 : ℤ)) := by
  have h := fun (i j : Fin N) (hij : i ≠ j) => same_pair S X hij
  generalize (2 : ℝ) ^ (-256 : ℤ) = c at h ⊢
  exact prob_pairs (N := N) (fun i j (x : (Bytes 33 → Bytes 64) × (Bytes 32 → Bytes 96) × (Fin N → B32)) =>
      SameKey X (withExpansion (withKeySeeds S x.1) x.2.1) (x.2.2 i) (x.2.2 j))
    (fun i j x ⟨pk, pk', h1, h2, h3⟩ => ⟨pk', pk, h2, h1, h3.symm⟩) h

/-- Keys as in the theorem exist. -/
example (sk : DecapsulationKey) : ∃ pk, sk.encapsulation_key Toy.S X = .ok pk ∧ SameKey X Toy.S sk.sk sk.sk := by
  obtain ⟨⟨dk, ek⟩, h⟩ := (C04_generate_outcome Toy.S supported_768 (seedD Toy.S sk.sk.toList) (seedZ Toy.S sk.sk.toList)).2.2
    (Toy.seedOk _ _)
  have h' : sk.encapsulation_key Toy.S X = .ok ⟨ek, X.publicKey (secretX Toy.S sk.sk.toList)⟩ := by
    unfold DecapsulationKey.encapsulation_key
    rw [expand_key_eq, h]
    rfl
  exact ⟨_, h', _, _, h', h', rfl⟩

end XWing
