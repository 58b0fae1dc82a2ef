import Verif.Proofs.TailTables
import Verif.Spec.Random
import Verif.Props.KemCorrect
import Verif.Props.XWing
/-! C61: decapsulation of an honest ciphertext fails with negligible probability. -/
namespace MlKem
open Rust Fips203 Finset BigOperators

/-! ### Noise from tables -/

/-- A 33-byte string `s ‖ b` -/
def point (s : List UInt8) (b : Nat) : Bytes 33 := bytesOf (s ++ [UInt8.ofNat b])

theorem point_toList {s : List UInt8} (hs : s.length = 32) (b : Nat) : (point s b).toList = s ++ [UInt8.ofNat b] :=
  toList_bytesOf (by simp [hs])

theorem point_inj {s t : List UInt8} (hs : s.length = 32) (ht : t.length = 32) {a b : Nat} (ha : a < 256) (hb : b < 256)
    (h : point s a = point t b) : s = t ∧ a = b := by
  have h := congrArg Vector.toList h
  rw [point_toList hs, point_toList ht] at h
  obtain ⟨h1, h2⟩ := List.append_inj' h rfl
  refine ⟨h1, ?_⟩
  have h3 : UInt8.ofNat a = UInt8.ofNat b := by simpa using h2
  have := congrArg UInt8.toNat h3
  simpa [UInt8.toNat_ofNat', Nat.mod_eq_of_lt ha, Nat.mod_eq_of_lt hb] using this

theorem withPrf_PRF (S : Sha3) (F : Bytes 33 → Bytes 192) {eta : Nat} (he : eta ≤ 3) {s : List UInt8}
    (hs : s.length = 32) (b : Nat) :
    Fips203.PRF (withPrf S F) eta s b = (F (point s b)).toList.take (64 * eta) := by
  have hp : ∀ h, (⟨(s ++ [UInt8.ofNat b]).toArray, h⟩ : Bytes 33) = point s b := fun h =>
    bytes_ext (by rw [point_toList hs]; rfl)
  apply List.ext_getElem
  · unfold Fips203.PRF prefixBytes
    rw [List.length_ofFn, List.length_take, Vector.length_toList]
    omega
  · intro i h1 h2
    unfold Fips203.PRF prefixBytes at h1 ⊢
    rw [List.length_ofFn] at h1
    rw [List.getElem_ofFn, List.getElem_take, Vector.getElem_toList]
    show (withPrf S F).shake256 _ i = _
    unfold withPrf
    simp only
    rw [dif_pos ⟨by simp [hs], by omega⟩]
    simp only [hp]

theorem cbd_take {eta : Nat} (B : List UInt8) : SamplePolyCBD eta (B.take (64 * eta)) = SamplePolyCBD eta B := by
  have hb : ∀ t, t < 512 * eta → bit (B.take (64 * eta)) t = bit B t := by
    intro t ht
    unfold bit
    rw [List.getD_eq_getElem?_getD, List.getD_eq_getElem?_getD, List.getElem?_take_of_lt (by omega)]
  funext i
  unfold SamplePolyCBD
  have hi := i.isLt
  have h1 : 2 * i.val * eta + 2 * eta ≤ 512 * eta := by
    have : (2 * i.val + 2) * eta ≤ 512 * eta := Nat.mul_le_mul_right _ (by omega)
    linarith
  congr 1
  · refine Finset.sum_congr rfl fun j hj => ?_
    rw [hb _ (by have := Finset.mem_range.1 hj; omega)]
  · refine Finset.sum_congr rfl fun j hj => ?_
    rw [hb _ (by have := Finset.mem_range.1 hj; omega)]

theorem prf_cbd (S : Sha3) (F : Bytes 33 → Bytes 192) {eta : Nat} (he : eta ≤ 3) {s : List UInt8}
    (hs : s.length = 32) (b : Nat) :
    SamplePolyCBD eta (Fips203.PRF (withPrf S F) eta s b) = SamplePolyCBD eta (F (point s b)).toList := by
  rw [withPrf_PRF S F he hs, cbd_take]

theorem seeds_withPrf (S : Sha3) (F : Bytes 33 → Bytes 192) (p : Params) (d : List UInt8) :
    seeds (withPrf S F) p d = seeds S p d := rfl

theorem matA_withPrf (S : Sha3) (F : Bytes 33 → Bytes 192) : matA (withPrf S F) = matA S := rfl

section
variable (S : Sha3) (p : Params)

/-- The points where key generation reads the table -/
def keyPoints (sigma : List UInt8) : Fin p.k ⊕ Fin p.k → Bytes 33 :=
  Sum.elim (fun i => point sigma i.val) fun i => point sigma (p.k + i.val)

/-- The points where encryption reads the table -/
def encPoints (r : List UInt8) : Fin p.k ⊕ Fin p.k ⊕ Unit → Bytes 33 :=
  Sum.elim (fun i => point r i.val) (Sum.elim (fun i => point r (p.k + i.val)) fun _ => point r (2 * p.k))

variable {p}

theorem keyPoints_injective (hk : 2 * p.k ≤ 255) {sigma : List UInt8} (hs : sigma.length = 32) :
    Function.Injective (keyPoints p sigma) := by
  rintro (i | i) (j | j) h <;> simp only [keyPoints, Sum.elim_inl, Sum.elim_inr] at h <;>
    have h := (point_inj hs hs (by omega) (by omega) h).2
  · rw [Fin.ext h]
  · omega
  · omega
  · rw [Fin.ext (Nat.add_left_cancel h)]

theorem encPoints_injective (hk : 2 * p.k ≤ 255) {r : List UInt8} (hs : r.length = 32) :
    Function.Injective (encPoints p r) := by
  have key : ∀ {a b : Nat}, a < 256 → b < 256 → point r a = point r b → a = b := fun ha hb h =>
    (point_inj hs hs ha hb h).2
  rintro (i | i | i) (j | j | j) h
  · rw [Fin.ext (key (by omega) (by omega) h)]
  · have := key (a := i.val) (b := p.k + j.val) (by omega) (by omega) h; omega
  · have := key (a := i.val) (b := 2 * p.k) (by omega) (by omega) h; omega
  · have := key (a := p.k + i.val) (b := j.val) (by omega) (by omega) h; omega
  · rw [Fin.ext (Nat.add_left_cancel (key (a := p.k + i.val) (b := p.k + j.val) (by omega) (by omega) h))]
  · have := key (a := p.k + i.val) (b := 2 * p.k) (by omega) (by omega) h; omega
  · have := key (a := 2 * p.k) (b := j.val) (by omega) (by omega) h; omega
  · have := key (a := 2 * p.k) (b := p.k + j.val) (by omega) (by omega) h; omega
  · rfl

theorem points_disjoint (hk : 2 * p.k ≤ 255) {sigma r : List UInt8} (hs : sigma.length = 32) (hr : r.length = 32)
    (hne : r ≠ sigma) (t u) : encPoints p r t ≠ keyPoints p sigma u := by
  intro h
  rcases t with i | i | i <;> rcases u with j | j <;>
    simp only [encPoints, keyPoints, Sum.elim_inl, Sum.elim_inr] at h <;>
    exact hne (point_inj hr hs (by omega) (by omega) h).1

variable (p)

/-- The public key as a function of key generation's noise strings -/
noncomputable def tableEk (d : List UInt8) (x : KeyNoise p.k) : List UInt8 :=
  encodeVec 12 (fun i => rep ((∑ j : Fin p.k, MultiplyNTTs (matA S (seeds S p d).1 i.val j.val)
    (NTT (SamplePolyCBD p.eta1 (x (.inl j)).toList))) + NTT (SamplePolyCBD p.eta1 (x (.inr i)).toList)))
    ++ (seeds S p d).1

/-- The encryption randomness as a function of key generation's noise strings -/
noncomputable def tableR (d m : List UInt8) (x : KeyNoise p.k) : List UInt8 :=
  (Fips203.G S (m ++ Fips203.H S (tableEk S p d x))).2

/-- `Aᵀy` as a function of encryption's noise strings -/
noncomputable def tableU0 (d : List UInt8) (r : Fin p.k → Bytes 192) (i : Fin p.k) : Poly :=
  NTTinv (∑ j : Fin p.k, MultiplyNTTs (matA S (seeds S p d).1 j.val i.val) (NTT (SamplePolyCBD p.eta1 (r j).toList)))

/-- `u` as a function of encryption's noise strings -/
noncomputable def tableU (d : List UInt8) (y : EncNoise p.k) (i : Fin p.k) : Poly :=
  tableU0 S p d (fun i => y (.inl i)) i + SamplePolyCBD p.eta2 (y (.inr (.inl i))).toList

/-- `e₁ + c_u` as integers -/
noncomputable def tableW (d : List UInt8) (y : EncNoise p.k) (i : Fin p.k) (n : Fin 256) : ℤ :=
  cbdZ p.eta2 (y (.inr (.inl i))).toList n + (lossOf p.du (tableU S p d y i) n).valMinAbs

variable {p}

theorem tableEk_eq (he : p.eta1 ≤ 3) (F : Bytes 33 → Bytes 192) (d : List UInt8) :
    (KPKE_KeyGen (withPrf S F) p d).1 = tableEk S p d (F ∘ keyPoints p (seeds S p d).2) := by
  unfold KPKE_KeyGen tableEk
  simp only [seeds_withPrf, matA_withPrf, prf_cbd S F he (seeds_length S p d).2]
  rfl

theorem tableW_eq (d : List UInt8) (y : EncNoise p.k) :
    tableW S p d y = spreadOf p.eta2 (rounding p.du) (tableU0 S p d) y := by
  funext i n
  unfold tableW spreadOf rounding lossOf tableU
  rw [cbdZ_cast]
  rfl

/-- If the linear part of the noise is small, the noise is in its window. -/
theorem noiseOk_of_linear (h1 : p.eta1 ≤ 3) (h2 : p.eta2 ≤ 3) (hdv1 : 1 ≤ p.dv) (hdv2 : p.dv ≤ 11)
    (F : Bytes 33 → Bytes 192) (d m : List UInt8) {r : List UInt8} (hr : r.length = 32)
    (h : ∀ n, |linear p.eta1 (F ∘ keyPoints p (seeds S p d).2) (F ∘ encPoints p r)
      (tableW S p d (F ∘ encPoints p r)) n| ≤ 831 - p.eta2 - round ((3329 : ℚ) / 2 ^ (p.dv + 1))) :
    NoiseOk (withPrf S F) p d m r := by
  intro n
  have hl := (seeds_length S p d).2
  set x : KeyNoise p.k := F ∘ keyPoints p (seeds S p d).2 with hx
  set y : EncNoise p.k := F ∘ encPoints p r with hy
  have eS : ∀ i, secretS (withPrf S F) p d i = SamplePolyCBD p.eta1 (x (.inl i)).toList := fun i => by
    exact prf_cbd S F h1 hl _
  have eE : ∀ i, errorE (withPrf S F) p d i = SamplePolyCBD p.eta1 (x (.inr i)).toList := fun i => by
    exact prf_cbd S F h1 hl _
  have eY : ∀ i, ephemeralY (withPrf S F) p r i = SamplePolyCBD p.eta1 (y (.inl i)).toList := fun i => by
    exact prf_cbd S F h1 hr _
  have eE1 : ∀ i, errorE1 (withPrf S F) p r i = SamplePolyCBD p.eta2 (y (.inr (.inl i))).toList := fun i => by
    exact prf_cbd S F h2 hr _
  have eU : ∀ i, cipherU (withPrf S F) p d r i = tableU S p d y i := fun i => by
    unfold cipherU tableU tableU0
    simp only [eY, eE1]
    rfl
  have hw : ∀ i n, ((tableW S p d y i n : ℤ) : Zq)
      = (errorE1 (withPrf S F) p r i + lossOf p.du (cipherU (withPrf S F) p d r i)) n := by
    intro i n
    unfold tableW
    push_cast
    rw [cbdZ_cast, eE1, eU]
    rfl
  have e : noise (withPrf S F) p d m r n = ((linear p.eta1 x y (tableW S p d y) n : ℤ) : Zq)
      + (errorE2 (withPrf S F) p r n + lossOf p.dv (cipherV (withPrf S F) p d m r) n) := by
    unfold noise linear
    simp only [Pi.sub_apply, Pi.add_apply, Finset.sum_apply]
    push_cast
    have e1 : ∀ i, ringMul (errorE (withPrf S F) p d i) (ephemeralY (withPrf S F) p r i) n
        = ∑ j, ((cbdZ p.eta1 (x (.inr i)).toList j : ℤ) : Zq) * ((rot (cbdZ p.eta1 (y (.inl i)).toList) n j : ℤ) : Zq) := by
      intro i
      rw [eE, eY, ringMul_cast (fun n => cbdZ_cast _ _ n) (fun n => cbdZ_cast _ _ n)]
      push_cast
      rfl
    have e2 : ∀ i, ringMul (secretS (withPrf S F) p d i)
        (errorE1 (withPrf S F) p r i + lossOf p.du (cipherU (withPrf S F) p d r i)) n
        = ∑ j, ((cbdZ p.eta1 (x (.inl i)).toList j : ℤ) : Zq) * ((rot (tableW S p d y i) n j : ℤ) : Zq) := by
      intro i
      rw [eS, ringMul_cast (fun n => cbdZ_cast _ _ n) (hw i)]
      push_cast
      rfl
    simp only [e1, e2]
    ring
  have hb := (Bnd.add ⟨_, rfl, h n⟩ (Bnd.add (cbd_bnd p.eta2 _ n) (loss_bnd hdv1 hdv2
    (cipherV (withPrf S F) p d m r) n)) : Bnd _ (_ + (errorE2 (withPrf S F) p r n + _)))
  rw [← e] at hb
  have hb := (hb.mono (C := 831) (by omega)).le (by omega)
  rw [abs_le] at hb
  have : ((bit m n.val).toNat : ℤ) ≤ 1 := by cases bit m n.val <;> simp
  exact ⟨by omega, by omega⟩

/-! ### The probability of failure -/

theorem prob_eq_expect {α : Type} [Fintype α] (E : α → Prop) [DecidablePred E] :
    prob E = 𝔼 a, if E a then (1 : ℝ) else 0 := by
  unfold prob
  rw [Fintype.expect_eq_sum_div_card, Finset.sum_boole, Nat.card_eq_fintype_card, Nat.card_eq_fintype_card,
    Fintype.card_subtype]

/-- Key generation and encapsulation return, and decapsulation does not return the encapsulated key. -/
def Disagree [Build] (S : Sha3) (P : ParameterSet) (d z m : B32) : Prop :=
  ∃ (dk : DecapsulationKey P) (ek : EncapsulationKey P) (c : P.EncodedCiphertext) (K : SharedKey),
    Kem.generate_deterministic S P d z = .ok (dk, ek) ∧ ek.encapsulate_deterministic S m = .ok (c, K) ∧
    dk.decapsulate S c ≠ .ok K

/-- The noise of the encapsulation of `m` to the key generated from `d` leaves its window. -/
def BadNoise (S : Sha3) (p : Params) (d m : List UInt8) : Prop :=
  ¬ NoiseOk S p d m (encapsRandomness S (KPKE_KeyGen S p d).1 m)

/-- The randomness of the encapsulation is not the noise seed of key generation, `σ`. -/
def Fresh (S : Sha3) (p : Params) (d m : List UInt8) : Prop :=
  encapsRandomness S (KPKE_KeyGen S p d).1 m ≠ (seeds S p d).2

open Classical in
/-- The probability of a failure, as an average over independent noise -/
theorem failure_linear {P : ParameterSet} (h : Supported P p) (h3 : p.eta1 ≤ 3)
    (h3' : p.eta2 ≤ 3) (hdv : p.dv ≤ 11) {T : Nat}
    (hT : 832 - (p.eta2 : ℤ) - round ((3329 : ℚ) / 2 ^ (p.dv + 1)) = T) (d m : B32) :
    prob (fun F : Bytes 33 → Bytes 192 => BadNoise (withPrf S F) p d.toList m.toList ∧ Fresh (withPrf S F) p d.toList m.toList)
      ≤ 𝔼 x : KeyNoise p.k, 𝔼 y : EncNoise p.k, ∑ n, if (T : ℤ) ≤ |linear p.eta1 x y
        (spreadOf p.eta2 (rounding p.du) (tableU0 S p d.toList) y) n| then (1 : ℝ) else 0 := by
  have hs := (seeds_length S p d.toList).2
  have hr : ∀ x, (tableR S p d.toList m.toList x).length = 32 := fun x => (G_length S _).2
  have hrand : ∀ F : Bytes 33 → Bytes 192, encapsRandomness (withPrf S F) (KPKE_KeyGen (withPrf S F) p d.toList).1 m.toList
      = tableR S p d.toList m.toList (F ∘ keyPoints p (seeds S p d.toList).2) := by
    intro F
    unfold encapsRandomness tableR
    rw [tableEk_eq S h3]
    rfl
  simp only [← tableW_eq]
  rw [prob_eq_expect]
  refine (expect_adaptive (keyPoints_injective h.k_le hs)
    (fun x => encPoints p (tableR S p d.toList m.toList x))
    (fun x y => ∑ n, if (T : ℤ) ≤ |linear p.eta1 x y (tableW S p d.toList y) n| then (1 : ℝ) else 0)
    (fun x y => Finset.sum_nonneg fun n _ => by split <;> norm_num) _ ?_ ?_)
  · intro F
    split
    case isTrue hF =>
      have : ∃ n, (T : ℤ) ≤ |linear p.eta1 (F ∘ keyPoints p (seeds S p d.toList).2)
          (F ∘ encPoints p (tableR S p d.toList m.toList (F ∘ keyPoints p (seeds S p d.toList).2)))
          (tableW S p d.toList (F ∘ encPoints p (tableR S p d.toList m.toList (F ∘ keyPoints p (seeds S p d.toList).2)))) n| := by
        by_contra hn
        push Not at hn
        refine hF.1 ?_
        rw [hrand]
        refine noiseOk_of_linear S h3 h3' h.dv_pos hdv F _ _ (hr _) fun n => ?_
        have := hn n
        omega
      obtain ⟨n, hn⟩ := this
      refine le_trans (le_of_eq ?_) (Finset.single_le_sum (f := fun n => if (T : ℤ) ≤ |linear p.eta1
        (F ∘ keyPoints p (seeds S p d.toList).2)
        (F ∘ encPoints p (tableR S p d.toList m.toList (F ∘ keyPoints p (seeds S p d.toList).2)))
        (tableW S p d.toList (F ∘ encPoints p (tableR S p d.toList m.toList (F ∘ keyPoints p (seeds S p d.toList).2)))) n|
        then (1 : ℝ) else 0) (fun n _ => by split <;> norm_num) (Finset.mem_univ n))
      rw [if_pos hn]
    · exact Finset.sum_nonneg fun n _ => by split <;> norm_num
  · intro F hF
    split
    case isTrue hF' =>
      refine absurd ⟨encPoints_injective h.k_le (hr _), fun t u => points_disjoint h.k_le hs (hr _) ?_ t u⟩ hF
      have := hF'.2
      unfold Fresh at this
      rw [hrand] at this
      exact this
    · exact le_rfl

theorem failure_expect {P : ParameterSet} (h : Supported P p) (h0 : 0 < p.eta1) (h3 : p.eta1 ≤ 3)
    (h0' : 0 < p.eta2) (h3' : p.eta2 ≤ 3) (hdv : p.dv ≤ 11) {T : Nat}
    (hT : 832 - (p.eta2 : ℤ) - round ((3329 : ℚ) / 2 ^ (p.dv + 1)) = T) {t c : ℝ} (ht : 1 ≤ t)
    (hc : ∀ v, spread p.eta1 p.eta2 t (rounding p.du) v ≤ c) (d m : B32) :
    prob (fun F : Bytes 33 → Bytes 192 => BadNoise (withPrf S F) p d.toList m.toList ∧ Fresh (withPrf S F) p d.toList m.toList)
      ≤ 256 * (2 * t ^ (-(T : ℤ)) * (mgf2 p.eta1 t * c) ^ (256 * p.k)) := by
  refine (failure_linear S h h3 h3' hdv hT d m).trans ?_
  simp only [Finset.expect_sum_comm]
  refine (Finset.sum_le_sum fun n _ => tail_bound h0 h3 h0' h3' ht (rounding p.du) (tableU0 S p d.toList) T hc n).trans
    (le_of_eq ?_)
  rw [Finset.sum_const, Finset.card_univ, Fintype.card_fin, nsmul_eq_mul]
  push_cast
  ring

theorem seeds_withDerive (R : Bytes 64 → Bytes 64) {d : List UInt8} (hd : d.length = 32) :
    seeds (withDerive S R) p d = seeds S p d := by
  unfold seeds Fips203.G withDerive
  simp [hd]

theorem keygen_withDerive (R : Bytes 64 → Bytes 64) (F : Bytes 33 → Bytes 192) {d : List UInt8} (hd : d.length = 32) :
    KPKE_KeyGen (withPrf (withDerive S R) F) p d = KPKE_KeyGen (withPrf S F) p d := by
  unfold KPKE_KeyGen
  simp only [seeds_withPrf, seeds_withDerive S R hd]
  rfl

/-- A uniform value has a given second half with probability `2^-256`. -/
theorem prob_half (s : List UInt8) : prob (fun b : Bytes 64 => b.toList.drop 32 = s) ≤ (2 : ℝ) ^ (-256 : ℤ) := by
  unfold prob
  have h : Nat.card {b : Bytes 64 // b.toList.drop 32 = s} ≤ Nat.card (Bytes 32) := by
    refine Nat.card_le_card_of_injective (fun b => (bytesOf (b.1.toList.take 32) : Bytes 32)) ?_
    rintro ⟨a, ha⟩ ⟨b, hb⟩ h
    have h := congrArg Vector.toList h
    simp only at h
    rw [toList_bytesOf (by simp), toList_bytesOf (by simp)] at h
    have e : a.toList = b.toList := by
      rw [← List.take_append_drop 32 a.toList, h, ha, ← hb, List.take_append_drop]
    exact Subtype.ext (bytes_ext e)
  rw [card_bytes] at h ⊢
  rw [div_le_iff₀ (by positivity)]
  calc ((Nat.card {b : Bytes 64 // b.toList.drop 32 = s} : ℕ) : ℝ) ≤ ((256 ^ 32 : ℕ) : ℝ) := by exact_mod_cast h
    _ = 2 ^ (-256 : ℤ) * ((256 ^ 64 : ℕ) : ℝ) := by norm_num

theorem derive_point {a b : List UInt8} (h : a.length + b.length = 64) (R : Bytes 64 → Bytes 64) :
    (Fips203.G (withDerive S R) (a ++ b)).2 = (R (bytesOf (a ++ b))).toList.drop 32 := by
  have h' : (a ++ b).toArray.size = 64 := by simp [h]
  unfold Fips203.G withDerive
  simp only
  rw [dif_pos h']
  have : (⟨(a ++ b).toArray, h'⟩ : Bytes 64) = bytesOf (a ++ b) :=
    bytes_ext (by rw [toList_bytesOf (by simp [h])]; rfl)
  rw [this]

open Classical in
/-- The encapsulation's randomness is the key's noise seed with probability at most `2^-256`. -/
theorem not_fresh_expect (F : Bytes 33 → Bytes 192) (d m : B32) :
    𝔼 R : Bytes 64 → Bytes 64, (if Fresh (withPrf (withDerive S R) F) p d.toList m.toList then (0 : ℝ) else 1)
      ≤ (2 : ℝ) ^ (-256 : ℤ) := by
  let ek := (KPKE_KeyGen (withPrf S F) p d.toList).1
  let pt : Bytes 64 := bytesOf (m.toList ++ Fips203.H S ek)
  have hl : m.toList.length + (Fips203.H S ek).length = 64 := by unfold Fips203.H; simp
  have e : ∀ R : Bytes 64 → Bytes 64, (if Fresh (withPrf (withDerive S R) F) p d.toList m.toList then (0 : ℝ) else 1)
      = (fun y : Unit → Bytes 64 => if (y ()).toList.drop 32 = (seeds S p d.toList).2 then (1 : ℝ) else 0)
        (R ∘ fun _ => pt) := by
    intro R
    have h1 : Fresh (withPrf (withDerive S R) F) p d.toList m.toList
        ↔ ¬ (R pt).toList.drop 32 = (seeds S p d.toList).2 := by
      unfold Fresh encapsRandomness
      rw [keygen_withDerive S R F Vector.length_toList, seeds_withPrf, seeds_withDerive S R Vector.length_toList]
      show ¬ (Fips203.G (withDerive S R) (m.toList ++ Fips203.H S ek)).2 = _ ↔ _
      rw [derive_point S hl]
    simp only [h1, Function.comp_apply, ite_not]
  rw [Finset.expect_congr rfl fun R _ => e R, expect_comp_injective (j := fun _ : Unit => pt) (fun _ _ _ => rfl)
    (fun y : Unit → Bytes 64 => if (y ()).toList.drop 32 = (seeds S p d.toList).2 then (1 : ℝ) else 0)]
  refine (le_of_eq (Fintype.expect_equiv (Equiv.funUnique Unit (Bytes 64)) _
    (fun b : Bytes 64 => if b.toList.drop 32 = (seeds S p d.toList).2 then (1 : ℝ) else 0) fun y => rfl)).trans ?_
  rw [← prob_eq_expect]
  exact prob_half _

open Classical in
/-- Both tables at random -/
theorem failure_total {B : ℝ} (d m : B32)
    (hB : ∀ R, prob (fun F : Bytes 33 → Bytes 192 => BadNoise (withPrf (withDerive S R) F) p d.toList m.toList ∧
      Fresh (withPrf (withDerive S R) F) p d.toList m.toList) ≤ B) :
    prob (fun T : (Bytes 33 → Bytes 192) × (Bytes 64 → Bytes 64) =>
      BadNoise (withPrf (withDerive S T.2) T.1) p d.toList m.toList) ≤ B + 2 ^ (-256 : ℤ) := by
  rw [prob_eq_expect, expect_prod_type]
  have h : ∀ (F : Bytes 33 → Bytes 192) (R : Bytes 64 → Bytes 64),
      (if BadNoise (withPrf (withDerive S R) F) p d.toList m.toList then (1 : ℝ) else 0)
      ≤ (if BadNoise (withPrf (withDerive S R) F) p d.toList m.toList ∧ Fresh (withPrf (withDerive S R) F) p d.toList m.toList
          then 1 else 0)
        + if Fresh (withPrf (withDerive S R) F) p d.toList m.toList then 0 else 1 := by
    intro F R
    by_cases h1 : BadNoise (withPrf (withDerive S R) F) p d.toList m.toList <;>
      by_cases h2 : Fresh (withPrf (withDerive S R) F) p d.toList m.toList <;> simp [h1, h2]
  refine (Finset.expect_le_expect fun F _ => Finset.expect_le_expect fun R _ => h F R).trans ?_
  simp only [Finset.expect_add_distrib]
  refine add_le_add ?_ ?_
  · rw [Finset.expect_comm]
    refine (Finset.expect_le_expect (g := fun _ => B) fun R _ => ?_).trans (le_of_eq (Fintype.expect_const B))
    have := hB R
    rwa [prob_eq_expect] at this
  · exact (Finset.expect_le_expect (g := fun _ => (2 : ℝ) ^ (-256 : ℤ)) fun F _ => not_fresh_expect S F d m).trans
      (le_of_eq (Fintype.expect_const _))

end

/-! ### The three parameter sets -/

theorem prob_mono {α : Type} [Finite α] {E E' : α → Prop} (h : ∀ a, E a → E' a) : prob E ≤ prob E' := by
  unfold prob
  refine div_le_div_of_nonneg_right ?_ (by positivity)
  exact_mod_cast Nat.card_le_card_of_injective (fun a : {a // E a} => (⟨a.1, h _ a.2⟩ : {a // E' a}))
    fun a b e => Subtype.ext (congrArg (fun x : {a // E' a} => x.1) e)

section
variable (S : Sha3)

theorem badNoise_512 (d m : B32) : prob (fun T : (Bytes 33 → Bytes 192) × (Bytes 64 → Bytes 64) =>
    BadNoise (withPrf (withDerive S T.2) T.1) ML_KEM_512 d.toList m.toList) ≤ 2 ^ (-80 : ℤ) :=
  (failure_total S d m fun R => failure_expect _ supported_512 (by decide) (by decide) (by decide) (by decide) (by decide)
    (T := 726) (by norm_num [ML_KEM_512, round_eq]) (t := 1.186) (by norm_num) spread_512 d m).trans num_512

theorem badNoise_768 (d m : B32) : prob (fun T : (Bytes 33 → Bytes 192) × (Bytes 64 → Bytes 64) =>
    BadNoise (withPrf (withDerive S T.2) T.1) ML_KEM_768 d.toList m.toList) ≤ 2 ^ (-90 : ℤ) :=
  (failure_total S d m fun R => failure_expect _ supported_768 (by decide) (by decide) (by decide) (by decide) (by decide)
    (T := 726) (by norm_num [ML_KEM_768, round_eq]) (t := 1.21) (by norm_num) spread_768 d m).trans num_768

theorem badNoise_1024 (d m : B32) : prob (fun T : (Bytes 33 → Bytes 192) × (Bytes 64 → Bytes 64) =>
    BadNoise (withPrf (withDerive S T.2) T.1) ML_KEM_1024 d.toList m.toList) ≤ 2 ^ (-111 : ℤ) :=
  (failure_total S d m fun R => failure_expect _ supported_1024 (by decide) (by decide) (by decide) (by decide) (by decide)
    (T := 778) (by norm_num [ML_KEM_1024, round_eq]) (t := 1.238) (by norm_num) spread_1024 d m).trans num_1024

variable [Build]

theorem disagree_bad {P : ParameterSet} {p : Params} (h : Supported P p) (hdu : p.du ≤ 11) (hdv : p.dv ≤ 11)
    {d z m : B32} (hd : Disagree S P d z m) : BadNoise S p d.toList m.toList := by
  obtain ⟨dk, ek, c, K, g1, g2, g3⟩ := hd
  exact fun hn => g3 (C05_decaps_encaps S h hdu hdv g1 g2 hn)

/-- **C61** ML-KEM-512: whatever the seed of the key, its rejection secret and the encapsulated message, if
the outputs of SHAKE256 that give the noise and the outputs of SHA3-512 that give the encapsulation's
randomness are uniform, then decapsulation disagrees with encapsulation with probability at most `2^-80`. -/
theorem C61_ml_kem_512 (d z m : B32) :
    prob (fun T : (Bytes 33 → Bytes 192) × (Bytes 64 → Bytes 64) =>
      Disagree (withPrf (withDerive S T.2) T.1) MlKem512Params d z m) ≤ 2 ^ (-80 : ℤ) :=
  (prob_mono fun _ => disagree_bad _ supported_512 (by decide) (by decide)).trans (badNoise_512 S d m)

/-- **C61** ML-KEM-768: at most `2^-90` -/
theorem C61_ml_kem_768 (d z m : B32) :
    prob (fun T : (Bytes 33 → Bytes 192) × (Bytes 64 → Bytes 64) =>
      Disagree (withPrf (withDerive S T.2) T.1) MlKem768Params d z m) ≤ 2 ^ (-90 : ℤ) :=
  (prob_mono fun _ => disagree_bad _ supported_768 (by decide) (by decide)).trans (badNoise_768 S d m)

/-- **C61** ML-KEM-1024: at most `2^-111` -/
theorem C61_ml_kem_1024 (d z m : B32) :
    prob (fun T : (Bytes 33 → Bytes 192) × (Bytes 64 → Bytes 64) =>
      Disagree (withPrf (withDerive S T.2) T.1) MlKem1024Params d z m) ≤ 2 ^ (-111 : ℤ) :=
  (prob_mono fun _ => disagree_bad _ supported_1024 (by decide) (by decide)).trans (badNoise_1024 S d m)

end

end MlKem

namespace XWing
open Rust MlKem Fips203 XWingSpec

variable [Build] (S : Sha3) (X : X25519)

/-- Key generation and encapsulation return, and decapsulation does not return the shared secret. -/
def Disagree (rng rng' : Rng) (s : rng.State) (t : rng'.State) : Prop :=
  ∃ sk pk s' ct ss t', generate_key_pair S X rng s = .ok ((sk, pk), s') ∧
    pk.encapsulate S X rng' t = .ok ((ct, ss), t') ∧ sk.decapsulate S X ct ≠ .ok ss

/-- **C61** X-Wing: for any generators, at most `2^-90` -/
theorem C61_xwing (hX : PublicKeyIsBase X) (hcomm : Commutes X) (rng rng' : Rng) (s : rng.State) (t : rng'.State) :
    prob (fun T : (Bytes 33 → Bytes 192) × (Bytes 64 → Bytes 64) =>
      Disagree (withPrf (withDerive S T.2) T.1) X rng rng' s t) ≤ 2 ^ (-90 : ℤ) := by
  by_cases hr : ∃ b s1 m t1, rng.fill_bytes 32 s = .ok (b, s1) ∧ rng'.fill_bytes 32 t = .ok (m, t1)
  · obtain ⟨b, s1, m, t1, hb, hm⟩ := hr
    refine (prob_mono fun T hT => ?_).trans (badNoise_768 S (seedD S b.toList) m)
    obtain ⟨sk, pk, s', ct, ss, t', g1, g2, g3⟩ := hT
    obtain ⟨b', h1, h2, -⟩ := generated_derived _ X g1
    obtain ⟨m', t1', h3, h4⟩ := C37_agree _ X hX hcomm g1 g2
    obtain rfl := (Prod.mk.inj (Res.ok.inj (hb.symm.trans h1))).1
    obtain rfl := (Prod.mk.inj (Res.ok.inj (hm.symm.trans h3))).1
    subst h2
    exact fun hn => g3 (h4 hn)
  · have h0 : ∀ T : (Bytes 33 → Bytes 192) × (Bytes 64 → Bytes 64),
        ¬ Disagree (withPrf (withDerive S T.2) T.1) X rng rng' s t := by
      rintro T ⟨sk, pk, s', ct, ss, t', g1, g2, -⟩
      obtain ⟨b', h1, -⟩ := generated_derived _ X g1
      obtain ⟨m', t1', h3, -⟩ := C37_agree _ X hX hcomm g1 g2
      exact hr ⟨_, _, _, _, h1, h3⟩
    refine (prob_mono (E' := fun _ => BadNoise _ _ _ _) fun T hT => absurd hT (h0 T)).trans
      (badNoise_768 S (Vector.replicate _ 0) (Vector.replicate _ 0))

end XWing

namespace MlKem
open Rust Fips203 Finset BigOperators

/-! ### Failures do happen -/

/-- **C06** When the noise leaves its window, decapsulation returns the key of another message or the
rejection key. -/
theorem C06_failed_decaps [Build] (S : Sha3) {P : ParameterSet} {p : Params} (h : Supported P p) (hdu : p.du ≤ 11)
    (hdv : p.dv ≤ 11) {d z m : B32} {dk : DecapsulationKey P} {ek c K}
    (hgen : Kem.generate_deterministic S P d z = .ok (dk, ek))
    (henc : ek.encapsulate_deterministic S m = .ok (c, K))
    (hnoise : ¬ NoiseOk S p d.toList m.toList
      (encapsRandomness S (KeyGen_internal S p d.toList z.toList).1 m.toList)) :
    ∃ (m' K' : B32), m' ≠ m ∧ dk.decapsulate S c = .ok K' ∧
      (K'.toList = (Fips203.G S (m'.toList ++ Fips203.H S (KeyGen_internal S p d.toList z.toList).1)).1 ∨
        K'.toList = Fips203.J S (z.toList ++ c.toList)) := by
  obtain rfl := h.eq
  obtain ⟨hs, rfl, rfl⟩ := (generate_ok_iff S h.valid).1 hgen
  have hs' : SeedOk S P.K (bytesOf (n := 32) (seeds S P.toParams d.toList).1).toList := by
    rw [toList_bytesOf (seeds_length S _ _).1]; exact hs
  unfold genEk at henc
  dsimp only at henc
  rw [encaps_ok S h.valid _ _ _ m hs', Hash_toList, ekBytes_gen] at henc
  have henc := Prod.mk.inj (Res.ok.inj henc)
  obtain ⟨rfl, rfl⟩ := henc
  have hm := mt (decT_honest_iff S P.toParams h.du_pos hdu h.dv_pos hdv d.toList m.toList _
    m.length_toList).1 hnoise
  have e : encapsRandomness S (KeyGen_internal S P.toParams d.toList z.toList).1 m.toList
    = (Fips203.G S (m.toList ++ Fips203.H S (KPKE_KeyGen S P.toParams d.toList).1)).2 := rfl
  rw [e] at hm
  refine ⟨bytesOf (decT P.toParams (genS S P.toParams (seeds S P.toParams d.toList).2)
    (encT S P.toParams (genT S P.toParams (seeds S P.toParams d.toList).1 (seeds S P.toParams d.toList).2)
      (seeds S P.toParams d.toList).1 m.toList
      (Fips203.G S (m.toList ++ Fips203.H S (KPKE_KeyGen S P.toParams d.toList).1)).2)), _, fun hc => hm ?_,
    by rw [genDk_eq, decaps_ok S h.valid _ _ _ _ _ hs'], ?_⟩
  · have := congrArg Vector.toList hc
    rwa [toList_bytesOf (decT_length _ _ _)] at this
  · rw [toList_bytesOf (decT_length _ _ _), ekBytes_gen,
      toList_bytesOf (encT_length S P.toParams _ _ _ _), Hash_toList,
      toList_bytesOf (seeds_length S _ _).1]
    unfold decapsT
    dsimp only
    split
    · left
      rw [toList_bytesOf (G_length S _).1]; rfl
    · right
      rw [toList_bytesOf (J_length S _)]

namespace Fails

/-- 256 coefficients 2 -/
def twos : Bytes 192 := Vector.replicate 192 0x33
/-- 200 coefficients 2, then zeros -/
def someTwos : Bytes 192 := bytesOf (List.replicate 100 0x33)
/-- all coefficients zero -/
def zeros : Bytes 192 := Vector.replicate 192 0

/-- A table of noise strings: no secret, errors and ephemeral vector as large as they get -/
def table (sigma : List UInt8) (l : Bytes 33) : Bytes 192 :=
  if l.toList.take 32 = sigma ∧ l[32] < 3 then zeros
  else if l[32] < 3 then twos else if l[32] < 5 then someTwos else zeros

theorem sum_someTwos : ∑ j : Fin 256, cbdZ 2 someTwos.toList j * 2 = 800 := by decide +kernel
theorem coeff_twos : ∀ j : Fin 256, cbdZ 2 twos.toList j = 2 := by decide +kernel
theorem coeff_zeros : ∀ j : Fin 256, cbdZ 2 zeros.toList j = 0 := by decide +kernel

theorem table_secret {sigma : List UInt8} (hs : sigma.length = 32) {b : Nat} (hb : b < 3) :
    table sigma (point sigma b) = zeros := by
  have h1 : (point sigma b).toList.take 32 = sigma := by rw [point_toList hs, List.take_left' hs]
  have h2 : (point sigma b)[32] = UInt8.ofNat b := by
    rw [← Vector.getElem_toList (by simp), List.getElem_of_eq (point_toList hs b)]
    simp [hs]
  unfold table
  rw [if_pos ⟨h1, by rw [h2]; interval_cases b <;> decide⟩]

theorem table_other {sigma r : List UInt8} (hr : r.length = 32) {b : Nat} (h : r ≠ sigma ∨ 3 ≤ b) (hb : b < 7) :
    table sigma (point r b) = if b < 3 then twos else if b < 5 then someTwos else zeros := by
  have h1 : (point r b).toList.take 32 = r := by rw [point_toList hr, List.take_left' hr]
  have h2 : (point r b)[32] = UInt8.ofNat b := by
    rw [← Vector.getElem_toList (by simp), List.getElem_of_eq (point_toList hr b)]
    simp [hr]
  have h3 : ¬ ((point r b).toList.take 32 = sigma ∧ (point r b)[32] < 3) := by
    rw [h1, h2]
    rintro ⟨h4, h5⟩
    refine h.elim (fun h => h h4) fun h => ?_
    revert h5
    interval_cases b <;> decide
  unfold table
  rw [if_neg h3, h2]
  interval_cases b <;> rfl

/-- With this table the noise leaves its window. -/
theorem badNoise (S : Sha3) (d m r : List UInt8) (hr : r.length = 32) (hne : r ≠ (seeds S ML_KEM_768 d).2) :
    ¬ NoiseOk (withPrf S (table (seeds S ML_KEM_768 d).2)) ML_KEM_768 d m r := by
  intro hok
  have hl := (seeds_length S ML_KEM_768 d).2
  set F := table (seeds S ML_KEM_768 d).2 with hF
  have eS : ∀ i : Fin 3, secretS (withPrf S F) ML_KEM_768 d i = SamplePolyCBD 2 zeros.toList := fun i => by
    refine (prf_cbd S F (by decide) hl _).trans ?_
    rw [hF, table_secret hl i.isLt]
    rfl
  have eE : ∀ i : Fin 3, errorE (withPrf S F) ML_KEM_768 d i
      = SamplePolyCBD 2 (if i.val < 2 then someTwos else zeros).toList := fun i => by
    refine (prf_cbd S F (by decide) hl _).trans ?_
    rw [hF, table_other hl (.inr (by show 3 ≤ 3 + i.val; omega)) (by show 3 + i.val < 7; omega)]
    show SamplePolyCBD 2 (if 3 + i.val < 3 then twos else if 3 + i.val < 5 then someTwos else zeros).toList = _
    rw [if_neg (by omega)]
    simp only [show 3 + i.val < 5 ↔ i.val < 2 by omega]
  have eY : ∀ i : Fin 3, ephemeralY (withPrf S F) ML_KEM_768 r i = SamplePolyCBD 2 twos.toList := fun i => by
    refine (prf_cbd S F (by decide) hr _).trans ?_
    rw [hF, table_other hr (.inl hne) (Nat.lt_trans i.isLt (by decide)), if_pos i.isLt]
    rfl
  have hn := hok (255 : Fin 256)
  have e : noise (withPrf S F) ML_KEM_768 d m r (255 : Fin 256) = ((1600 : ℤ) : Zq)
      + (errorE2 (withPrf S F) ML_KEM_768 r 255 + lossOf 4 (cipherV (withPrf S F) ML_KEM_768 d m r) 255) := by
    unfold noise
    simp only [Pi.sub_apply, Pi.add_apply, Finset.sum_apply]
    have h1 : ∀ i : Fin 3, ringMul (errorE (withPrf S F) ML_KEM_768 d i) (ephemeralY (withPrf S F) ML_KEM_768 r i) 255
        = ((if i.val < 2 then 800 else 0 : ℤ) : Zq) := by
      intro i
      have hrot : ∀ j : Fin 256, rot (cbdZ 2 twos.toList) 255 j = 2 := by
        intro j
        unfold rot
        rw [dif_pos (by show j.val ≤ 255; omega)]
        exact coeff_twos _
      rw [eE, eY, ringMul_cast (fun n => cbdZ_cast _ _ n) (fun n => cbdZ_cast _ _ n)]
      simp only [hrot]
      split
      · rw [sum_someTwos]
      · simp [coeff_zeros]
    have h2 : ∀ (i : Fin 3) (g : Poly), ringMul (secretS (withPrf S F) ML_KEM_768 d i) g 255 = 0 := by
      intro i g
      rw [eS, ringMul_cast (fun n => cbdZ_cast _ _ n) (fun n => ZMod.coe_valMinAbs (g n))]
      simp [coeff_zeros]
    have h3 : ∑ i : Fin 3, ringMul (errorE (withPrf S F) ML_KEM_768 d i) (ephemeralY (withPrf S F) ML_KEM_768 r i) 255
        = ((1600 : ℤ) : Zq) := by
      simp only [h1, Fin.sum_univ_three]
      decide
    have h4 : ∑ i : Fin 3, ringMul (secretS (withPrf S F) ML_KEM_768 d i)
        (errorE1 (withPrf S F) ML_KEM_768 r i + lossOf 10 (cipherU (withPrf S F) ML_KEM_768 d r i)) 255 = 0 :=
      Finset.sum_eq_zero fun i _ => h2 i _
    have h5 := congrArg₂ (fun a b => a + errorE2 (withPrf S F) ML_KEM_768 r 255
      + lossOf 4 (cipherV (withPrf S F) ML_KEM_768 d m r) 255 - b) h3 h4
    refine h5.trans ?_
    ring
  obtain ⟨a, ha, hab⟩ := cbd_bnd 2 (Fips203.PRF (withPrf S F) 2 r 6) 255
  obtain ⟨b, hb, hbb⟩ := loss_bnd (w := 4) (by decide) (by decide) (cipherV (withPrf S F) ML_KEM_768 d m r) 255
  have hb' : round ((3329 : ℚ) / 2 ^ (4 + 1)) = 104 := by norm_num [round_eq]
  rw [hb'] at hbb
  rw [abs_le] at hab hbb
  have e' : ((noise (withPrf S F) ML_KEM_768 d m r (255 : Fin 256)).valMinAbs : Zq) = ((1600 + a + b : ℤ) : Zq) := by
    have ha' : errorE2 (withPrf S F) ML_KEM_768 r 255 = (a : Zq) := ha.symm
    rw [ZMod.coe_valMinAbs, e, ← hb, ha']
    push_cast
    ring
  have hd := (ZMod.intCast_eq_intCast_iff_dvd_sub _ _ _).1 e'
  unfold InWindow at hn
  obtain ⟨h1, h2⟩ := hn
  push_cast at hab hd
  omega

/-- The all-zero message -/
def m0 : B32 := Vector.replicate 32 0

/-- The toy hashes with the table for the noise, and SHA3-512 the identity on 64-byte strings -/
def S1 (d : B32) : Sha3 := withPrf (withDerive Toy.S id) (table (seeds Toy.S ML_KEM_768 d.toList).2)

theorem H_S1 (d : B32) (l : List UInt8) : Fips203.H (S1 d) l = Fips203.H Toy.S l := by
  unfold Fips203.H S1 withPrf withDerive
  rfl

theorem G_S1 (d : B32) {a b : List UInt8} (ha : a.length = 32) (hb : b.length = 32) :
    Fips203.G (S1 d) (a ++ b) = (a, b) := by
  have h' : (a ++ b).toArray.size = 64 := by simp [ha, hb]
  have e : (S1 d).sha3_512 (a ++ b) = ⟨(a ++ b).toArray, h'⟩ := dif_pos h'
  unfold Fips203.G
  rw [e]
  show (List.take 32 (a ++ b), List.drop 32 (a ++ b)) = _
  rw [List.take_left' ha, List.drop_left' ha]

theorem seedOk (R : Bytes 64 → Bytes 64) (F : Bytes 33 → Bytes 192) (k : Nat) (rho : List UInt8) :
    SeedOk (withPrf (withDerive Toy.S R) F) k rho := by
  have := Toy.seedOk k rho
  unfold SeedOk streamA at this ⊢
  exact this

theorem returns [Build] {S : Sha3} (hs : ∀ k rho, SeedOk S k rho) (d z m : B32) :
    ∃ dk ek, ∃ eb : List UInt8, ∃ c K, Kem.generate_deterministic S MlKem768Params d z = .ok (dk, ek) ∧
      ek.encapsulate_deterministic S m = .ok (c, K) ∧
      K.toList = (Fips203.G S (m.toList ++ Fips203.H S eb)).1 := by
  obtain ⟨dk, ek, eb, db, h1, h2, h3, h4, -⟩ := C01_keygen_is_fips203 S supported_768 d z (hs _ _)
  obtain ⟨eb', h5, hc⟩ := C02_encaps_is_fips203 S supported_768 (.generated h1) m
  obtain ⟨c, K, h7, h6, -⟩ := hc (hs _ _)
  exact ⟨dk, ek, eb'.toList, c, K, h1, h7, h6⟩

/-- With the toy hashes, whatever the tables, key generation and encapsulation return. -/
example [Build] (R : Bytes 64 → Bytes 64) (F : Bytes 33 → Bytes 192) (d z m : B32) :
    ∃ dk ek c K, Kem.generate_deterministic (withPrf (withDerive Toy.S R) F) MlKem768Params d z = .ok (dk, ek) ∧
      ek.encapsulate_deterministic (withPrf (withDerive Toy.S R) F) m = .ok (c, K) := by
  obtain ⟨dk, ek, eb, c, K, h1, h2, -⟩ := returns (seedOk R F) d z m
  exact ⟨dk, ek, c, K, h1, h2⟩

theorem step_ne {a b : Nat} (h : ((b : ℤ) - a) % 256 ≠ 0) (x y : Nat)
    (h0 : UInt8.ofNat x = UInt8.ofNat y) : UInt8.ofNat (x + a) ≠ UInt8.ofNat (y + b) := by
  intro h1
  have h0 := congrArg UInt8.toNat h0
  have h1 := congrArg UInt8.toNat h1
  simp only [UInt8.toNat_ofNat'] at h0 h1
  omega

theorem hash_ne (ek d : List UInt8) : Fips203.H Toy.S ek ≠ (seeds Toy.S ML_KEM_768 d).2 := by
  intro h
  have h0 := congrArg (fun l => l[0]?) h
  have h1 := congrArg (fun l => l[1]?) h
  simp only [Fips203.H, seeds, Fips203.G, Toy.S, List.getElem?_drop, Vector.getElem?_toList] at h0 h1
  simp only [Vector.getElem?_ofFn] at h0 h1
  rw [dif_pos (by decide), dif_pos (by decide)] at h0 h1
  refine step_ne (a := 1) (b := 7) (by decide) _ _ (Option.some.inj h0) ?_
  refine (Option.some.inj h1).trans ?_
  congr 1

theorem rejection_ne (d : B32) (l : List UInt8) (hl : 34 ≤ l.length) : Fips203.J (S1 d) l ≠ m0.toList := by
  have e : ∀ n, (S1 d).shake256 l n = UInt8.ofNat (Toy.total l + n) := by
    intro n
    show (if h : l.toArray.size = 33 ∧ n < 192 then _ else Toy.S.shake256 l n) = _
    rw [dif_neg (by simp; omega)]
    exact if_neg (by omega)
  intro h
  have h0 := congrArg (fun l => l[0]?) h
  have h1 := congrArg (fun l => l[1]?) h
  simp only [Fips203.J, prefixBytes, e, List.getElem?_ofFn, m0, Vector.getElem?_toList, Vector.getElem?_replicate] at h0 h1
  rw [dif_pos (by decide), if_pos (by decide)] at h0 h1
  exact step_ne (a := 1) (b := 0) (by decide) _ 0 (Option.some.inj h0) (Option.some.inj h1)

theorem disagree_aux [Build] {S : Sha3} {d z m : B32}
    {dk : DecapsulationKey MlKem768Params} {ek : EncapsulationKey MlKem768Params} {c K}
    (h1 : Kem.generate_deterministic S MlKem768Params d z = .ok (dk, ek))
    (h3 : ek.encapsulate_deterministic S m = .ok (c, K))
    (hK : K = m) (hG : ∀ a b : List UInt8, a.length = 32 → b.length = 32 → Fips203.G S (a ++ b) = (a, b))
    (hJ : ∀ l : List UInt8, 34 ≤ l.length → Fips203.J S l ≠ m.toList)
    (hb : ¬ NoiseOk S ML_KEM_768 d.toList m.toList
      (encapsRandomness S (KeyGen_internal S ML_KEM_768 d.toList z.toList).1 m.toList)) :
    dk.decapsulate S c ≠ .ok K := by
  intro h5
  obtain ⟨m', K', g1, g2, g3⟩ := C06_failed_decaps S supported_768 (by decide) (by decide) h1 h3 hb
  obtain rfl := Res.ok.inj (g2.symm.trans h5)
  subst hK
  rcases g3 with g3 | g3
  · rw [hG _ _ (by simp) (by unfold Fips203.H; simp)] at g3
    exact g1 (bytes_ext g3).symm
  · refine hJ _ ?_ g3.symm
    rw [List.length_append, Vector.length_toList, Vector.length_toList]
    decide

/-- Decapsulation does fail. -/
theorem disagree [Build] (d z : B32) : Disagree (S1 d) MlKem768Params d z m0 := by
  have hs : ∀ k rho, SeedOk (S1 d) k rho := seedOk _ _
  obtain ⟨dk, ek, eb, c, K, h1, h3, h4⟩ := returns hs d z m0
  have hH : ∀ l, (Fips203.H (S1 d) l).length = 32 := fun l => by unfold Fips203.H; simp
  have hK : K = m0 := by
    refine bytes_ext (h4.trans ?_)
    rw [G_S1 d (Vector.length_toList ..) (hH _)]
  refine ⟨dk, ek, c, K, h1, h3, disagree_aux h1 h3 hK (fun a b ha hb => G_S1 d ha hb) (fun l => rejection_ne d l) ?_⟩
  have hr : encapsRandomness (S1 d) (KeyGen_internal (S1 d) ML_KEM_768 d.toList z.toList).1 m0.toList
      = Fips203.H Toy.S (KeyGen_internal (S1 d) ML_KEM_768 d.toList z.toList).1 :=
    by
    unfold encapsRandomness
    rw [G_S1 d (Vector.length_toList ..) (hH _), H_S1]
  have hb := badNoise (withDerive Toy.S id) d.toList m0.toList
    (Fips203.H Toy.S (KeyGen_internal (S1 d) ML_KEM_768 d.toList z.toList).1) (by unfold Fips203.H; simp)
  rw [seeds_withDerive _ _ (by simp)] at hb
  have hb := hb (hash_ne _ _)
  rw [← hr] at hb
  exact hb

/-- The probability of theorem `C61_ml_kem_768` is not zero in general. -/
theorem prob_pos [Build] (d z : B32) : 0 < prob (fun T : (Bytes 33 → Bytes 192) × (Bytes 64 → Bytes 64) =>
    Disagree (withPrf (withDerive Toy.S T.2) T.1) MlKem768Params d z m0) := by
  unfold prob
  have : Nonempty {T : (Bytes 33 → Bytes 192) × (Bytes 64 → Bytes 64) //
    Disagree (withPrf (withDerive Toy.S T.2) T.1) MlKem768Params d z m0} := ⟨(_, id), disagree d z⟩
  have h1 := Nat.card_pos (α := {T : (Bytes 33 → Bytes 192) × (Bytes 64 → Bytes 64) //
    Disagree (withPrf (withDerive Toy.S T.2) T.1) MlKem768Params d z m0})
  have h2 := Nat.card_pos (α := (Bytes 33 → Bytes 192) × (Bytes 64 → Bytes 64))
  positivity

end Fails
end MlKem
