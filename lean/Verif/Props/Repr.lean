import Verif.Proofs.Vec
/-! Vocabulary: what it means for arrays of machine integers to hold given mathematical values. -/
namespace MlKem
open Rust Fips203
open FieldElement (ofN)

variable [Build]

/-- The array holds the reduced representatives (in `[0, 3329)`) of the coefficients of `F`. -/
def Holds (v : Vector FieldElement 256) (F : Poly) : Prop :=
  ∀ i : Fin 256, v[i].val.toNat = (F i).val

/-- The array holds the natural numbers `F`. -/
def HoldsNat (v : Vector FieldElement 256) (F : Fin 256 → Nat) : Prop :=
  ∀ i : Fin 256, v[i].val.toNat = F i

/-- Every coefficient of the array is reduced. -/
def AllReduced (v : Vector FieldElement 256) : Prop := ∀ i : Fin 256, v[i].val.toNat < 3329

omit [Build] in
theorem holds_iff {v : Vector FieldElement 256} {F : Poly} : Holds v F ↔ v = polyVec F := by
  constructor
  · intro h
    apply Vector.ext
    intro i hi
    have := h ⟨i, hi⟩
    rw [polyVec_eq_rawVec, rawVec_getElem _ hi]
    show v[i] = ofN (F ⟨i, hi⟩).val
    rw [← this]
    show v[i] = ⟨UInt16.ofNat v[i].val.toNat⟩
    rw [UInt16.ofNat_toNat]
  · rintro rfl i
    have : (polyVec F)[i] = ofN (F i).val := by
      rw [polyVec_eq_rawVec]; exact rawVec_getElem _ i.isLt
    rw [this, FieldElement.ofN_val]
    have := FieldElement.zval_lt (F i); omega

omit [Build] in
theorem holdsNat_iff {v : Vector FieldElement 256} {F : Fin 256 → Nat} (hF : ∀ i, F i < 65536) :
    HoldsNat v F ↔ v = rawVec F := by
  constructor
  · intro h
    apply Vector.ext
    intro i hi
    have := h ⟨i, hi⟩
    rw [rawVec_getElem _ hi, ← this]
    show v[i] = ⟨UInt16.ofNat v[i].val.toNat⟩
    rw [UInt16.ofNat_toNat]
  · rintro rfl i
    have : (rawVec F)[i] = ofN (F i) := rawVec_getElem _ i.isLt
    rw [this, FieldElement.ofN_val (hF i)]

omit [Build] in
theorem holds_polyVec (F : Poly) : Holds (polyVec F) F := holds_iff.2 rfl

omit [Build] in
/-- Every reduced array holds some coefficients. -/
theorem AllReduced.holds {v : Vector FieldElement 256} (h : AllReduced v) : ∃ F, Holds v F := by
  refine ⟨fun i => (v[i].val.toNat : Zq), fun i => ?_⟩
  rw [ZMod.val_natCast, Nat.mod_eq_of_lt (h i)]

omit [Build] in
theorem Holds.reduced {v : Vector FieldElement 256} {F : Poly} (h : Holds v F) : AllReduced v := by
  intro i
  rw [h i]; exact FieldElement.zval_lt _

/-- The vector holds the polynomials `F`. -/
def VecHolds {K : Nat} (v : PolynomialVector K) (F : Fin K → Poly) : Prop :=
  ∀ i : Fin K, Holds v.polys[i].coeffs (F i)

/-- The NTT-domain vector holds the values `F`. -/
def NttHolds {K : Nat} (v : NttVector K) (F : Fin K → Poly) : Prop :=
  ∀ i : Fin K, Holds v.polys[i].coeffs (F i)

omit [Build] in
theorem vecHolds_iff {K : Nat} {v : PolynomialVector K} {F : Fin K → Poly} :
    VecHolds v F ↔ v = pv F := by
  obtain ⟨v⟩ := v
  constructor
  · intro h
    unfold pv
    congr 1
    apply Vector.ext
    intro i hi
    have := holds_iff.1 (h ⟨i, hi⟩)
    rw [Vector.getElem_ofFn, ← this]
    rfl
  · intro h i
    obtain rfl := PolynomialVector.mk.inj h
    apply holds_iff.2
    simp

omit [Build] in
theorem nttHolds_iff {K : Nat} {v : NttVector K} {F : Fin K → Poly} :
    NttHolds v F ↔ v = nv F := by
  obtain ⟨v⟩ := v
  constructor
  · intro h
    unfold nv
    congr 1
    apply Vector.ext
    intro i hi
    have := holds_iff.1 (h ⟨i, hi⟩)
    rw [Vector.getElem_ofFn, ← this]
    rfl
  · intro h i
    obtain rfl := NttVector.mk.inj h
    apply holds_iff.2
    simp

end MlKem
