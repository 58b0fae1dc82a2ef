import Verif.Model.Algebra
import Verif.Proofs.RustLemmas
import Verif.Spec.Fips203
/-! Field arithmetic of the model, in terms of `ZMod 3329`. -/
namespace MlKem
open Rust MInt Fips203

variable [Build]

omit [Build] in
theorem u16_toNat_ofNat {n : Nat} (h : n < 65536) : (UInt16.ofNat n).toNat = n := by
  simp [Nat.mod_eq_of_lt h]

namespace FieldElement

/-- The coefficient is below q. -/
def Reduced (x : FieldElement) : Prop := x.val.toNat < 3329

instance (x : FieldElement) : Decidable x.Reduced := inferInstanceAs (Decidable (_ < _))

/-- The representative of a field element -/
def ofZ (z : Zq) : FieldElement := ⟨UInt16.ofNat z.val⟩
/-- The field element that is represented -/
def toZ (x : FieldElement) : Zq := (x.val.toNat : Zq)
/-- A small number as a coefficient -/
def ofN (n : Nat) : FieldElement := ⟨UInt16.ofNat n⟩

omit [Build] in
theorem zval_lt (z : Zq) : z.val < 3329 := ZMod.val_lt z

omit [Build] in
@[simp] theorem ofZ_val (z : Zq) : (ofZ z).val.toNat = z.val := by
  have := zval_lt z
  simp only [ofZ]; rw [u16_toNat_ofNat (by omega)]

omit [Build] in
theorem ofN_val {n : Nat} (h : n < 65536) : (ofN n).val.toNat = n := u16_toNat_ofNat h

omit [Build] in
theorem ofZ_eq_ofN (z : Zq) : ofZ z = ofN z.val := rfl

omit [Build] in
@[simp] theorem ofZ_reduced (z : Zq) : (ofZ z).Reduced := by
  simp only [Reduced, ofZ_val]; exact zval_lt z

omit [Build] in
@[simp] theorem toZ_ofZ (z : Zq) : (ofZ z).toZ = z := by
  simp [toZ]

omit [Build] in
theorem ofZ_toZ {x : FieldElement} (h : x.Reduced) : ofZ x.toZ = x := by
  cases x with
  | mk v =>
    simp only [ofZ, toZ, ZMod.val_natCast]
    rw [Nat.mod_eq_of_lt h]; simp

omit [Build] in
theorem ofZ_injective : Function.Injective ofZ := fun a b h => by
  rw [← toZ_ofZ a, h, toZ_ofZ]

omit [Build] in
theorem reduced_iff {x : FieldElement} : x.Reduced ↔ ∃ z, x = ofZ z :=
  ⟨fun h => ⟨_, (ofZ_toZ h).symm⟩, by rintro ⟨z, rfl⟩; simp⟩

theorem small_reduce_ok {x : UInt16} (h : x.toNat < 2 * 3329) :
    small_reduce x = .ok (UInt16.ofNat (x.toNat % 3329)) := by
  unfold small_reduce
  have hQ : toNat Q = 3329 := rfl
  by_cases hx : x.toNat < 3329
  · have : Rust.lt x Q = true := by simp [Rust.lt, hQ, toNat_u16, hx]
    rw [if_pos this, Nat.mod_eq_of_lt hx]; simp
  · have : ¬ Rust.lt x Q = true := by simp [Rust.lt, hQ, toNat_u16]; omega
    rw [if_neg this, sub_ok (by rw [hQ, toNat_u16]; omega)]
    rw [hQ, toNat_u16]
    rw [Nat.mod_eq_sub_mod (by omega), Nat.mod_eq_of_lt (by omega)]; rfl

omit [Build] in
theorem barrett_quot {x : Nat} (h : x ≤ 2 * 3328 * 3328) :
    x * 5039 / 2 ^ 24 * 3329 ≤ x ∧ x - x * 5039 / 2 ^ 24 * 3329 < 2 * 3329 := by
  omega

theorem barrett_reduce_ok {x : UInt32} (h : x.toNat ≤ 2 * 3328 * 3328) :
    barrett_reduce x = .ok (UInt16.ofNat (x.toNat % 3329)) := by
  unfold barrett_reduce
  have hM : toNat BARRETT_MULTIPLIER = 5039 := by decide
  have hc : toNat (cast x : UInt64) = x.toNat := by
    rw [toNat_cast]; simp only [bits_u64, toNat_u32]; omega
  have hq := barrett_quot h
  have hQ : toNat Q32 = 3329 := rfl
  rw [mul_ok (by rw [hc, hM]; simp only [bits_u64]; omega), hc, hM]
  simp only [Res.ok_bind]
  rw [shr_ok (by simp [BARRETT_SHIFT]), toNat_ofNat_lt (by simp only [bits_u64]; omega)]
  simp only [Res.ok_bind]
  rw [truncate_ok (by simp)]
  simp only [Res.ok_bind, BARRETT_SHIFT]
  rw [toNat_ofNat_lt (by simp only [bits_u64]; omega)]
  rw [mul_ok (by rw [hQ, toNat_ofNat_lt (by simp only [bits_u32]; omega)]; simp only [bits_u32]; omega), hQ,
    toNat_ofNat_lt (α := UInt32) (by simp only [bits_u32]; omega)]
  simp only [Res.ok_bind]
  rw [sub_ok (by rw [toNat_ofNat_lt (by simp only [bits_u32]; omega)]; exact hq.1),
    toNat_ofNat_lt (α := UInt32) (by simp only [bits_u32]; omega)]
  simp only [Res.ok_bind]
  rw [truncate_ok (by simp)]
  simp only [Res.ok_bind, toNat_u32 x]
  rw [toNat_ofNat_lt (α := UInt32) (by simp only [bits_u32]; omega)]
  have h2 : (ofNat (x.toNat - x.toNat * 5039 / 2 ^ 24 * 3329) : UInt16).toNat
      = x.toNat - x.toNat * 5039 / 2 ^ 24 * 3329 := by
    rw [← toNat_u16, toNat_ofNat_lt (by simp only [bits_u16]; omega)]
  rw [small_reduce_ok (by rw [h2]; exact hq.2), h2]
  congr 2
  rw [Nat.mul_comm _ 3329, Nat.sub_mul_mod (by rw [Nat.mul_comm]; exact hq.1)]

/-! Exactness on natural-number representatives -/

theorem add_val {x y : FieldElement} (hx : x.Reduced) (hy : y.Reduced) :
    add x y = .ok (ofN ((x.val.toNat + y.val.toNat) % 3329)) := by
  unfold Reduced at hx hy
  have hlt : x.val.toNat + y.val.toNat < 2 ^ bits UInt16 := by simp only [bits_u16]; omega
  unfold add
  rw [add_ok (by simpa [toNat_u16] using hlt)]
  simp only [Res.ok_bind, toNat_u16]
  have h2 : (ofNat (x.val.toNat + y.val.toNat) : UInt16).toNat = x.val.toNat + y.val.toNat := by
    rw [← toNat_u16, toNat_ofNat_lt hlt]
  rw [small_reduce_ok (by rw [h2]; omega), h2]; rfl

theorem sub_val {x y : FieldElement} (hx : x.Reduced) (hy : y.Reduced) :
    sub x y = .ok (ofN ((x.val.toNat + 3329 - y.val.toNat) % 3329)) := by
  unfold Reduced at hx hy
  have hlt : x.val.toNat + 3329 < 2 ^ bits UInt16 := by simp only [bits_u16]; omega
  have hQ : toNat Q = 3329 := rfl
  unfold sub
  rw [add_ok (by rw [hQ]; simpa [toNat_u16] using hlt)]
  simp only [Res.ok_bind, hQ, toNat_u16 x.val]
  have h2 : toNat (ofNat (x.val.toNat + 3329) : UInt16) = x.val.toNat + 3329 := toNat_ofNat_lt hlt
  rw [sub_ok (by rw [h2, toNat_u16]; omega), h2]
  simp only [Res.ok_bind, toNat_u16 y.val]
  have h3 : (ofNat (x.val.toNat + 3329 - y.val.toNat) : UInt16).toNat
      = x.val.toNat + 3329 - y.val.toNat := by
    rw [← toNat_u16, toNat_ofNat_lt (by omega)]
  rw [small_reduce_ok (by rw [h3]; omega), h3]; rfl

omit [Build] in
theorem mul_le {a b : Nat} (ha : a < 3329) (hb : b < 3329) : a * b ≤ 3328 * 3328 :=
  Nat.mul_le_mul (by omega) (by omega)

omit [Build] in
theorem cast_val (x : FieldElement) : toNat (cast x.val : UInt32) = x.val.toNat := by
  have := x.val.toNat_lt
  rw [toNat_cast, toNat_u16]; simp only [bits_u32]; omega

theorem mul_val {x y : FieldElement} (hx : x.Reduced) (hy : y.Reduced) :
    mul x y = .ok (ofN ((x.val.toNat * y.val.toNat) % 3329)) := by
  unfold Reduced at hx hy
  have hm := mul_le hx hy
  unfold mul
  dsimp only
  rw [mul_ok (by rw [cast_val, cast_val]; simp only [bits_u32]; omega), cast_val, cast_val]
  simp only [Res.ok_bind]
  have h2 : (ofNat (x.val.toNat * y.val.toNat) : UInt32).toNat = x.val.toNat * y.val.toNat := by
    rw [← toNat_u32, toNat_ofNat_lt (by simp only [bits_u32]; omega)]
  rw [barrett_reduce_ok (by rw [h2]; omega), h2]; rfl

/-! In terms of `Zq` -/

@[simp] theorem add_ofZ (a b : Zq) : add (ofZ a) (ofZ b) = .ok (ofZ (a + b)) := by
  rw [add_val (by simp) (by simp), ofZ_val, ofZ_val, ofZ_eq_ofN, ZMod.val_add]

@[simp] theorem mul_ofZ (a b : Zq) : mul (ofZ a) (ofZ b) = .ok (ofZ (a * b)) := by
  rw [mul_val (by simp) (by simp), ofZ_val, ofZ_val, ofZ_eq_ofN, ZMod.val_mul]

omit [Build] in
theorem ofN_mod (n : Nat) : ofN (n % 3329) = ofZ (n : Zq) := by
  rw [ofZ_eq_ofN, ZMod.val_natCast]

@[simp] theorem sub_ofZ (a b : Zq) : sub (ofZ a) (ofZ b) = .ok (ofZ (a - b)) := by
  rw [sub_val (by simp) (by simp), ofZ_val, ofZ_val, ofN_mod]
  have := zval_lt b
  congr 2
  rw [Nat.cast_sub (by omega)]
  simp only [Nat.cast_add, ZMod.natCast_val, ZMod.cast_id', id]
  have : ((3329 : ℕ) : Zq) = 0 := by decide
  rw [this]; ring

theorem barrett_ofN {n : Nat} (h : n ≤ 2 * 3328 * 3328) :
    barrett_reduce (ofNat n) = .ok (UInt16.ofNat (n % 3329)) := by
  have h2 : (ofNat n : UInt32).toNat = n := by
    rw [← toNat_u32, toNat_ofNat_lt (by simp only [bits_u32]; omega)]
  rw [barrett_reduce_ok (by rw [h2]; omega), h2]

/-- Exactness of the two-product accumulation -/
theorem base_case_multiply_val {a0 a1 b0 b1 g : FieldElement} {i : Nat} (hi : i < 128)
    (hg : GAMMA[i] = g) (h0 : a0.Reduced) (h1 : a1.Reduced) (k0 : b0.Reduced) (k1 : b1.Reduced)
    (hgr : g.Reduced) :
    base_case_multiply a0 a1 b0 b1 i = .ok
      (ofN ((a0.val.toNat * b0.val.toNat +
              a1.val.toNat * ((b1.val.toNat * g.val.toNat) % 3329)) % 3329),
       ofN ((a0.val.toNat * b1.val.toNat + a1.val.toNat * b0.val.toNat) % 3329)) := by
  unfold Reduced at *
  unfold base_case_multiply
  have hc : ∀ n : Nat, toNat (cast (UInt16.ofNat (n % 3329)) : UInt32) = n % 3329 := by
    intro n
    have := cast_val ⟨UInt16.ofNat (n % 3329)⟩
    rw [this]; simp only []; rw [u16_toNat_ofNat (by omega)]
  have hm : ∀ a b : Nat, a < 3329 → b < 3329 → a * b < 2 ^ bits UInt32 := fun a b ha hb => by
    have := mul_le ha hb; simp only [bits_u32]; omega
  have hn : ∀ a b : Nat, a < 3329 → b < 3329 → toNat (ofNat (a * b) : UInt32) = a * b :=
    fun a b ha hb => toNat_ofNat_lt (hm a b ha hb)
  have hmod : b1.val.toNat * g.val.toNat % 3329 < 3329 := Nat.mod_lt _ (by omega)
  have m1 := mul_le k1 hgr
  have m2 := mul_le h0 k0
  have m3 := mul_le h1 hmod
  have m4 := mul_le h0 k1
  have m5 := mul_le h1 k0
  dsimp only
  rw [idx_ok _ hi, hg]
  simp only [Res.ok_bind]
  rw [mul_ok (by rw [cast_val, cast_val]; exact hm _ _ k1 hgr), cast_val, cast_val]
  simp only [Res.ok_bind]
  rw [barrett_ofN (by omega)]
  simp only [Res.ok_bind]
  rw [mul_ok (by rw [cast_val, cast_val]; exact hm _ _ h0 k0), cast_val, cast_val,
    mul_ok (by rw [cast_val, hc]; exact hm _ _ h1 hmod), cast_val, hc]
  simp only [Res.ok_bind]
  rw [add_ok (by rw [hn _ _ h0 k0, hn _ _ h1 hmod]; simp only [bits_u32]; omega),
    hn _ _ h0 k0, hn _ _ h1 hmod]
  simp only [Res.ok_bind]
  rw [barrett_ofN (by omega)]
  simp only [Res.ok_bind]
  rw [mul_ok (by rw [cast_val, cast_val]; exact hm _ _ h0 k1), cast_val, cast_val,
    mul_ok (by rw [cast_val, cast_val]; exact hm _ _ h1 k0), cast_val, cast_val]
  simp only [Res.ok_bind]
  rw [add_ok (by rw [hn _ _ h0 k1, hn _ _ h1 k0]; simp only [bits_u32]; omega),
    hn _ _ h0 k1, hn _ _ h1 k0]
  simp only [Res.ok_bind]
  rw [barrett_ofN (by omega)]
  rfl

theorem base_case_multiply_ofZ {a0 a1 b0 b1 g : Zq} {i : Nat} (hi : i < 128)
    (hg : GAMMA[i] = ofZ g) :
    base_case_multiply (ofZ a0) (ofZ a1) (ofZ b0) (ofZ b1) i = .ok
      (ofZ (a0 * b0 + a1 * b1 * g), ofZ (a0 * b1 + a1 * b0)) := by
  rw [base_case_multiply_val hi hg (by simp) (by simp) (by simp) (by simp) (by simp)]
  simp only [ofN_mod, ofZ_val]
  have hz : ∀ z : Zq, ((z.val : ℕ) : Zq) = z := fun z => ZMod.natCast_zmod_val z
  have e1 : (((a0.val * b0.val + a1.val * (b1.val * g.val % 3329) : ℕ)) : Zq)
      = a0 * b0 + a1 * b1 * g := by
    rw [Nat.cast_add, Nat.cast_mul, Nat.cast_mul, ZMod.natCast_mod, Nat.cast_mul]
    simp only [hz]; ring
  have e2 : (((a0.val * b1.val + a1.val * b0.val : ℕ)) : Zq) = a0 * b1 + a1 * b0 := by
    rw [Nat.cast_add, Nat.cast_mul, Nat.cast_mul]
    simp only [hz]
  rw [e1, e2]

end FieldElement
end MlKem
