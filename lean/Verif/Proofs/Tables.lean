import Verif.Proofs.Field
import Verif.Model.Sample
/-! The compile-time tables, checked by kernel evaluation over all of their entries. -/
namespace MlKem
open Rust MInt Fips203 FieldElement

set_option maxRecDepth 100000

theorem zeta_table_nat : ∀ i : Fin 128,
    ZETA_POW_BITREV[i].val.toNat = 17 ^ BitRev7 i.val % 3329 := by decide +kernel

theorem gamma_table_nat : ∀ i : Fin 128,
    GAMMA[i].val.toNat = 17 ^ (2 * BitRev7 i.val + 1) % 3329 := by decide +kernel

/-- `ζ^BitRev7(k)` -/
def zetaZ (k : Nat) : Zq := 17 ^ BitRev7 k

theorem eq_ofZ_of_val {x : FieldElement} {n : Nat} (h : x.val.toNat = n % 3329) :
    x = ofZ (n : Zq) := by
  have hr : x.Reduced := by unfold Reduced; omega
  rw [← ofZ_toZ hr, toZ, h, ZMod.natCast_mod]

theorem zeta_table {k : Nat} (hk : k < 128) : ZETA_POW_BITREV[k] = ofZ (zetaZ k) := by
  have := eq_ofZ_of_val (zeta_table_nat ⟨k, hk⟩)
  simpa [zetaZ] using this

theorem gamma_table {k : Nat} (hk : k < 128) : GAMMA[k] = ofZ (gamma k) := by
  have := eq_ofZ_of_val (gamma_table_nat ⟨k, hk⟩)
  simpa [gamma] using this

/-- The root of block `m - n` in a layer of `n` blocks, `m = n + b`: the block holds the polynomial
modulo `X^(256/n) - root m` -/
def root (m : Nat) : Zq := if m < 128 then zetaZ m ^ 2 else gamma (m - 128)

theorem root_one : root 1 = -1 := by decide +kernel

theorem root_even_fin : ∀ m : Fin 128, 1 ≤ m.val → root (2 * m.val) = zetaZ m.val := by
  decide +kernel
theorem root_odd_fin : ∀ m : Fin 128, 1 ≤ m.val → root (2 * m.val + 1) = - zetaZ m.val := by
  decide +kernel
theorem root_even {m : Nat} (h1 : 1 ≤ m) (h : m < 128) : root (2 * m) = zetaZ m :=
  root_even_fin ⟨m, h⟩ h1
theorem root_odd {m : Nat} (h1 : 1 ≤ m) (h : m < 128) : root (2 * m + 1) = - zetaZ m :=
  root_odd_fin ⟨m, h⟩ h1
theorem zeta_sq {m : Nat} (h : m < 128) : zetaZ m ^ 2 = root m := by simp [root, h]
theorem root_gamma {i : Nat} : root (128 + i) = gamma i := by
  simp [root]

/-- In a layer of `n` blocks, the constants used for block `b` forwards and backwards -/
theorem zeta_inv_fin : ∀ l : Fin 7, ∀ b : Fin 64, b.val < 2 ^ l.val →
    zetaZ (2 * 2 ^ l.val - 1 - b.val) * zetaZ (2 ^ l.val + b.val) = -1 := by decide +kernel

theorem zeta_inv {l b : Nat} (hl : l < 7) (hb : b < 2 ^ l) :
    zetaZ (2 * 2 ^ l - 1 - b) * zetaZ (2 ^ l + b) = -1 := by
  have : 2 ^ l ≤ 2 ^ 6 := Nat.pow_le_pow_right (by omega) (by omega)
  exact zeta_inv_fin ⟨l, hl⟩ ⟨b, by omega⟩ hb

theorem gamma_pow_128_fin : ∀ i : Fin 128, gamma i.val ^ 128 = -1 := by decide +kernel
theorem gamma_pow_128 {i : Nat} (h : i < 128) : gamma i ^ 128 = -1 := gamma_pow_128_fin ⟨i, h⟩

theorem ones_table_2 : ∀ x y : Fin 4, (CbdSize.ONES .U2)[x.val + 4 * y.val]'(by
      show _ < 16; omega) =
    ofZ ((∑ j ∈ Finset.range 2, ((x.val.testBit j).toNat : Zq))
      - ∑ j ∈ Finset.range 2, ((y.val.testBit j).toNat : Zq)) := by
  decide +kernel
theorem ones_table_3 : ∀ x y : Fin 8, (CbdSize.ONES .U3)[x.val + 8 * y.val]'(by
      show _ < 64; omega) =
    ofZ ((∑ j ∈ Finset.range 3, ((x.val.testBit j).toNat : Zq))
      - ∑ j ∈ Finset.range 3, ((y.val.testBit j).toNat : Zq)) := by
  decide +kernel

end MlKem
