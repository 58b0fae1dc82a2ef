import Verif.Spec.Fips203
import Mathlib.Algebra.Polynomial.Div
/-!
The connection between coefficient arrays and Mathlib polynomials. These definitions are used to
state that the formulas `NTT` and `ringMul` of `Verif.Spec.Fips203` are what FIPS 203 says in
words: residues modulo `X² - γ_i`, and the product modulo `X^256 + 1`.
-/
namespace Fips203
open Polynomial

/-- The polynomial with the given coefficients -/
noncomputable def toPoly (f : Poly) : Polynomial Zq := ∑ i : Fin 256, C (f i) * X ^ i.val

end Fips203
