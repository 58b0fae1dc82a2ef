import Verif.Model.Crypto
/-! Model of /repo/ml-kem/src/algebra.rs (and of the CBD tables of param.rs), part 1: field elements,
tables, polynomials and the NTT. -/
namespace MlKem
open Rust

variable [Build]

/-- ml-kem/src/algebra.rs:18 `FieldElement` (`Integer = u16`, algebra.rs:13) -/
structure FieldElement where
  val : UInt16
deriving DecidableEq, Repr

/-- `Default` for `FieldElement`: zero (derived, ml-kem/src/algebra.rs:17) -/
instance : Inhabited FieldElement := ⟨⟨0⟩⟩

namespace FieldElement

/-- ml-kem/src/algebra.rs:28 -/
def Q : UInt16 := 3329
/-- ml-kem/src/algebra.rs:29 -/
def Q32 : UInt32 := 3329
/-- ml-kem/src/algebra.rs:30 -/
def Q64 : UInt64 := 3329
/-- ml-kem/src/algebra.rs:31 -/
def BARRETT_SHIFT : Nat := 24
/-- ml-kem/src/algebra.rs:33 -/
def BARRETT_MULTIPLIER : UInt64 := UInt64.ofNat ((1 <<< BARRETT_SHIFT) / 3329)

/-- ml-kem/src/algebra.rs:36-42 -/
def small_reduce (x : UInt16) : Res UInt16 :=
  if Rust.lt x Q then .ok x else Rust.sub x Q

/-- ml-kem/src/algebra.rs:44-49 -/
def barrett_reduce (x : UInt32) : Res UInt16 := do
  let product ← Rust.mul (cast x : UInt64) BARRETT_MULTIPLIER
  let quotient ← truncate UInt32 (← Rust.shr product BARRETT_SHIFT)
  let remainder ← Rust.sub x (← Rust.mul quotient Q32)
  small_reduce (← truncate UInt16 remainder)

/-- ml-kem/src/algebra.rs:73-75 `Add` -/
def add (self rhs : FieldElement) : Res FieldElement := do
  let s ← Rust.add self.val rhs.val
  .ok ⟨← small_reduce s⟩

/-- ml-kem/src/algebra.rs:81-84 `Sub` -/
def sub (self rhs : FieldElement) : Res FieldElement := do
  let s ← Rust.sub (← Rust.add self.val Q) rhs.val
  .ok ⟨← small_reduce s⟩

/-- ml-kem/src/algebra.rs:90-94 `Mul` -/
def mul (self rhs : FieldElement) : Res FieldElement := do
  let x : UInt32 := cast self.val
  let y : UInt32 := cast rhs.val
  .ok ⟨← barrett_reduce (← Rust.mul x y)⟩

end FieldElement

/-- ml-kem/src/algebra.rs:290-298 `bitrev7` -/
def bitrev7 (x : Nat) : Nat :=
  ((x >>> 6) % 2)
    ||| (((x >>> 5) % 2) <<< 1)
    ||| (((x >>> 4) % 2) <<< 2)
    ||| (((x >>> 3) % 2) <<< 3)
    ||| (((x >>> 2) % 2) <<< 4)
    ||| (((x >>> 1) % 2) <<< 5)
    ||| ((x % 2) <<< 6)

/-- ml-kem/src/algebra.rs:301-309: one iteration of the loop filling `pow`. State `(pow, curr)`.
Constants are evaluated at compile time; the `u64` arithmetic is modelled on `Nat`
(every intermediate value is below 3329^2 * 17 < 2^64). -/
def zetaPowStep (st : Vector FieldElement 128 × Nat) (i : Nat) : Vector FieldElement 128 × Nat :=
  (st.1.setIfInBounds i ⟨UInt16.ofNat st.2⟩, (st.2 * 17) % 3329)

/-- ml-kem/src/algebra.rs:301-309 `pow` after the loop -/
def ZETA_POW : Vector FieldElement 128 :=
  ((range 0 128).foldl zetaPowStep (Vector.replicate 128 ⟨0⟩, 1)).1

/-- ml-kem/src/algebra.rs:287-319 `ZETA_POW_BITREV` -/
def ZETA_POW_BITREV : Vector FieldElement 128 :=
  (range 0 128).foldl (fun pow_bitrev i => pow_bitrev.setIfInBounds i (ZETA_POW[bitrev7 i]!))
    (Vector.replicate 128 ⟨0⟩)

/-- ml-kem/src/algebra.rs:322-334 `GAMMA` -/
def GAMMA : Vector FieldElement 128 :=
  (range 0 128).foldl (fun gamma i =>
      let zpr := (ZETA_POW_BITREV[i]!).val.toNat
      let g := (zpr * zpr * 17) % 3329
      gamma.setIfInBounds i ⟨UInt16.ofNat g⟩)
    (Vector.replicate 128 ⟨0⟩)

/-- ml-kem/src/algebra.rs:55-67 `base_case_multiply` -/
def FieldElement.base_case_multiply (a0 a1 b0 b1 : FieldElement) (i : Nat) :
    Res (FieldElement × FieldElement) := do
  let a0 : UInt32 := cast a0.val
  let a1 : UInt32 := cast a1.val
  let b0 : UInt32 := cast b0.val
  let b1 : UInt32 := cast b1.val
  let g : UInt32 := cast (← idx GAMMA i).val
  let b1g : UInt32 := cast (← barrett_reduce (← Rust.mul b1 g))
  let c0 ← barrett_reduce (← Rust.add (← Rust.mul a0 b0) (← Rust.mul a1 b1g))
  let c1 ← barrett_reduce (← Rust.add (← Rust.mul a0 b1) (← Rust.mul a1 b0))
  .ok (⟨c0⟩, ⟨c1⟩)

/-- ml-kem/src/algebra.rs:99 `Polynomial` -/
structure Polynomial where
  coeffs : Vector FieldElement 256
deriving DecidableEq

/-- ml-kem/src/algebra.rs:185 `NttPolynomial` -/
structure NttPolynomial where
  coeffs : Vector FieldElement 256
deriving DecidableEq

namespace Polynomial

/-- ml-kem/src/algebra.rs:104-112 `Add` -/
def add (self rhs : Polynomial) : Res Polynomial := do
  .ok ⟨← zipVec FieldElement.add self.coeffs rhs.coeffs⟩

/-- ml-kem/src/algebra.rs:118-126 `Sub` -/
def sub (self rhs : Polynomial) : Res Polynomial := do
  .ok ⟨← zipVec FieldElement.sub self.coeffs rhs.coeffs⟩

/-- ml-kem/src/algebra.rs:132-134 `FieldElement * &Polynomial` -/
def smul (self : FieldElement) (rhs : Polynomial) : Res Polynomial := do
  .ok ⟨← mapVec (fun x => FieldElement.mul self x) rhs.coeffs⟩

/-- ml-kem/src/algebra.rs:383-387: body of the innermost loop of `ntt` -/
def nttInner (zeta : FieldElement) (len : Nat) (f : Vector FieldElement 256) (j : Nat) :
    Res (Vector FieldElement 256) := do
  let t ← FieldElement.mul zeta (← idx f (← addUsize j len))
  let f ← setIdx f (← addUsize j len) (← FieldElement.sub (← idx f j) t)
  setIdx f j (← FieldElement.add (← idx f j) t)

/-- ml-kem/src/algebra.rs:379-388: body of the loop over `start`; state `(f, k)` -/
def nttBlock (len : Nat) (st : Vector FieldElement 256 × Nat) (start : Nat) :
    Res (Vector FieldElement 256 × Nat) := do
  let (f, k) := st
  let zeta ← idx ZETA_POW_BITREV k
  let k ← addUsize k 1
  let f ← forEach (range start (← addUsize start len)) f (nttInner zeta len)
  .ok (f, k)

/-- ml-kem/src/algebra.rs:378-389: body of the loop over `len` -/
def nttLayer (st : Vector FieldElement 256 × Nat) (len : Nat) :
    Res (Vector FieldElement 256 × Nat) := do
  forEach (rangeStep 0 256 (← mulUsize 2 len)) st (nttBlock len)

/-- ml-kem/src/algebra.rs:374-392 `ntt` -/
def ntt (self : Polynomial) : Res NttPolynomial := do
  let (f, _k) ← forEach [128, 64, 32, 16, 8, 4, 2] (self.coeffs, 1) nttLayer
  .ok ⟨f⟩

end Polynomial

namespace NttPolynomial

/-- `Default` for `NttPolynomial` (algebra.rs:184): all zeros -/
def default : NttPolynomial := ⟨Vector.replicate 256 ⟨0⟩⟩

/-- ml-kem/src/algebra.rs:199-207 `Add` -/
def add (self rhs : NttPolynomial) : Res NttPolynomial := do
  .ok ⟨← zipVec FieldElement.add self.coeffs rhs.coeffs⟩

/-- ml-kem/src/algebra.rs:343-354: body of the loop of `Mul` -/
def mulStep (self rhs : NttPolynomial) (out : Vector FieldElement 256) (i : Nat) :
    Res (Vector FieldElement 256) := do
  let (c0, c1) ← FieldElement.base_case_multiply
    (← idx self.coeffs (← mulUsize 2 i)) (← idx self.coeffs (← addUsize (← mulUsize 2 i) 1))
    (← idx rhs.coeffs (← mulUsize 2 i)) (← idx rhs.coeffs (← addUsize (← mulUsize 2 i) 1)) i
  let out ← setIdx out (← mulUsize 2 i) c0
  setIdx out (← addUsize (← mulUsize 2 i) 1) c1

/-- ml-kem/src/algebra.rs:340-357 `Mul` -/
def mul (self rhs : NttPolynomial) : Res NttPolynomial := do
  let out ← forEach (range 0 128) default.coeffs (mulStep self rhs)
  .ok ⟨out⟩

/-- ml-kem/src/algebra.rs:406-410: body of the innermost loop of `ntt_inverse` -/
def invInner (zeta : FieldElement) (len : Nat) (f : Vector FieldElement 256) (j : Nat) :
    Res (Vector FieldElement 256) := do
  let t ← idx f j
  let f ← setIdx f j (← FieldElement.add t (← idx f (← addUsize j len)))
  setIdx f (← addUsize j len) (← FieldElement.mul zeta (← FieldElement.sub (← idx f (← addUsize j len)) t))

/-- ml-kem/src/algebra.rs:402-411: body of the loop over `start`; state `(f, k)`. `k -= 1`
underflows as the build says. -/
def invBlock (len : Nat) (st : Vector FieldElement 256 × Nat) (start : Nat) :
    Res (Vector FieldElement 256 × Nat) := do
  let (f, k) := st
  let zeta ← idx ZETA_POW_BITREV k
  let k ← decUsize k
  let f ← forEach (range start (← addUsize start len)) f (invInner zeta len)
  .ok (f, k)

/-- ml-kem/src/algebra.rs:401-412: body of the loop over `len` -/
def invLayer (st : Vector FieldElement 256 × Nat) (len : Nat) :
    Res (Vector FieldElement 256 × Nat) := do
  forEach (rangeStep 0 256 (← mulUsize 2 len)) st (invBlock len)

/-- ml-kem/src/algebra.rs:397-415 `ntt_inverse` -/
def ntt_inverse (self : NttPolynomial) : Res Polynomial := do
  let (f, _k) ← forEach [2, 4, 8, 16, 32, 64, 128] (self.coeffs, 127) invLayer
  Polynomial.smul ⟨3303⟩ ⟨f⟩

end NttPolynomial
end MlKem
