/-
Rust semantics used by the model: outcomes, machine integers with Rust's overflow rules (debug and release builds),
fixed-size arrays and loops. Nothing here is specific to /repo.
-/
namespace Rust

/-- Outcome of running a piece of Rust code: a value, a panic (arithmetic overflow in a debug build,
index out of range, slice length mismatch; also used for undefined behaviour in `unsafe` code), or
divergence (an infinite loop). (the outcome of every function, as ml-kem/src/kem.rs:91-117) -/
inductive Res (α : Type) where
  | ok (a : α)
  | panic
  | div
deriving DecidableEq, Repr

namespace Res

/-- Sequencing: a panic or divergence of the first computation is that of the whole.
(`;` and `let`, as ml-kem/src/kem.rs:95-98) -/
def bind {α β : Type} (x : Res α) (f : α → Res β) : Res β :=
  match x with
  | ok a => f a
  | panic => panic
  | div => div

instance : Monad Res where
  pure := Res.ok
  bind := Res.bind

@[simp] theorem ok_bind {α β} (a : α) (f : α → Res β) : (Res.ok a >>= f) = f a := rfl
@[simp] theorem panic_bind {α β} (f : α → Res β) : ((Res.panic : Res α) >>= f) = .panic := rfl
@[simp] theorem div_bind {α β} (f : α → Res β) : ((Res.div : Res α) >>= f) = .div := rfl
@[simp] theorem pure_eq {α} (a : α) : (pure a : Res α) = .ok a := rfl

instance : LawfulMonad Res := LawfulMonad.mk'
  (id_map := by intro α x; cases x <;> rfl)
  (pure_bind := by intros; rfl)
  (bind_assoc := by intro α β γ x f g; cases x <;> rfl)
  (bind_pure_comp := by intro α β f x; cases x <;> rfl)

/-- A computation returned normally. (as ml-kem/src/kem.rs:94) -/
def isOk {α : Type} : Res α → Prop
  | ok _ => True
  | _ => False

theorem bind_eq_ok {α β} {x : Res α} {f : α → Res β} {b : β} :
    (x >>= f) = .ok b ↔ ∃ a, x = .ok a ∧ f a = .ok b := by
  cases x <;> simp

section Order
open Lean.Order

instance {α : Type} : Lean.Order.PartialOrder (Res α) :=
  inferInstanceAs (Lean.Order.PartialOrder (FlatOrder (Res.div : Res α)))

noncomputable instance {α : Type} : CCPO (Res α) :=
  inferInstanceAs (CCPO (FlatOrder (Res.div : Res α)))

noncomputable instance : MonoBind Res where
  bind_mono_left h := by
    cases h
    · exact FlatOrder.rel.bot
    · exact FlatOrder.rel.refl
  bind_mono_right {_ _ a _ _} h := by
    cases a
    · exact h _
    · exact FlatOrder.rel.refl
    · exact FlatOrder.rel.refl

end Order
end Res

/-- Unsigned machine integers. (as ml-kem/src/algebra.rs:13, 29-30) -/
class MInt (α : Type) where
  /-- bit width -/
  bits : Nat
  toNat : α → Nat
  /-- the value modulo `2^bits` -/
  ofNat : Nat → α
  toNat_lt : ∀ a, toNat a < 2 ^ bits
  toNat_ofNat : ∀ n, toNat (ofNat n) = n % 2 ^ bits
  ofNat_toNat : ∀ a, ofNat (toNat a) = a

instance : MInt UInt8 where
  bits := 8
  toNat := UInt8.toNat
  ofNat := UInt8.ofNat
  toNat_lt a := a.toNat_lt
  toNat_ofNat n := by simp
  ofNat_toNat a := by simp

instance : MInt UInt16 where
  bits := 16
  toNat := UInt16.toNat
  ofNat := UInt16.ofNat
  toNat_lt a := a.toNat_lt
  toNat_ofNat n := by simp
  ofNat_toNat a := by simp

instance : MInt UInt32 where
  bits := 32
  toNat := UInt32.toNat
  ofNat := UInt32.ofNat
  toNat_lt a := a.toNat_lt
  toNat_ofNat n := by simp
  ofNat_toNat a := by simp

instance : MInt UInt64 where
  bits := 64
  toNat := UInt64.toNat
  ofNat := UInt64.ofNat
  toNat_lt a := a.toNat_lt
  toNat_ofNat n := by simp
  ofNat_toNat a := by simp

/-- `u128` (ml-kem/src/encode.rs:26) -/
abbrev U128 := BitVec 128

instance : MInt U128 where
  bits := 128
  toNat := BitVec.toNat
  ofNat := BitVec.ofNat 128
  toNat_lt a := a.isLt
  toNat_ofNat n := by simp
  ofNat_toNat a := by simp

/-- How the code was compiled. With `overflowChecks` (Rust's debug profile) an arithmetic overflow
panics; without (release profile) the operation wraps around. `usizeBits` is the width of `usize` on the target
platform; Rust guarantees at least 16. (the profile is left to the user of the crates: Cargo.toml) -/
class Build where
  overflowChecks : Bool
  usizeBits : Nat
  usizeBits_ge : 16 ≤ usizeBits

/-- An overflow: panic or the wrapped value, depending on the build (as in ml-kem/src/algebra.rs:74) -/
def overflow {α : Type} [Build] (wrapped : α) : Res α :=
  if Build.overflowChecks then .panic else .ok wrapped

section Ops
variable {α β : Type} [MInt α] [MInt β]
open MInt

/-- `a.wrapping_sub(b)` (ml-kem/src/kem.rs:81-82) -/
def wrappingSub (a b : α) : α := ofNat (toNat a + (2 ^ bits α - toNat b))

/-- `a + b` (ml-kem/src/algebra.rs:74) -/
def add [Build] (a b : α) : Res α :=
  if toNat a + toNat b < 2 ^ bits α then .ok (ofNat (toNat a + toNat b))
  else overflow (ofNat (toNat a + toNat b))

/-- `a - b` (ml-kem/src/algebra.rs:40, 83) -/
def sub [Build] (a b : α) : Res α :=
  if toNat b ≤ toNat a then .ok (ofNat (toNat a - toNat b)) else overflow (wrappingSub a b)

/-- `a * b` (ml-kem/src/algebra.rs:45, 47, 93) -/
def mul [Build] (a b : α) : Res α :=
  if toNat a * toNat b < 2 ^ bits α then .ok (ofNat (toNat a * toNat b))
  else overflow (ofNat (toNat a * toNat b))

/-- `a % b`, panics when `b = 0` in every build (ml-kem/src/encode.rs:60) -/
def rem (a b : α) : Res α :=
  if toNat b = 0 then .panic else .ok (ofNat (toNat a % toNat b))

/-- `a << n`: high-order bits are lost; a shift amount not below the width is an overflow, and is
reduced modulo the width when it wraps (ml-kem/src/algebra.rs:249-250) -/
def shl [Build] (a : α) (n : Nat) : Res α :=
  if n < bits α then .ok (ofNat (toNat a <<< n)) else overflow (ofNat (toNat a <<< (n % bits α)))

/-- `a >> n`; a shift amount not below the width is an overflow, as for `<<` (ml-kem/src/algebra.rs:46, 250) -/
def shr [Build] (a : α) (n : Nat) : Res α :=
  if n < bits α then .ok (ofNat (toNat a >>> n)) else overflow (ofNat (toNat a >>> (n % bits α)))

/-- `a + b` on `usize`. A `usize` is modelled as a `Nat` below `2 ^ usizeBits`. (ml-kem/src/algebra.rs:245) -/
def addUsize [Build] (a b : Nat) : Res Nat :=
  if a + b < 2 ^ Build.usizeBits then .ok (a + b) else overflow ((a + b) % 2 ^ Build.usizeBits)

/-- `a * b` on `usize` (ml-kem/src/util.rs:88) -/
def mulUsize [Build] (a b : Nat) : Res Nat :=
  if a * b < 2 ^ Build.usizeBits then .ok (a * b) else overflow (a * b % 2 ^ Build.usizeBits)

/-- `a -= 1` on `usize` (ml-kem/src/algebra.rs:404) -/
def decUsize [Build] (a : Nat) : Res Nat :=
  if 1 ≤ a then .ok (a - 1) else overflow (2 ^ Build.usizeBits - 1)

/-- `a & b` (ml-kem/src/algebra.rs:249) -/
def and (a b : α) : α := ofNat (toNat a &&& toNat b)
/-- `a | b` (ml-kem/src/encode.rs:28) -/
def or (a b : α) : α := ofNat (toNat a ||| toNat b)
/-- `a ^ b` (ml-kem/src/kem.rs:80) -/
def xor (a b : α) : α := ofNat (toNat a ^^^ toNat b)
/-- `!a` (ml-kem/src/kem.rs:81) -/
def not (a : α) : α := ofNat (2 ^ bits α - 1 - toNat a)
/-- `a < b` (ml-kem/src/algebra.rs:37, 252) -/
def lt (a b : α) : Bool := toNat a < toNat b
/-- Widening conversion (`u32::from(x)`); also `x as u16`, which keeps the low-order bits.
(ml-kem/src/algebra.rs:29, 45, 56) -/
def cast (a : α) : β := ofNat (toNat a)
/-- `T::MAX` (ml-kem/src/util.rs:28) -/
def max (α : Type) [MInt α] : α := ofNat (2 ^ bits α - 1)

end Ops

/-- `[u8; 16]` little-endian bytes of a `u128` (`to_le_bytes`). (ml-kem/src/encode.rs:31) -/
def U128.toLeBytes (x : U128) : Vector UInt8 16 :=
  Vector.ofFn fun i => UInt8.ofNat (x.toNat >>> (8 * i.val))

/-- Little-endian value of a list of bytes. (ml-kem/src/encode.rs:54) -/
def leValue : List UInt8 → Nat
  | [] => 0
  | b :: bs => b.toNat + 256 * leValue bs

/-- `u128::from_le_bytes` (ml-kem/src/encode.rs:54) -/
def U128.fromLeBytes (b : Vector UInt8 16) : U128 := BitVec.ofNat 128 (leValue b.toList)

/-- A byte array `[u8; n]` / `Array<u8, N>`. (ml-kem/src/util.rs:13) -/
abbrev Bytes (n : Nat) := Vector UInt8 n

/-- `a[i]` with the bounds check (ml-kem/src/algebra.rs:60, 148) -/
def idx {α : Type} {n : Nat} (a : Vector α n) (i : Nat) : Res α :=
  if h : i < n then .ok a[i] else .panic

/-- `a[i] = x` with the bounds check (ml-kem/src/algebra.rs:306, 315) -/
def setIdx {α : Type} {n : Nat} (a : Vector α n) (i : Nat) (x : α) : Res (Vector α n) :=
  if h : i < n then .ok (a.set i x) else .panic

/-- `Array::from_fn(f)`, and `iter().map(f).collect()` read index-wise: elements are produced in
order of increasing index, the first failing one determines the outcome. (ml-kem/src/algebra.rs:107-110, 175) -/
def tabulate {α : Type} : (n : Nat) → (Fin n → Res α) → Res (Vector α n)
  | 0, _ => .ok #v[]
  | n + 1, f => do
    let init ← tabulate n fun i => f i.castSucc
    let last ← f (Fin.last n)
    .ok (init.push last)

/-- `Array::from_fn` with a closure that mutates captured state. (ml-kem/src/algebra.rs:270) -/
def tabulateState {α σ : Type} : (n : Nat) → (Fin n → σ → Res (α × σ)) → σ → Res (Vector α n × σ)
  | 0, _, s => .ok (#v[], s)
  | n + 1, f, s => do
    let (init, s) ← tabulateState n (fun i => f i.castSucc) s
    let (last, s) ← f (Fin.last n) s
    .ok (init.push last, s)

/-- `iter().map(f).collect()` (ml-kem/src/algebra.rs:133) -/
def mapVec {α β : Type} {n : Nat} (f : α → Res β) (a : Vector α n) : Res (Vector β n) :=
  tabulate n fun i => f a[i]

/-- `iter().zip(..).map(f).collect()` for arrays of equal static length (ml-kem/src/algebra.rs:106-110) -/
def zipVec {α β γ : Type} {n : Nat} (f : α → β → Res γ) (a : Vector α n) (b : Vector β n) :
    Res (Vector γ n) :=
  tabulate n fun i => f a[i] b[i]

/-- `for x in xs { body }` where the body updates the state `σ` (ml-kem/src/compress.rs:55) -/
def forEach {ι σ : Type} (xs : List ι) (init : σ) (body : σ → ι → Res σ) : Res σ :=
  xs.foldlM body init

/-- `(lo..hi)` as a list (ml-kem/src/algebra.rs:343, 383) -/
def range (lo hi : Nat) : List Nat := List.range' lo (hi - lo)

/-- `(lo..hi).step_by(step)` as a list (ml-kem/src/algebra.rs:379, 402) -/
def rangeStep (lo hi step : Nat) : List Nat :=
  List.range' lo ((hi - lo + step - 1) / step) step

/-- `slice.chunks(n)`: consecutive sub-slices of length `n`, the last one possibly shorter.
(ml-kem/src/encode.rs:23-24, 48-49) -/
def chunks {α : Type} (n : Nat) (l : List α) : List (List α) :=
  (List.range ((l.length + n - 1) / n)).map fun c => (l.drop (c * n)).take n

/-- A `slice` seen as an array of the statically known length `n`; the run-time length is checked.
(ml-kem/src/encode.rs:21, 32, 46, 51-52) -/
def arrayOfList {α : Type} (n : Nat) (l : List α) : Res (Vector α n) :=
  if h : l.length = n then .ok ⟨l.toArray, by simpa using h⟩ else .panic

/-- `dst.copy_from_slice(src)`: panics unless the lengths agree; returns the new contents of `dst`.
(ml-kem/src/encode.rs:32) -/
def copyFromSlice {α : Type} (dst src : List α) : Res (List α) :=
  if dst.length = src.length then .ok src else .panic

/-- `&v[lo..hi]`: panics unless `lo ≤ hi ≤ len` (ml-kem/src/encode.rs:32; ml-kem/src/algebra.rs:246) -/
def sliceRange {α : Type} (v : List α) (lo hi : Nat) : Res (List α) :=
  if lo ≤ hi ∧ hi ≤ v.length then .ok ((v.drop lo).take (hi - lo)) else .panic

/-- `buf[lo..hi].copy_from_slice(src)`: panics unless `lo ≤ hi ≤ len` and the lengths agree.
(x-wing/src/lib.rs:110-111) -/
def copyIntoRange {α : Type} (buf : List α) (lo hi : Nat) (src : List α) : Res (List α) :=
  if lo ≤ hi ∧ hi ≤ buf.length ∧ src.length = hi - lo then
    .ok (buf.take lo ++ src ++ buf.drop hi)
  else .panic

/-- `hybrid_array::Array::concat` (ml-kem/src/param.rs:219, 227, 280) -/
def concat {α : Type} {n m : Nat} (a : Vector α n) (b : Vector α m) : Vector α (n + m) := a ++ b

/-- `hybrid_array::Array::split_ref` (ml-kem/src/param.rs:223, 231, 293-295) -/
def splitRef {α : Type} {n m : Nat} (a : Vector α (n + m)) : Vector α n × Vector α m :=
  (Vector.ofFn fun i => a[i.val]'(by omega), Vector.ofFn fun j => a[n + j.val]'(by omega))

end Rust
