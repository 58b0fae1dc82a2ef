import Verif.Rust.Basic
/-!
Execution with a record of what timing and memory access show. `Leak α` is an outcome together with the list
of events up to that point. Arithmetic (`+`, `-`, `*`, shifts, bit operations, conversions) leaves no event: it
takes the same time whatever the operands. Nothing here is specific to /repo.
-/
namespace Rust

/-- What an observer of time and memory traffic may see. (the claim of ml-kem/src/kem.rs:100-111) -/
inductive Event where
  /-- A loop or iterator chain of this many iterations begins. -/
  | loop (n : Nat)
  /-- An `if` whose condition is computed at run time -/
  | branch (taken : Bool)
  /-- The `if` of `small_reduce`, kept apart because compilers turn it into a conditional move -/
  | reduce (taken : Bool)
  /-- An array is read or written at a subscript. -/
  | index (i : Nat)
  /-- A table of `size` two-byte entries is read at a subscript, kept apart because of cache lines. -/
  | table (size i : Nat)
  /-- A division or remainder: its time may depend on the operands. -/
  | divide (a b : Nat)
  /-- A hash function reads `input` bytes and returns `output` bytes. -/
  | hash (input output : Nat)
  /-- A call of a function all of whose inputs are these public bytes: whatever it does may show. -/
  | expand (input : List UInt8)
  /-- A scalar multiplication of the external curve crate -/
  | curve
deriving DecidableEq, Repr

/-- An outcome and the events before it (as ml-kem/src/kem.rs:91-117) -/
structure Leak (α : Type) where
  trace : List Event
  res : Res α

namespace Leak
variable {α β ι σ : Type}

/-- A computation that leaves no event (as ml-kem/src/kem.rs:79-83) -/
def op (r : Res α) : Leak α := ⟨[], r⟩

/-- Sequencing: events are appended; nothing follows a panic or a divergence. (as ml-kem/src/kem.rs:95-98) -/
def bind (x : Leak α) (f : α → Leak β) : Leak β :=
  match x.res with
  | .ok a => ⟨x.trace ++ (f a).trace, (f a).res⟩
  | .panic => ⟨x.trace, .panic⟩
  | .div => ⟨x.trace, .div⟩

instance : Monad Leak where
  pure a := op (.ok a)
  bind := bind

instance : MonadLift Res Leak := ⟨op⟩

/-- Leave an event. (as at ml-kem/src/algebra.rs:60) -/
def emit (e : Event) : Leak Unit := ⟨[e], .ok ()⟩

/-- `a[i]` (ml-kem/src/algebra.rs:60, 148) -/
def idx {n : Nat} (a : Vector α n) (i : Nat) : Leak α := do
  emit (.index i)
  op (Rust.idx a i)

/-- `a[i] = x` (ml-kem/src/algebra.rs:306) -/
def setIdx {n : Nat} (a : Vector α n) (i : Nat) (x : α) : Leak (Vector α n) := do
  emit (.index i)
  op (Rust.setIdx a i x)

/-- The elements of `tabulate` (ml-kem/src/algebra.rs:175) -/
def elements : (n : Nat) → (Fin n → Leak α) → Leak (Vector α n)
  | 0, _ => op (.ok #v[])
  | n + 1, f => do
    let init ← elements n fun i => f i.castSucc
    let last ← f (Fin.last n)
    op (.ok (init.push last))

/-- `Array::from_fn` and `iter().map().collect()` (ml-kem/src/algebra.rs:175) -/
def tabulate (n : Nat) (f : Fin n → Leak α) : Leak (Vector α n) := do
  emit (.loop n)
  elements n f

/-- `iter().map(f).collect()` (ml-kem/src/algebra.rs:133) -/
def mapVec {n : Nat} (f : α → Leak β) (a : Vector α n) : Leak (Vector β n) := tabulate n fun i => f a[i]

/-- `iter().zip(..).map(f).collect()` (ml-kem/src/algebra.rs:106-110) -/
def zipVec {γ : Type} {n : Nat} (f : α → β → Leak γ) (a : Vector α n) (b : Vector β n) : Leak (Vector γ n) :=
  tabulate n fun i => f a[i] b[i]

/-- The iterations of `for x in xs { body }` (ml-kem/src/compress.rs:55) -/
def iterations (body : σ → ι → Leak σ) : List ι → σ → Leak σ
  | [], s => op (.ok s)
  | x :: xs, s => do
    let s ← body s x
    iterations body xs s

/-- `for x in xs { body }` (ml-kem/src/compress.rs:55) -/
def forEach (xs : List ι) (init : σ) (body : σ → ι → Leak σ) : Leak σ := do
  emit (.loop xs.length)
  iterations body xs init

/-- The results of a loop that produces one value per element (ml-kem/src/encode.rs:25-33) -/
def results (f : ι → Leak α) : List ι → Leak (List α)
  | [] => op (.ok [])
  | x :: xs => do
    let y ← f x
    let ys ← results f xs
    op (.ok (y :: ys))

/-- A loop that produces one value per element (ml-kem/src/encode.rs:25-33) -/
def mapList (f : ι → Leak α) (xs : List ι) : Leak (List α) := do
  emit (.loop xs.length)
  results f xs

/-! ### Forgetting the events -/

theorem res_bind (x : Leak α) (f : α → Leak β) : (x >>= f).res = x.res >>= fun a => (f a).res := by
  show (Leak.bind x f).res = Res.bind x.res _
  unfold Leak.bind Res.bind
  cases x.res <;> rfl

@[simp] theorem res_op (r : Res α) : (op r).res = r := rfl
@[simp] theorem res_pure (a : α) : (pure a : Leak α).res = .ok a := rfl
@[simp] theorem res_lift (r : Res α) : (liftM r : Leak α).res = r := rfl
@[simp] theorem res_emit (e : Event) : (emit e).res = .ok () := rfl

@[simp] theorem res_idx {n : Nat} (a : Vector α n) (i : Nat) : (idx a i).res = Rust.idx a i := rfl
@[simp] theorem res_setIdx {n : Nat} (a : Vector α n) (i : Nat) (x : α) : (setIdx a i x).res = Rust.setIdx a i x := rfl

theorem res_elements {n : Nat} {f : Fin n → Leak α} {g : Fin n → Res α} (h : ∀ i, (f i).res = g i) :
    (elements n f).res = Rust.tabulate n g := by
  induction n with
  | zero => rfl
  | succ n ih =>
    unfold elements Rust.tabulate
    simp only [res_bind, res_op, h]
    rw [ih fun i => h i.castSucc]

theorem res_tabulate {n : Nat} {f : Fin n → Leak α} {g : Fin n → Res α} (h : ∀ i, (f i).res = g i) :
    (tabulate n f).res = Rust.tabulate n g := by
  unfold tabulate
  rw [res_bind, res_emit, Res.ok_bind, res_elements h]

theorem res_mapVec {n : Nat} {f : α → Leak β} {g : α → Res β} (h : ∀ a, (f a).res = g a) (a : Vector α n) :
    (mapVec f a).res = Rust.mapVec g a := res_tabulate fun _ => h _

theorem res_zipVec {γ : Type} {n : Nat} {f : α → β → Leak γ} {g : α → β → Res γ} (h : ∀ a b, (f a b).res = g a b)
    (a : Vector α n) (b : Vector β n) : (zipVec f a b).res = Rust.zipVec g a b := res_tabulate fun _ => h _ _

theorem res_forEach {xs : List ι} {init : σ} {body : σ → ι → Leak σ} {g : σ → ι → Res σ}
    (h : ∀ s x, (body s x).res = g s x) : (forEach xs init body).res = Rust.forEach xs init g := by
  have key : ∀ (xs : List ι) (s : σ), (iterations body xs s).res = xs.foldlM g s := by
    intro xs
    induction xs with
    | nil => intro s; rfl
    | cons x xs ih =>
      intro s
      unfold iterations
      rw [res_bind, h, List.foldlM_cons]
      simp only [ih]
  unfold forEach Rust.forEach
  rw [res_bind, res_emit, Res.ok_bind, key]

theorem res_mapList {f : ι → Leak α} {g : ι → Res α} (h : ∀ x, (f x).res = g x) (xs : List ι) :
    (mapList f xs).res = xs.mapM g := by
  have key : ∀ xs : List ι, (results f xs).res = xs.mapM g := by
    intro xs
    induction xs with
    | nil => rw [List.mapM_nil]; rfl
    | cons x xs ih =>
      unfold results
      rw [res_bind, h, List.mapM_cons]
      simp only [res_bind, ih, res_op]
      rfl
  unfold mapList
  rw [res_bind, res_emit, Res.ok_bind, key]

end Leak
end Rust
