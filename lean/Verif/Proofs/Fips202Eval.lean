import Verif.Spec.Fips202
import Mathlib.Tactic.Ring
import Mathlib.Data.List.GetD
/-! A fast evaluation of SHA-3 by Lean's kernel, proved equal to Spec/Fips202.lean. -/
namespace Fips202.Eval
open Rust

/-- Evaluates a number before it is used -/
def force {α : Type} (n : Nat) (k : Nat → α) : α := Nat.rec (k 0) (fun m _ => k (Nat.succ m)) n

theorem force_eq {α : Type} (n : Nat) (k : Nat → α) : force n k = k n := by cases n <;> rfl

def rot (n x : Nat) : Nat :=
  Nat.mod (Nat.lor (Nat.shiftLeft x n) (Nat.shiftRight x (Nat.sub 64 n))) 18446744073709551616

theorem rot_eq (n x : Nat) : rot n x = rotl n x := rfl

/-- A round, unrolled -/
def round {α : Type} (rc : Nat) (a0 a1 a2 a3 a4 a5 a6 a7 a8 a9 a10 a11 a12 a13 a14 a15 a16 a17 a18 a19 a20 a21
    a22 a23 a24 : Nat)
    (k : Nat → Nat → Nat → Nat → Nat → Nat → Nat → Nat → Nat → Nat → Nat → Nat → Nat → Nat → Nat → Nat → Nat → Nat →
    Nat → Nat → Nat → Nat → Nat → Nat → Nat → α) : α :=
  force (Nat.xor (Nat.xor (Nat.xor (Nat.xor a0 a5) a10) a15) a20) fun c0 =>
  force (Nat.xor (Nat.xor (Nat.xor (Nat.xor a1 a6) a11) a16) a21) fun c1 =>
  force (Nat.xor (Nat.xor (Nat.xor (Nat.xor a2 a7) a12) a17) a22) fun c2 =>
  force (Nat.xor (Nat.xor (Nat.xor (Nat.xor a3 a8) a13) a18) a23) fun c3 =>
  force (Nat.xor (Nat.xor (Nat.xor (Nat.xor a4 a9) a14) a19) a24) fun c4 =>
  force (Nat.xor c4 (rot 1 c1)) fun d0 =>
  force (Nat.xor c0 (rot 1 c2)) fun d1 =>
  force (Nat.xor c1 (rot 1 c3)) fun d2 =>
  force (Nat.xor c2 (rot 1 c4)) fun d3 =>
  force (Nat.xor c3 (rot 1 c0)) fun d4 =>
  force (rot 0 (Nat.xor a0 d0)) fun b0 =>
  force (rot 44 (Nat.xor a6 d1)) fun b1 =>
  force (rot 43 (Nat.xor a12 d2)) fun b2 =>
  force (rot 21 (Nat.xor a18 d3)) fun b3 =>
  force (rot 14 (Nat.xor a24 d4)) fun b4 =>
  force (rot 28 (Nat.xor a3 d3)) fun b5 =>
  force (rot 20 (Nat.xor a9 d4)) fun b6 =>
  force (rot 3 (Nat.xor a10 d0)) fun b7 =>
  force (rot 45 (Nat.xor a16 d1)) fun b8 =>
  force (rot 61 (Nat.xor a22 d2)) fun b9 =>
  force (rot 1 (Nat.xor a1 d1)) fun b10 =>
  force (rot 6 (Nat.xor a7 d2)) fun b11 =>
  force (rot 25 (Nat.xor a13 d3)) fun b12 =>
  force (rot 8 (Nat.xor a19 d4)) fun b13 =>
  force (rot 18 (Nat.xor a20 d0)) fun b14 =>
  force (rot 27 (Nat.xor a4 d4)) fun b15 =>
  force (rot 36 (Nat.xor a5 d0)) fun b16 =>
  force (rot 10 (Nat.xor a11 d1)) fun b17 =>
  force (rot 15 (Nat.xor a17 d2)) fun b18 =>
  force (rot 56 (Nat.xor a23 d3)) fun b19 =>
  force (rot 62 (Nat.xor a2 d2)) fun b20 =>
  force (rot 55 (Nat.xor a8 d3)) fun b21 =>
  force (rot 39 (Nat.xor a14 d4)) fun b22 =>
  force (rot 41 (Nat.xor a15 d0)) fun b23 =>
  force (rot 2 (Nat.xor a21 d1)) fun b24 =>
  force (Nat.xor (Nat.xor b0 (Nat.land (Nat.sub 18446744073709551615 b1) b2)) rc) fun o0 =>
  force (Nat.xor b1 (Nat.land (Nat.sub 18446744073709551615 b2) b3)) fun o1 =>
  force (Nat.xor b2 (Nat.land (Nat.sub 18446744073709551615 b3) b4)) fun o2 =>
  force (Nat.xor b3 (Nat.land (Nat.sub 18446744073709551615 b4) b0)) fun o3 =>
  force (Nat.xor b4 (Nat.land (Nat.sub 18446744073709551615 b0) b1)) fun o4 =>
  force (Nat.xor b5 (Nat.land (Nat.sub 18446744073709551615 b6) b7)) fun o5 =>
  force (Nat.xor b6 (Nat.land (Nat.sub 18446744073709551615 b7) b8)) fun o6 =>
  force (Nat.xor b7 (Nat.land (Nat.sub 18446744073709551615 b8) b9)) fun o7 =>
  force (Nat.xor b8 (Nat.land (Nat.sub 18446744073709551615 b9) b5)) fun o8 =>
  force (Nat.xor b9 (Nat.land (Nat.sub 18446744073709551615 b5) b6)) fun o9 =>
  force (Nat.xor b10 (Nat.land (Nat.sub 18446744073709551615 b11) b12)) fun o10 =>
  force (Nat.xor b11 (Nat.land (Nat.sub 18446744073709551615 b12) b13)) fun o11 =>
  force (Nat.xor b12 (Nat.land (Nat.sub 18446744073709551615 b13) b14)) fun o12 =>
  force (Nat.xor b13 (Nat.land (Nat.sub 18446744073709551615 b14) b10)) fun o13 =>
  force (Nat.xor b14 (Nat.land (Nat.sub 18446744073709551615 b10) b11)) fun o14 =>
  force (Nat.xor b15 (Nat.land (Nat.sub 18446744073709551615 b16) b17)) fun o15 =>
  force (Nat.xor b16 (Nat.land (Nat.sub 18446744073709551615 b17) b18)) fun o16 =>
  force (Nat.xor b17 (Nat.land (Nat.sub 18446744073709551615 b18) b19)) fun o17 =>
  force (Nat.xor b18 (Nat.land (Nat.sub 18446744073709551615 b19) b15)) fun o18 =>
  force (Nat.xor b19 (Nat.land (Nat.sub 18446744073709551615 b15) b16)) fun o19 =>
  force (Nat.xor b20 (Nat.land (Nat.sub 18446744073709551615 b21) b22)) fun o20 =>
  force (Nat.xor b21 (Nat.land (Nat.sub 18446744073709551615 b22) b23)) fun o21 =>
  force (Nat.xor b22 (Nat.land (Nat.sub 18446744073709551615 b23) b24)) fun o22 =>
  force (Nat.xor b23 (Nat.land (Nat.sub 18446744073709551615 b24) b20)) fun o23 =>
  force (Nat.xor b24 (Nat.land (Nat.sub 18446744073709551615 b20) b21)) fun o24 =>
  k o0 o1 o2 o3 o4 o5 o6 o7 o8 o9 o10 o11 o12 o13 o14 o15 o16 o17 o18 o19 o20 o21 o22 o23 o24

/-- The 25 lanes as a list -/
def cons25 (a0 a1 a2 a3 a4 a5 a6 a7 a8 a9 a10 a11 a12 a13 a14 a15 a16 a17 a18 a19 a20 a21 a22 a23 a24 : Nat) :
    List Nat := [a0, a1, a2, a3, a4, a5, a6, a7, a8, a9, a10, a11, a12, a13, a14, a15, a16, a17, a18, a19, a20, a21,
    a22, a23, a24]

theorem columns_eq (a0 a1 a2 a3 a4 a5 a6 a7 a8 a9 a10 a11 a12 a13 a14 a15 a16 a17 a18 a19 a20 a21 a22 a23 a24 :
    Nat) : columns (cons25 a0 a1 a2 a3 a4 a5 a6 a7 a8 a9 a10 a11 a12 a13 a14 a15 a16 a17 a18 a19 a20 a21 a22 a23
    a24) =
    [(Nat.xor (Nat.xor (Nat.xor (Nat.xor a0 a5) a10) a15) a20), (Nat.xor (Nat.xor (Nat.xor (Nat.xor a1 a6) a11) a16)
    a21), (Nat.xor (Nat.xor (Nat.xor (Nat.xor a2 a7) a12) a17) a22), (Nat.xor (Nat.xor (Nat.xor (Nat.xor a3 a8) a13)
    a18) a23), (Nat.xor (Nat.xor (Nat.xor (Nat.xor a4 a9) a14) a19) a24)] := rfl

theorem theta_eq (a0 a1 a2 a3 a4 a5 a6 a7 a8 a9 a10 a11 a12 a13 a14 a15 a16 a17 a18 a19 a20 a21 a22 a23 a24 c0
    c1 c2 c3 c4 : Nat) (h : columns (cons25 a0 a1 a2 a3 a4 a5 a6 a7 a8 a9 a10 a11 a12 a13 a14 a15 a16 a17 a18 a19
    a20 a21 a22 a23 a24) = [c0, c1, c2, c3, c4]) :
    theta (cons25 a0 a1 a2 a3 a4 a5 a6 a7 a8 a9 a10 a11 a12 a13 a14 a15 a16 a17 a18 a19 a20 a21 a22 a23 a24) =
    cons25 (Nat.xor a0 (Nat.xor c4 (rotl 1 c1))) (Nat.xor a1 (Nat.xor c0 (rotl 1 c2))) (Nat.xor a2 (Nat.xor c1 (rotl
    1 c3))) (Nat.xor a3 (Nat.xor c2 (rotl 1 c4))) (Nat.xor a4 (Nat.xor c3 (rotl 1 c0))) (Nat.xor a5 (Nat.xor c4
    (rotl 1 c1))) (Nat.xor a6 (Nat.xor c0 (rotl 1 c2))) (Nat.xor a7 (Nat.xor c1 (rotl 1 c3))) (Nat.xor a8 (Nat.xor
    c2 (rotl 1 c4))) (Nat.xor a9 (Nat.xor c3 (rotl 1 c0))) (Nat.xor a10 (Nat.xor c4 (rotl 1 c1))) (Nat.xor a11
    (Nat.xor c0 (rotl 1 c2))) (Nat.xor a12 (Nat.xor c1 (rotl 1 c3))) (Nat.xor a13 (Nat.xor c2 (rotl 1 c4))) (Nat.xor
    a14 (Nat.xor c3 (rotl 1 c0))) (Nat.xor a15 (Nat.xor c4 (rotl 1 c1))) (Nat.xor a16 (Nat.xor c0 (rotl 1 c2)))
    (Nat.xor a17 (Nat.xor c1 (rotl 1 c3))) (Nat.xor a18 (Nat.xor c2 (rotl 1 c4))) (Nat.xor a19 (Nat.xor c3 (rotl 1
    c0))) (Nat.xor a20 (Nat.xor c4 (rotl 1 c1))) (Nat.xor a21 (Nat.xor c0 (rotl 1 c2))) (Nat.xor a22 (Nat.xor c1
    (rotl 1 c3))) (Nat.xor a23 (Nat.xor c2 (rotl 1 c4))) (Nat.xor a24 (Nat.xor c3 (rotl 1 c0))) := by
  rw [theta, h]
  rfl

theorem rho_pi_eq (a0 a1 a2 a3 a4 a5 a6 a7 a8 a9 a10 a11 a12 a13 a14 a15 a16 a17 a18 a19 a20 a21 a22 a23 a24 :
    Nat) : pi (rho (cons25 a0 a1 a2 a3 a4 a5 a6 a7 a8 a9 a10 a11 a12 a13 a14 a15 a16 a17 a18 a19 a20 a21 a22 a23
    a24)) = cons25 (rotl 0 a0) (rotl 44 a6) (rotl 43 a12) (rotl 21 a18) (rotl 14 a24) (rotl 28 a3) (rotl 20 a9)
    (rotl 3 a10) (rotl 45 a16) (rotl 61 a22) (rotl 1 a1) (rotl 6 a7) (rotl 25 a13) (rotl 8 a19) (rotl 18 a20) (rotl
    27 a4) (rotl 36 a5) (rotl 10 a11) (rotl 15 a17) (rotl 56 a23) (rotl 62 a2) (rotl 55 a8) (rotl 39 a14) (rotl 41
    a15) (rotl 2 a21) := rfl

theorem chi_eq (a0 a1 a2 a3 a4 a5 a6 a7 a8 a9 a10 a11 a12 a13 a14 a15 a16 a17 a18 a19 a20 a21 a22 a23 a24 : Nat)
    : chi (cons25 a0 a1 a2 a3 a4 a5 a6 a7 a8 a9 a10 a11 a12 a13 a14 a15 a16 a17 a18 a19 a20 a21 a22 a23 a24) =
    cons25 (Nat.xor a0 (Nat.land (Nat.sub 18446744073709551615 a1) a2)) (Nat.xor a1 (Nat.land (Nat.sub
    18446744073709551615 a2) a3)) (Nat.xor a2 (Nat.land (Nat.sub 18446744073709551615 a3) a4)) (Nat.xor a3 (Nat.land
    (Nat.sub 18446744073709551615 a4) a0)) (Nat.xor a4 (Nat.land (Nat.sub 18446744073709551615 a0) a1)) (Nat.xor a5
    (Nat.land (Nat.sub 18446744073709551615 a6) a7)) (Nat.xor a6 (Nat.land (Nat.sub 18446744073709551615 a7) a8))
    (Nat.xor a7 (Nat.land (Nat.sub 18446744073709551615 a8) a9)) (Nat.xor a8 (Nat.land (Nat.sub 18446744073709551615
    a9) a5)) (Nat.xor a9 (Nat.land (Nat.sub 18446744073709551615 a5) a6)) (Nat.xor a10 (Nat.land (Nat.sub
    18446744073709551615 a11) a12)) (Nat.xor a11 (Nat.land (Nat.sub 18446744073709551615 a12) a13)) (Nat.xor a12
    (Nat.land (Nat.sub 18446744073709551615 a13) a14)) (Nat.xor a13 (Nat.land (Nat.sub 18446744073709551615 a14)
    a10)) (Nat.xor a14 (Nat.land (Nat.sub 18446744073709551615 a10) a11)) (Nat.xor a15 (Nat.land (Nat.sub
    18446744073709551615 a16) a17)) (Nat.xor a16 (Nat.land (Nat.sub 18446744073709551615 a17) a18)) (Nat.xor a17
    (Nat.land (Nat.sub 18446744073709551615 a18) a19)) (Nat.xor a18 (Nat.land (Nat.sub 18446744073709551615 a19)
    a15)) (Nat.xor a19 (Nat.land (Nat.sub 18446744073709551615 a15) a16)) (Nat.xor a20 (Nat.land (Nat.sub
    18446744073709551615 a21) a22)) (Nat.xor a21 (Nat.land (Nat.sub 18446744073709551615 a22) a23)) (Nat.xor a22
    (Nat.land (Nat.sub 18446744073709551615 a23) a24)) (Nat.xor a23 (Nat.land (Nat.sub 18446744073709551615 a24)
    a20)) (Nat.xor a24 (Nat.land (Nat.sub 18446744073709551615 a20) a21)) := rfl

theorem iota_eq (i : Nat) (a0 a1 a2 a3 a4 a5 a6 a7 a8 a9 a10 a11 a12 a13 a14 a15 a16 a17 a18 a19 a20 a21 a22 a23
    a24 : Nat) : iota i (cons25 a0 a1 a2 a3 a4 a5 a6 a7 a8 a9 a10 a11 a12 a13 a14 a15 a16 a17 a18 a19 a20 a21 a22
    a23 a24) = cons25 (Nat.xor a0 (RC i)) a1 a2 a3 a4 a5 a6 a7 a8 a9 a10 a11 a12 a13 a14 a15 a16 a17 a18 a19 a20 a21
    a22 a23 a24 := rfl

theorem round_eq {α : Type} (i : Nat) (a0 a1 a2 a3 a4 a5 a6 a7 a8 a9 a10 a11 a12 a13 a14 a15 a16 a17 a18 a19 a20
    a21 a22 a23 a24 : Nat) (k : List Nat → α) : round (RC i) a0 a1 a2 a3 a4 a5 a6 a7 a8 a9 a10 a11 a12 a13 a14 a15
    a16 a17 a18 a19 a20 a21 a22 a23 a24 (fun o0 o1 o2 o3 o4 o5 o6 o7 o8 o9 o10 o11 o12 o13 o14 o15 o16 o17 o18 o19
    o20 o21 o22 o23 o24 => k (cons25 o0 o1 o2 o3 o4 o5 o6 o7 o8 o9 o10 o11 o12 o13 o14 o15 o16 o17 o18 o19 o20 o21
    o22 o23 o24)) = k (iota i (chi (pi (rho (theta (cons25 a0 a1 a2 a3 a4 a5 a6 a7 a8 a9 a10 a11 a12 a13 a14 a15 a16
    a17 a18 a19 a20 a21 a22 a23 a24)))))) := by
  rw [theta_eq _ _ _ _ _ _ _ _ _ _ _ _ _ _ _ _ _ _ _ _ _ _ _ _ _ _ _ _ _ _ (columns_eq ..), rho_pi_eq, chi_eq, iota_eq]
  simp only [round, force_eq, rot_eq]

/-- All rounds -/
def rounds {α : Type} (k : Nat → Nat → Nat → Nat → Nat → Nat → Nat → Nat → Nat → Nat → Nat → Nat → Nat → Nat →
    Nat → Nat → Nat → Nat → Nat → Nat → Nat → Nat → Nat → Nat → Nat → α) : List Nat → Nat → Nat → Nat → Nat → Nat →
    Nat → Nat → Nat → Nat → Nat → Nat → Nat → Nat → Nat → Nat → Nat → Nat → Nat → Nat → Nat → Nat → Nat → Nat → Nat
    → Nat → α
  | [], a0, a1, a2, a3, a4, a5, a6, a7, a8, a9, a10, a11, a12, a13, a14, a15, a16, a17, a18, a19, a20, a21, a22,
    a23, a24 => k a0 a1 a2 a3 a4 a5 a6 a7 a8 a9 a10 a11 a12 a13 a14 a15 a16 a17 a18 a19 a20 a21 a22 a23 a24
  | rc :: l, a0, a1, a2, a3, a4, a5, a6, a7, a8, a9, a10, a11, a12, a13, a14, a15, a16, a17, a18, a19, a20, a21,
    a22, a23, a24 => round rc a0 a1 a2 a3 a4 a5 a6 a7 a8 a9 a10 a11 a12 a13 a14 a15 a16 a17 a18 a19 a20 a21 a22 a23
    a24 (rounds k l)

/-- The round constants -/
def rcs : List Nat := [0x1, 0x8082, 0x800000000000808a, 0x8000000080008000, 0x808b, 0x80000001,
  0x8000000080008081, 0x8000000000008009, 0x8a, 0x88, 0x80008009, 0x8000000a, 0x8000808b, 0x800000000000008b,
  0x8000000000008089, 0x8000000000008003, 0x8000000000008002, 0x8000000000000080, 0x800a, 0x800000008000000a,
  0x8000000080008081, 0x8000000000008080, 0x80000001, 0x8000000080008008]

theorem rcs_eq : (List.range 24).map RC = rcs := by decide +kernel

/-- KECCAK-f on 25 lanes -/
def fast : List Nat → List Nat
  | [a0, a1, a2, a3, a4, a5, a6, a7, a8, a9, a10, a11, a12, a13, a14, a15, a16, a17, a18, a19, a20, a21, a22,
    a23, a24] => rounds cons25 rcs a0 a1 a2 a3 a4 a5 a6 a7 a8 a9 a10 a11 a12 a13 a14 a15 a16 a17 a18 a19 a20 a21 a22
    a23 a24
  | _ => []

theorem rounds_eq (l : List Nat) (a0 a1 a2 a3 a4 a5 a6 a7 a8 a9 a10 a11 a12 a13 a14 a15 a16 a17 a18 a19 a20 a21
    a22 a23 a24 : Nat) : rounds cons25 (l.map RC) a0 a1 a2 a3 a4 a5 a6 a7 a8 a9 a10 a11 a12 a13 a14 a15 a16 a17 a18
    a19 a20 a21 a22 a23 a24 = l.foldl (fun A i => iota i (chi (pi (rho (theta A))))) (cons25 a0 a1 a2 a3 a4 a5 a6 a7
    a8 a9 a10 a11 a12 a13 a14 a15 a16 a17 a18 a19 a20 a21 a22 a23 a24) := by
  induction l generalizing a0 a1 a2 a3 a4 a5 a6 a7 a8 a9 a10 a11 a12 a13 a14 a15 a16 a17 a18 a19 a20 a21 a22 a23 a24 with
  | nil => rfl
  | cons i l ih =>
    rw [List.map_cons, List.foldl_cons]
    refine Eq.trans ?_ (round_eq i _ _ _ _ _ _ _ _ _ _ _ _ _ _ _ _ _ _ _ _ _ _ _ _ _
      (l.foldl fun A i => iota i (chi (pi (rho (theta A))))))
    show round (RC i) _ _ _ _ _ _ _ _ _ _ _ _ _ _ _ _ _ _ _ _ _ _ _ _ _ (rounds cons25 (l.map RC)) = _
    refine congrArg (round (RC i) a0 a1 a2 a3 a4 a5 a6 a7 a8 a9 a10 a11 a12 a13 a14 a15 a16 a17 a18 a19 a20 a21 a22 a23 a24) ?_
    funext o0 o1 o2 o3 o4 o5 o6 o7 o8 o9 o10 o11 o12 o13 o14 o15 o16 o17 o18 o19 o20 o21 o22 o23 o24
    exact ih ..

theorem exists_cons25 {A : List Nat} (h : A.length = 25) : ∃ a0 a1 a2 a3 a4 a5 a6 a7 a8 a9 a10 a11 a12 a13 a14 a15 a16 a17 a18 a19 a20 a21 a22 a23 a24, A = cons25 a0 a1 a2 a3 a4 a5 a6 a7 a8 a9 a10 a11 a12 a13 a14 a15 a16 a17 a18 a19 a20 a21 a22 a23 a24 := by
  match A, h with
  | [a0, a1, a2, a3, a4, a5, a6, a7, a8, a9, a10, a11, a12, a13, a14, a15, a16, a17, a18, a19, a20, a21, a22, a23, a24], _ => exact ⟨_, _, _, _, _, _, _, _, _, _, _, _, _, _, _, _, _, _, _, _, _, _, _, _, _, rfl⟩

theorem keccakF_eq {A : List Nat} (h : A.length = 25) : keccakF A = fast A := by
  obtain ⟨a0, a1, a2, a3, a4, a5, a6, a7, a8, a9, a10, a11, a12, a13, a14, a15, a16, a17, a18, a19, a20, a21, a22, a23, a24, rfl⟩ := exists_cons25 h
  rw [keccakF, ← rounds_eq, rcs_eq]
  rfl

theorem length_state (f : Nat → Nat → Nat) : (state f).length = 25 := by simp [state]

theorem length_keccakF {A : List Nat} (h : A.length = 25) : (keccakF A).length = 25 := by
  have : ∀ (l : List Nat) (A : List Nat), A.length = 25 →
      (l.foldl (fun A i => iota i (chi (pi (rho (theta A))))) A).length = 25 := by
    intro l
    induction l with
    | nil => exact fun _ h => h
    | cons i l ih => exact fun A _ => ih _ (length_state _)
  exact this _ _ h

/-! ### Bytes as natural numbers -/

/-- Bytes -/
def toB (l : List Nat) : List UInt8 := l.map UInt8.ofNat

theorem toB_append (a b : List Nat) : toB (a ++ b) = toB a ++ toB b := List.map_append
theorem toB_length (a : List Nat) : (toB a).length = a.length := List.length_map _
theorem toB_take (n : Nat) (a : List Nat) : toB (a.take n) = (toB a).take n := List.map_take
theorem toB_drop (n : Nat) (a : List Nat) : toB (a.drop n) = (toB a).drop n := List.map_drop

def lanes : List Nat → List Nat
  | a :: b :: c :: d :: e :: f :: g :: h :: l =>
    (a % 256 + 256 * (b % 256 + 256 * (c % 256 + 256 * (d % 256 + 256 * (e % 256 + 256 * (f % 256 + 256 *
      (g % 256 + 256 * (h % 256)))))))) :: lanes l
  | _ => []

theorem toLanes_eq (l : List Nat) : toLanes (toB l) = lanes l := by
  fun_induction lanes l with
  | case1 a b c d e f g h l ih =>
    have hb : ∀ n : Nat, (UInt8.ofNat n).toNat = n % 256 := fun n => UInt8.toNat_ofNat'
    simp only [toB, List.map_cons, toLanes, hb]
    rw [← toB, ih]
  | case2 l hl =>
    unfold toLanes
    split
    · rename_i heq
      exfalso
      match l, hl, heq with
      | [], _, h => simp [toB] at h
      | [_], _, h => simp [toB] at h
      | [_, _], _, h => simp [toB] at h
      | [_, _, _], _, h => simp [toB] at h
      | [_, _, _, _], _, h => simp [toB] at h
      | [_, _, _, _, _], _, h => simp [toB] at h
      | [_, _, _, _, _, _], _, h => simp [toB] at h
      | [_, _, _, _, _, _, _], _, h => simp [toB] at h
      | _ :: _ :: _ :: _ :: _ :: _ :: _ :: _ :: _, hl, _ => exact hl _ _ _ _ _ _ _ _ _ rfl
    · rfl

def padN (r suffix : Nat) (m : List Nat) : List Nat :=
  let n := r - m.length % r
  m ++ if n = 1 then [suffix + 128] else [suffix] ++ List.replicate (n - 2) 0 ++ [128]

theorem pad_eq (r suffix : Nat) (m : List Nat) : pad r (UInt8.ofNat suffix) (toB m) = toB (padN r suffix m) := by
  unfold pad padN
  dsimp only
  rw [toB_append, toB_length]
  congr 1
  split
  · show [UInt8.ofNat suffix + 0x80] = [UInt8.ofNat (suffix + 128)]
    rw [UInt8.ofNat_add]
    rfl
  · rw [toB_append, toB_append]
    simp [toB]

def absorbN (r : Nat) : Nat → List Nat → List Nat → List Nat
  | 0, A, _ => A
  | n + 1, A, m =>
    absorbN r n (fast (state fun x y => Nat.xor (lane A x y) (lane (lanes (m.take r) ++ List.replicate (25 - r / 8) 0) x y)))
      (m.drop r)

theorem absorb_eq (r n : Nat) (A m : List Nat) : absorb r n A (toB m) = absorbN r n A m := by
  induction n generalizing A m with
  | zero => rfl
  | succ n ih =>
    rw [absorb, absorbN, ← toB_take, ← toB_drop, toLanes_eq, ih, keccakF_eq (length_state _)]
    rfl

theorem absorb_length (r n : Nat) (A : List Nat) (m : List UInt8) (h : A.length = 25) : (absorb r n A m).length = 25 := by
  induction n generalizing A m with
  | zero => exact h
  | succ n ih => exact ih _ _ (length_keccakF (length_state _))

def spongeN (r suffix : Nat) (m : List Nat) : List Nat :=
  absorbN r (m.length / r + 1) (List.replicate 25 0) (padN r suffix m)

theorem sponge_eq (r suffix : Nat) (m : List Nat) : sponge r (UInt8.ofNat suffix) (toB m) = spongeN r suffix m := by
  rw [sponge, spongeN, pad_eq, absorb_eq, toB_length]

theorem sponge_length (r : Nat) (suffix : UInt8) (m : List UInt8) : (sponge r suffix m).length = 25 :=
  absorb_length _ _ _ _ List.length_replicate

/-- The bytes of a block -/
def blockN (r : Nat) (A : List Nat) : List Nat :=
  (List.range r).map fun i => Nat.mod (Nat.shiftRight (A.getD (i / 8) 0) (8 * (i % 8))) 256

/-- The bytes of `n` blocks -/
def outN (r : Nat) : Nat → List Nat → List Nat
  | 0, _ => []
  | n + 1, A => blockN r A ++ outN r n (fast A)

theorem outN_length (r n : Nat) (A : List Nat) : (outN r n A).length = n * r := by
  induction n generalizing A with
  | zero => simp [outN]
  | succ n ih => rw [outN, List.length_append, ih, blockN, List.length_map, List.length_range]; ring

theorem outByte_eq {r n : Nat} {A : List Nat} (hA : A.length = 25) {i : Nat} (hi : i < n * r) :
    outByte r A i = UInt8.ofNat ((outN r n A).getD i 0) := by
  induction n generalizing A i with
  | zero => omega
  | succ n ih =>
    have hl : (blockN r A).length = r := by simp [blockN]
    rw [outN, outByte]
    by_cases h : i < r
    · rw [Nat.div_eq_of_lt h, Nat.mod_eq_of_lt h, List.getD_append _ _ _ _ (by omega)]
      have hb : (blockN r A).getD i 0 = Nat.mod (Nat.shiftRight (A.getD (i / 8) 0) (8 * (i % 8))) 256 := by
        rw [List.getD_eq_getElem (blockN r A) _ (by omega)]
        simp only [blockN, List.getElem_map, List.getElem_range]
      rw [hb]
      show _ = UInt8.ofNat (_ % 256)
      exact (UInt8.ofNat_mod_size ..).symm
    · have hr : 0 < r := by
        by_contra h0
        have : r = 0 := by omega
        subst this
        omega
      have hi' : i - r < n * r := by rw [Nat.add_mul] at hi; omega
      have := ih (A := keccakF A) (length_keccakF hA) hi'
      rw [outByte, keccakF_eq hA] at this
      rw [List.getD_append_right _ _ _ _ (by omega), hl, ← this]
      have e : i = i - r + r := by omega
      rw [e, Nat.add_div_right _ hr, Nat.add_mod_right, Function.iterate_succ_apply, keccakF_eq hA, Nat.add_sub_cancel]

theorem out_eq {r n k : Nat} {A : List Nat} (hA : A.length = 25) (hk : k ≤ n * r) :
    (List.ofFn (n := k) fun i => outByte r A i.val) = toB ((outN r n A).take k) := by
  refine List.ext_getElem (by rw [List.length_ofFn, toB_length, List.length_take, outN_length]; omega) fun i h1 h2 => ?_
  rw [List.length_ofFn] at h1
  rw [List.getElem_ofFn, outByte_eq hA (show i < n * r by omega)]
  simp only [toB, List.getElem_map, List.getElem_take]
  rw [List.getD_eq_getElem]

/-! ### The hash functions -/

def sha3_256N (m : List Nat) : List Nat := (outN 136 1 (spongeN 136 0x06 m)).take 32
def sha3_512N (m : List Nat) : List Nat := (outN 72 1 (spongeN 72 0x06 m)).take 64
/-- `n` blocks of output -/
def shake128N (n : Nat) (m : List Nat) : List Nat := outN 168 n (spongeN 168 0x1f m)
def shake256N (n : Nat) (m : List Nat) : List Nat := outN 136 n (spongeN 136 0x1f m)

theorem sha3_256_eq (m : List Nat) : (sha3.sha3_256 (toB m)).toList = toB (sha3_256N m) := by
  show (Vector.ofFn fun i : Fin 32 => outByte 136 (sponge 136 0x06 (toB m)) i.val).toList = _
  rw [Vector.toList_ofFn, out_eq (n := 1) (sponge_length ..) (by omega)]
  rw [show (0x06 : UInt8) = UInt8.ofNat 0x06 from rfl, sponge_eq]
  rfl

theorem sha3_512_eq (m : List Nat) : (sha3.sha3_512 (toB m)).toList = toB (sha3_512N m) := by
  show (Vector.ofFn fun i : Fin 64 => outByte 72 (sponge 72 0x06 (toB m)) i.val).toList = _
  rw [Vector.toList_ofFn, out_eq (n := 1) (sponge_length ..) (by omega)]
  rw [show (0x06 : UInt8) = UInt8.ofNat 0x06 from rfl, sponge_eq]
  rfl

theorem shake128_eq (n : Nat) (m : List Nat) {i : Nat} (hi : i < n * 168) :
    sha3.shake128 (toB m) i = UInt8.ofNat ((shake128N n m).getD i 0) := by
  show outByte 168 (sponge 168 0x1f (toB m)) i = _
  rw [outByte_eq (sponge_length ..) hi, show (0x1f : UInt8) = UInt8.ofNat 0x1f from rfl, sponge_eq]
  rfl

theorem shake256_eq (n k : Nat) (m : List Nat) (hk : k ≤ n * 136) :
    (List.ofFn (n := k) fun i => sha3.shake256 (toB m) i.val) = toB ((shake256N n m).take k) := by
  show (List.ofFn (n := k) fun i => outByte 136 (sponge 136 0x1f (toB m)) i.val) = _
  rw [out_eq (n := n) (sponge_length ..) hk, show (0x1f : UInt8) = UInt8.ofNat 0x1f from rfl, sponge_eq]
  rfl

/-- FIPS 202's test values: SHA3-256, SHA3-512 and SHAKE of the empty string and of "abc" -/
example : sha3_256N [] = [0xa7, 0xff, 0xc6, 0xf8, 0xbf, 0x1e, 0xd7, 0x66, 0x51, 0xc1, 0x47, 0x56, 0xa0, 0x61, 0xd6, 0x62,
    0xf5, 0x80, 0xff, 0x4d, 0xe4, 0x3b, 0x49, 0xfa, 0x82, 0xd8, 0x0a, 0x4b, 0x80, 0xf8, 0x43, 0x4a] := by decide +kernel

end Fips202.Eval
