import Verif.Spec.Hkdf
/-! SHA-256 (FIPS 180-4), on natural numbers so that Lean's kernel evaluates it quickly. -/
namespace Sha256
open Rust

/-- Section 4.2.2 -/
def K : List Nat := [0x428a2f98, 0x71374491, 0xb5c0fbcf, 0xe9b5dba5, 0x3956c25b, 0x59f111f1,
  0x923f82a4, 0xab1c5ed5, 0xd807aa98, 0x12835b01, 0x243185be, 0x550c7dc3,
  0x72be5d74, 0x80deb1fe, 0x9bdc06a7, 0xc19bf174, 0xe49b69c1, 0xefbe4786,
  0x0fc19dc6, 0x240ca1cc, 0x2de92c6f, 0x4a7484aa, 0x5cb0a9dc, 0x76f988da,
  0x983e5152, 0xa831c66d, 0xb00327c8, 0xbf597fc7, 0xc6e00bf3, 0xd5a79147,
  0x06ca6351, 0x14292967, 0x27b70a85, 0x2e1b2138, 0x4d2c6dfc, 0x53380d13,
  0x650a7354, 0x766a0abb, 0x81c2c92e, 0x92722c85, 0xa2bfe8a1, 0xa81a664b,
  0xc24b8b70, 0xc76c51a3, 0xd192e819, 0xd6990624, 0xf40e3585, 0x106aa070,
  0x19a4c116, 0x1e376c08, 0x2748774c, 0x34b0bcb5, 0x391c0cb3, 0x4ed8aa4a,
  0x5b9cca4f, 0x682e6ff3, 0x748f82ee, 0x78a5636f, 0x84c87814, 0x8cc70208,
  0x90befffa, 0xa4506ceb, 0xbef9a3f7, 0xc67178f2]

/-- Section 5.3.3 -/
def H0 : List Nat := [0x6a09e667, 0xbb67ae85, 0x3c6ef372, 0xa54ff53a, 0x510e527f, 0x9b05688c,
  0x1f83d9ab, 0x5be0cd19]

def rotr (n x : Nat) : Nat := (x >>> n ||| x <<< (32 - n)) % 2 ^ 32
def ch (x y z : Nat) : Nat := (x &&& y) ^^^ ((2 ^ 32 - 1 - x) &&& z)
def maj (x y z : Nat) : Nat := (x &&& y) ^^^ (x &&& z) ^^^ (y &&& z)
def bigSigma0 (x : Nat) : Nat := rotr 2 x ^^^ rotr 13 x ^^^ rotr 22 x
def bigSigma1 (x : Nat) : Nat := rotr 6 x ^^^ rotr 11 x ^^^ rotr 25 x
def sigma0 (x : Nat) : Nat := rotr 7 x ^^^ rotr 18 x ^^^ x >>> 3
def sigma1 (x : Nat) : Nat := rotr 17 x ^^^ rotr 19 x ^^^ x >>> 10

/-- Section 6.2.2, step 1: the message schedule, latest word first; 16 words, then `n` more -/
def schedule (w : List Nat) : Nat → List Nat
  | 0 => w.reverse
  | n + 1 =>
    let l := schedule w n
    (sigma1 (l.getD 1 0) + l.getD 6 0 + sigma0 (l.getD 14 0) + l.getD 15 0) % 2 ^ 32 :: l

/-- Step 3 -/
def round : List Nat → Nat × Nat → List Nat
  | [a, b, c, d, e, f, g, h], (k, w) =>
    let t1 := h + bigSigma1 e + ch e f g + k + w
    let t2 := bigSigma0 a + maj a b c
    [(t1 + t2) % 2 ^ 32, a, b, c, (d + t1) % 2 ^ 32, e, f, g]
  | l, _ => l

/-- Steps 2 to 4 -/
def compress (h : List Nat) (block : List Nat) : List Nat :=
  List.zipWith (fun x y => (x + y) % 2 ^ 32) h ((K.zip (schedule block 48).reverse).foldl round h)

/-- Big-endian words -/
def words : List UInt8 → List Nat
  | a :: b :: c :: d :: l => (a.toNat * 2 ^ 24 + b.toNat * 2 ^ 16 + c.toNat * 2 ^ 8 + d.toNat) :: words l
  | _ => []

/-- Section 5.1.1 -/
def pad (m : List UInt8) : List UInt8 :=
  m ++ [0x80] ++ List.replicate ((119 - m.length % 64) % 64) 0 ++
    (List.range 8).map fun i => UInt8.ofNat (8 * m.length / 256 ^ (7 - i))

/-- All blocks in turn; `n` of them -/
def blocks (h : List Nat) : Nat → List Nat → List Nat
  | 0, _ => h
  | n + 1, w => blocks (compress h (w.take 16)) n (w.drop 16)

def sha256 (m : List UInt8) : Bytes 32 :=
  let h := blocks H0 ((pad m).length / 64) (words (pad m))
  Vector.ofFn fun i => UInt8.ofNat (h.getD (i.val / 4) 0 / 256 ^ (3 - i.val % 4))

/-- The hash function of HKDF-SHA256 -/
def hash : Hkdf.Hash where
  size := 32
  block := 64
  hash := sha256
  size_le := by decide

/-- FIPS 180-4's example `abc`, and the empty string -/
example : (sha256 [0x61, 0x62, 0x63]).toList = [0xba, 0x78, 0x16, 0xbf, 0x8f, 0x01, 0xcf, 0xea, 0x41, 0x41, 0x40,
    0xde, 0x5d, 0xae, 0x22, 0x23, 0xb0, 0x03, 0x61, 0xa3, 0x96, 0x17, 0x7a, 0x9c, 0xb4, 0x10, 0xff, 0x61, 0xf2,
    0x00, 0x15, 0xad] ∧ (sha256 []).toList = [0xe3, 0xb0, 0xc4, 0x42, 0x98, 0xfc, 0x1c, 0x14, 0x9a, 0xfb, 0xf4,
    0xc8, 0x99, 0x6f, 0xb9, 0x24, 0x27, 0xae, 0x41, 0xe4, 0x64, 0x9b, 0x93, 0x4c, 0xa4, 0x95, 0x99, 0x1b, 0x78,
    0x52, 0xb8, 0x55] := by decide +kernel

end Sha256
