import Verif.Model.XWing
/-!
A concrete instance of the hash parameters (FIPS 202) and of X25519 (RFC 7748), used only to run the
model on the known-answer tests of /repo (see `Verif/Kat/Run.lean`) and as a concrete instance in
non-vacuity examples. No theorem depends on these definitions being right.
-/
namespace Kat
open Rust MlKem

def rc : Array UInt64 := #[
  0x0000000000000001, 0x0000000000008082, 0x800000000000808A, 0x8000000080008000,
  0x000000000000808B, 0x0000000080000001, 0x8000000080008081, 0x8000000000008009,
  0x000000000000008A, 0x0000000000000088, 0x0000000080008009, 0x000000008000000A,
  0x000000008000808B, 0x800000000000008B, 0x8000000000008089, 0x8000000000008003,
  0x8000000000008002, 0x8000000000000080, 0x000000000000800A, 0x800000008000000A,
  0x8000000080008081, 0x8000000000008080, 0x0000000080000001, 0x8000000080008008]

def rotc : Array UInt64 := #[
  0, 1, 62, 28, 27, 36, 44, 6, 55, 20, 3, 10, 43, 25, 39, 41, 45, 15, 21, 8, 18, 2, 61, 56, 14]

def rotl (x : UInt64) (n : UInt64) : UInt64 := if n == 0 then x else (x <<< n) ||| (x >>> (64 - n))

def round (a : Array UInt64) (k : UInt64) : Array UInt64 := Id.run do
  let c := (Array.range 5).map fun x => a[x]! ^^^ a[x+5]! ^^^ a[x+10]! ^^^ a[x+15]! ^^^ a[x+20]!
  let d := (Array.range 5).map fun x => c[(x+4)%5]! ^^^ rotl c[(x+1)%5]! 1
  let mut b : Array UInt64 := Array.replicate 25 0
  for y in [0:5] do
    for x in [0:5] do
      let v := a[x+5*y]! ^^^ d[x]!
      b := b.set! (y + 5*((2*x+3*y)%5)) (rotl v rotc[x+5*y]!)
  let mut r : Array UInt64 := Array.replicate 25 0
  for y in [0:5] do
    for x in [0:5] do
      r := r.set! (x+5*y) (b[x+5*y]! ^^^ ((~~~ b[(x+1)%5+5*y]!) &&& b[(x+2)%5+5*y]!))
  return r.set! 0 (r[0]! ^^^ k)

def keccakF (a : Array UInt64) : Array UInt64 := rc.foldl round a

def absorbBlock (rate : Nat) (st : Array UInt64) (blk : Array UInt8) : Array UInt64 := Id.run do
  let mut s := st
  for i in [0:rate] do
    s := s.modify (i/8) fun w => w ^^^ ((blk[i]!).toUInt64 <<< (8 * (i%8)).toUInt64)
  return keccakF s

def sponge (rate : Nat) (suffix : UInt8) (msg : List UInt8) : Array UInt64 := Id.run do
  let m := msg.toArray
  let nfull := m.size / rate
  let mut padded := m.push suffix
  let total := (nfull + 1) * rate
  padded := padded ++ Array.replicate (total - padded.size) 0
  padded := padded.modify (total - 1) fun b => b ||| 0x80
  let mut s : Array UInt64 := Array.replicate 25 0
  for k in [0:nfull+1] do
    s := absorbBlock rate s (padded.extract (k*rate) ((k+1)*rate))
  return s

def stateByte (s : Array UInt64) (i : Nat) : UInt8 :=
  (s[i/8]! >>> (8 * (i%8)).toUInt64).toUInt8

def squeeze (rate : Nat) (s : Array UInt64) (blocks : Nat) : Array UInt8 := Id.run do
  let mut out : Array UInt8 := #[]
  let mut s := s
  for k in [0:blocks] do
    if k > 0 then s := keccakF s
    for i in [0:rate] do out := out.push (stateByte s i)
  return out

structure Stream where
  get : Nat → UInt8

@[noinline] def xofStream (rate : Nat) (msg : List UInt8) : Stream :=
  let s := sponge rate 0x1f msg
  let cache := squeeze rate s 6
  ⟨fun i => if i < 6 * rate then cache[i]! else (squeeze rate s (i / rate + 1))[i]!⟩

/-- FIPS 202 -/
def sha3 : Sha3 where
  sha3_256 m := let o := squeeze 136 (sponge 136 0x06 m) 1; Vector.ofFn fun i => o[i.val]!
  sha3_512 m := let o := squeeze 72 (sponge 72 0x06 m) 1; Vector.ofFn fun i => o[i.val]!
  shake128 m := (xofStream 168 m).get
  shake256 m := (xofStream 136 m).get

/-! X25519, RFC 7748 -/
def p25519 : Nat := 2^255 - 19

def powMod (b e m : Nat) : Nat := Id.run do
  let mut r := 1
  let mut b := b % m
  let mut e := e
  for _ in [0:260] do
    if e % 2 == 1 then r := r * b % m
    b := b * b % m
    e := e / 2
  return r

def x25519 (k u : Bytes 32) : Bytes 32 := Id.run do
  let p := p25519
  let kk := leValue k.toList
  let kk := ((kk % 2^255) / 8 * 8) % 2^254 + 2^254
  let x1 := (leValue u.toList) % 2^255 % p
  let mut x2 := 1
  let mut z2 := 0
  let mut x3 := x1
  let mut z3 := 1
  let mut swap := 0
  for t' in [0:255] do
    let t := 254 - t'
    let kt := (kk >>> t) % 2
    if (swap + kt) % 2 == 1 then
      (x2, x3) := (x3, x2)
      (z2, z3) := (z3, z2)
    swap := kt
    let a := (x2 + z2) % p
    let aa := a * a % p
    let b := (x2 + p - z2) % p
    let bb := b * b % p
    let e := (aa + p - bb) % p
    let c := (x3 + z3) % p
    let d := (x3 + p - z3) % p
    let da := d * a % p
    let cb := c * b % p
    x3 := (da + cb) % p * ((da + cb) % p) % p
    z3 := x1 * ((da + p - cb) % p * ((da + p - cb) % p) % p) % p
    x2 := aa * bb % p
    z2 := e * ((aa + 121665 * e) % p) % p
  if swap == 1 then
    (x2, x3) := (x3, x2)
    (z2, z3) := (z3, z2)
  let r := x2 * powMod z2 (p - 2) p % p
  return Vector.ofFn fun i => UInt8.ofNat (r >>> (8 * i.val))

def X : XWing.X25519 where
  x25519 := x25519
  publicKey sk := x25519 sk XWing.X25519_BASEPOINT_BYTES

end Kat
