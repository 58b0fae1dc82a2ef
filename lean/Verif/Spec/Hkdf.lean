import Verif.Rust.Basic
/-! HMAC (RFC 2104) and HKDF (RFC 5869) over any hash function, and the strings they hash. -/
namespace Hkdf
open Rust

/-- A hash function with outputs of `size` octets that iterates over blocks of `block` octets -/
structure Hash where
  size : Nat
  block : Nat
  hash : List UInt8 → Bytes size
  size_le : size ≤ block

variable (H : Hash)

/-- RFC 2104, section 2: keys longer than a block are hashed; the key is then filled up with zeros. -/
def padKey (key : List UInt8) : List UInt8 :=
  let key := if H.block < key.length then (H.hash key).toList else key
  key ++ List.replicate (H.block - key.length) 0

/-- `(K XOR ipad) ‖ text` -/
def inner (key text : List UInt8) : List UInt8 := (padKey H key).map (· ^^^ 0x36) ++ text

/-- `(K XOR opad) ‖ H((K XOR ipad) ‖ text)` -/
def outer (key text : List UInt8) : List UInt8 :=
  (padKey H key).map (· ^^^ 0x5c) ++ (H.hash (inner H key text)).toList

/-- `HMAC(K, text)` -/
def hmac (key text : List UInt8) : Bytes H.size := H.hash (outer H key text)

/-- RFC 5869, section 2.2. An absent salt is a string of `HashLen` zeros, which as an HMAC key is the same as the empty
string. -/
def extract (salt ikm : List UInt8) : Bytes H.size := hmac H salt ikm

/-- Section 2.3: `T(i)` -/
def block (prk info : List UInt8) : Nat → List UInt8
  | 0 => []
  | i + 1 => (hmac H prk (block prk info i ++ info ++ [UInt8.ofNat (i + 1)])).toList

/-- The first `L` octets of `T(1) ‖ T(2) ‖ …`, where `L ≤ 255 HashLen` -/
def expand (prk info : List UInt8) (L : Nat) : List UInt8 :=
  (((List.range ((L + H.size - 1) / H.size)).map fun i => block H prk info (i + 1)).flatten).take L

/-- Two different strings with the same hash, the first from `xs`, the second from `ys` -/
def CollideIn (xs ys : List (List UInt8)) : Prop := ∃ x ∈ xs, ∃ y ∈ ys, x ≠ y ∧ H.hash x = H.hash y

end Hkdf
