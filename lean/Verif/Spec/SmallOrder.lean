import Verif.Spec.Rfc7748
/-! The orders of curve25519 and its twist, and the encodings of the points of small order, as published. -/
namespace Rfc7748
open Rust

/-- RFC 7748, section 4.1: the order of the base point. The curve has 8 times as many points. -/
def order : Nat := 2 ^ 252 + 0x14def9dea2f79cd65812631a5cf5d3ed

/-- The twist has 4 times this many points. -/
def twistOrder : Nat := 2 ^ 253 - 55484635554744707071703875581767296995

/-- The integer in the string, without the unused bit and before reduction modulo `p` -/
def maskedInteger (b : Bytes 32) : Nat := decodeLittleEndian (b.set 31 (b[31] &&& 0x7f))

/-- D. J. Bernstein's list of the public keys to reject for protocols that need contributory behaviour
(https://cr.yp.to/ecdh.html#validate), less the entries that only differ in the unused bit -/
def smallOrder : List Nat := [0, 1,
  325606250916557431795983626356110631294008115727848805560023387167927233504,
  39382357235489614581723060781553021112529911719440698176882885853963445705823,
  2 ^ 255 - 19 - 1, 2 ^ 255 - 19, 2 ^ 255 - 19 + 1]

end Rfc7748
