import Verif.Proofs.Fips203Eval
import Verif.Props.Algorithms
/-!
Test vectors, checked by Lean's kernel. These are tests of the specification, not properties: they show that
Spec/Fips203Algorithms.lean with the hash functions of Spec/Fips202.lean gives the outputs that the NIST vectors in
/repo/ml-kem/tests expect. `Fips202.sha3` is then an instance of the hash functions for which the theorems of this
development say something about calls that do return.
-/
namespace Fips203.Vectors
open Fips202 (sha3)
open Fips202.Eval (toB)
open Fips203.Eval MlKem Rust

/-- The `n` bytes of a number, most significant first, as hexadecimal test vectors are written -/
def hex (n N : Nat) : List UInt8 := (List.range n).map fun i => UInt8.ofNat (N / 256 ^ (n - 1 - i))

def hexN (n N : Nat) : List Nat := (List.range n).map fun i => Nat.mod (Nat.div N (Nat.pow 256 (n - 1 - i))) 256

theorem hexN_eq (n N : Nat) : toB (hexN n N) = hex n N := by
  rw [toB, hexN, hex, List.map_map]
  refine List.map_congr_left fun i _ => UInt8.toNat_inj.1 ?_
  exact UInt8.toNat_ofNat'.trans ((Nat.mod_mod _ _).trans UInt8.toNat_ofNat'.symm)

theorem hex_length (n N : Nat) : (hex n N).length = n := by simp [hex]

def check2 (r : Option (List Nat × List Nat)) (a b : List Nat) : Bool :=
  r.casesOn false fun x => eqL x.1 a && eqL x.2 b

theorem check2_eq {r : Option (List Nat × List Nat)} {a b : List Nat} (h : check2 r a b = true) : r = some (a, b) := by
  cases r with
  | none => simp [check2] at h
  | some x =>
    have h : (eqL x.1 a && eqL x.2 b) = true := h
    rw [Bool.and_eq_true] at h
    rw [← eqL_eq h.1, ← eqL_eq h.2]

def check1 (r : Option (List Nat)) (a : List Nat) : Bool := r.casesOn false fun x => eqL x a

theorem check1_eq {r : Option (List Nat)} {a : List Nat} (h : check1 r a = true) : r = some a := by
  cases r with
  | none => simp [check1] at h
  | some x => rw [eqL_eq (show eqL x a = true from h)]

theorem keygen_of_check {p : Params} (he : p.eta1 ≤ 4) {n1 d n2 z n3 ek n4 dk : Nat}
    (h : check2 (keyGenN p (hexN n1 d) (hexN n2 z)) (hexN n3 ek) (hexN n4 dk) = true) :
    Alg.KeyGen_internal sha3 p (hex n1 d) (hex n2 z) = some (hex n3 ek, hex n4 dk) := by
  have := keyGenN_eq he (check2_eq h)
  rwa [hexN_eq, hexN_eq, hexN_eq, hexN_eq] at this

/-- The parameters are in the range that the evaluation is proved for -/
def Small (p : Params) : Prop :=
  p.eta1 ≤ 4 ∧ p.eta2 ≤ 4 ∧ 0 < p.du ∧ 0 < p.dv ∧ p.du ≤ 12 ∧ p.dv ≤ 12

instance (p : Params) : Decidable (Small p) := by unfold Small; infer_instance

theorem encaps_of_check {p : Params} (hp : Small p) {n1 ek n2 m n3 K n4 c : Nat}
    (h : check2 (encapsN p (hexN n1 ek) (hexN n2 m)) (hexN n3 K) (hexN n4 c) = true) :
    Alg.Encaps_internal sha3 p (hex n1 ek) (hex n2 m) = some (hex n3 K, hex n4 c) := by
  have := encapsN_eq hp.1 hp.2.1 hp.2.2.1 hp.2.2.2.1 (check2_eq h)
  rwa [hexN_eq, hexN_eq, hexN_eq, hexN_eq] at this

theorem decaps_of_check {p : Params} (hp : Small p) {n1 dk n2 c n3 K : Nat}
    (h : check1 (decapsN p (hexN n1 dk) (hexN n2 c)) (hexN n3 K) = true) :
    Alg.Decaps_internal sha3 p (hex n1 dk) (hex n2 c) = some (hex n3 K) := by
  have := decapsN_eq hp.1 hp.2.1 hp.2.2.1 hp.2.2.2.1 hp.2.2.2.2.1 hp.2.2.2.2.2 (check1_eq h)
  rwa [hexN_eq, hexN_eq, hexN_eq] at this

end Fips203.Vectors
