import Verif.Kat.Keccak
import Lean.Data.Json
/-!
Runs the model on the known-answer tests of /repo (ACVP vectors for ml-kem, draft vectors for x-wing).
`lean --run Verif/Kat/Run.lean [n]`; a test, not a proof. Not imported by `Verif.lean`.
-/
open Rust MlKem Lean

instance : Build := ⟨true, 64, by decide⟩

def hexVal (c : Char) : Nat :=
  if '0' ≤ c ∧ c ≤ '9' then c.toNat - '0'.toNat
  else if 'a' ≤ c ∧ c ≤ 'f' then c.toNat - 'a'.toNat + 10
  else c.toNat - 'A'.toNat + 10
def unhex (s : String) : List UInt8 :=
  let rec go : List Char → List UInt8
    | a :: b :: r => UInt8.ofNat (hexVal a * 16 + hexVal b) :: go r
    | _ => []
  go s.toList

def vec (n : Nat) (l : List UInt8) : Bytes n := Vector.ofFn fun i => l.toArray[i.val]!
def vec' (n : Nat) (l : List UInt8) : IO (Bytes n) := do
  if l.length ≠ n then throw (IO.userError s!"bad length {l.length} vs {n}")
  let a := l.toArray
  return Vector.ofFn fun i => a[i.val]!

def getS (j : Json) (k : String) : IO (List UInt8) := IO.ofExcept (unhex <$> j.getObjValAs? String k)

def pset (s : String) : ParameterSet :=
  if s == "ML-KEM-512" then MlKem512Params else if s == "ML-KEM-768" then MlKem768Params else MlKem1024Params

def run {α} (x : Res α) : IO α := match x with
  | .ok a => pure a | .panic => throw (IO.userError "panic") | .div => throw (IO.userError "div")

def check (b : Bool) (msg : String) : IO Unit := IO.println s!"{if b then "ok  " else "FAIL"} {msg}"

def seedRng : Rng where
  State := List UInt8
  fill_bytes n s := if n ≤ s.length then .ok (Vector.ofFn fun i => s.toArray[i.val]!, s.drop n) else .panic

def main (args : List String) : IO Unit := do
  let lim := (args.head?.bind String.toNat?).getD 1000
  let j ← IO.ofExcept (Json.parse (← IO.FS.readFile "/repo/ml-kem/tests/key-gen.json"))
  for tg in ← IO.ofExcept (j.getObjValAs? (Array Json) "testGroups") do
    let ps ← IO.ofExcept (tg.getObjValAs? String "parameterSet")
    let P := pset ps
    for tc in (← IO.ofExcept (tg.getObjValAs? (Array Json) "tests")).toList.take lim do
      let d ← vec' 32 (← getS tc "d"); let z ← vec' 32 (← getS tc "z")
      let (dk, ek) ← run (Kem.generate_deterministic Kat.sha3 P d z)
      let dkb ← run dk.as_bytes
      let ekb ← run ek.as_bytes
      check (dkb.toList == (← getS tc "dk") && ekb.toList == (← getS tc "ek")) s!"keygen {ps}"
  let j ← IO.ofExcept (Json.parse (← IO.FS.readFile "/repo/ml-kem/tests/encap-decap.json"))
  for tg in ← IO.ofExcept (j.getObjValAs? (Array Json) "testGroups") do
    let ps ← IO.ofExcept (tg.getObjValAs? String "parameterSet")
    let f ← IO.ofExcept (tg.getObjValAs? String "function")
    let P := pset ps
    for tc in (← IO.ofExcept (tg.getObjValAs? (Array Json) "tests")).toList.take lim do
      if f == "encapsulation" then
        let ek ← run (EncapsulationKey.from_bytes Kat.sha3 (P := P) (← vec' _ (← getS tc "ek")))
        let (c, k) ← run (ek.encapsulate_deterministic Kat.sha3 (← vec' 32 (← getS tc "m")))
        check (c.toList == (← getS tc "c") && k.toList == (← getS tc "k")) s!"encap {ps}"
      else
        let dk ← run (DecapsulationKey.from_bytes (P := P) (← vec' _ (← getS tg "dk")))
        let k ← run (dk.decapsulate Kat.sha3 (← vec' _ (← getS tc "c")))
        check (k.toList == (← getS tc "k")) s!"decap {ps}"
  let j ← IO.ofExcept (Json.parse (← IO.FS.readFile "/repo/x-wing/src/test-vectors.json"))
  for tc in (← IO.ofExcept (j.getArr?)).toList.take lim do
    let ((sk, pk), _) ← run (XWing.generate_key_pair Kat.sha3 Kat.X seedRng (← getS tc "seed"))
    check (sk.as_bytes.toList == (← getS tc "sk")) "xwing sk"
    let pkb ← run pk.as_bytes
    check (pkb.toList == (← getS tc "pk")) "xwing pk"
    let ((ct, ss), _) ← run (pk.encapsulate Kat.sha3 Kat.X seedRng (← getS tc "eseed"))
    check (ss.toList == (← getS tc "ss")) "xwing ss"
    let ctb ← run ct.as_bytes
    check (ctb.toList == (← getS tc "ct")) "xwing ct"
    let ss' ← run (sk.decapsulate Kat.sha3 Kat.X ct)
    check (ss'.toList == (← getS tc "ss")) "xwing decap"
