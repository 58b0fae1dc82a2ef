import Verif
import Lean
open Lean Elab Command
run_cmd liftTermElabM do
  let env ← getEnv
  let mut out : Array (Name × Array Name) := #[]
  for (n, ci) in env.constants.map₁.toList do
    if let .thmInfo _ := ci then
      if let .str _ s := n then
        if s.length > 3 && s.startsWith "C" && ((s.drop 1).take 2).all Char.isDigit && s.toList[3]? == some '_' then
          let ax ← Lean.collectAxioms n
          out := out.push (n, ax)
  for (n, a) in out.qsort (fun a b => a.1.toString < b.1.toString) do
    IO.println s!"{n} {a.toList}"
