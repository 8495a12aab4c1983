import Verif
open Lean Elab Command
run_cmd do
  let env ← getEnv
  let mut names : Array Name := #[]
  for (n, c) in env.constants.map₁.toList do
    let some i := env.getModuleIdxFor? n | continue
    unless (`Verif).isPrefixOf (env.header.moduleNames[i.toNat]!) do continue
    let .thmInfo _ := c | continue
    if n.isInternal then continue
    let last := n.getString!
    if last.length > 3 && last.toList.getD 0 'A' == 'C' && (last.toList.getD 1 'A').isDigit && (last.toList.getD 2 'A').isDigit then
      names := names.push n
  let mut out := #[]
  for n in names.qsort (fun a b => a.getString! < b.getString!) do
    let ax ← liftCoreM (collectAxioms n)
    out := out.push (s!"{n}: " ++ String.intercalate ", " (ax.toList.map toString))
  IO.FS.writeFile "/verif/AXIOMS.txt" (String.intercalate "\n" out.toList ++ "\n")
