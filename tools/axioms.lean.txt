import Verif
open Lean Elab Command
/- Prints, for every declaration of the library whose name starts with C and two digits, the axioms it depends on.
   Run by tools/axioms.py. -/
run_cmd do
  let env ← getEnv
  let mut out := #[]
  for (n, c) in env.constants.toList do
    if let some i := env.getModuleIdxFor? n then
      if (env.header.moduleNames[i.toNat]!).getRoot == `Verif then
        if let .thmInfo _ := c then
          if let .str _ s := n then
            if s.length > 3 && s.front == 'C' && (s.toList.getD 1 'x').isDigit && (s.toList.getD 2 'x').isDigit then
              let ax ← liftCoreM (collectAxioms n)
              out := out.push (s!"{n} : {" ".intercalate (ax.toList.map toString).mergeSort}")
  IO.FS.writeFile "/tmp/axioms.txt" ("\n".intercalate out.toList)
