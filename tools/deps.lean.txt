import Verif
open Lean
run_cmd do
  let env ← getEnv
  let mut out := #[]
  for (n, c) in env.constants.toList do
    if let some i := env.getModuleIdxFor? n then
      let m := env.header.moduleNames[i.toNat]!
      if m.getRoot == `Verif then
        let used := (c.getUsedConstantsAsSet).toList.filter fun u =>
          match env.getModuleIdxFor? u with
          | some j => (env.header.moduleNames[j.toNat]!).getRoot == `Verif
          | none => false
        out := out.push (s!"{m} {n} : {" ".intercalate (used.map toString)}")
  IO.FS.writeFile "/tmp/deps.txt" ("\n".intercalate out.toList)
