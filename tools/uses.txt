import Lean
open Lean
/-- Prints, for every constant of the project, its module and the constants of the project it mentions. -/
def main : IO Unit := do
  initSearchPath (← findSysroot)
  let env ← importModules #[{ module := `Verif }] {}
  let names := env.header.moduleNames
  let out ← IO.getStdout
  for h : i in [0:names.size] do
    let m := names[i]
    if `Verif |>.isPrefixOf m then
      for c in env.header.moduleData[i]!.constants do
        let mut used := c.type.getUsedConstantsAsSet
        if let some v := c.value? (allowOpaque := true) then
          used := v.getUsedConstants.foldl (fun s n => s.insert n) used
        let mine := used.toList.filter fun n => match env.getModuleIdxFor? n with
          | some j => `Verif |>.isPrefixOf names[j.toNat]!
          | none => false
        out.putStrLn s!"{c.name}\t{m}\t{" ".intercalate (mine.map toString)}"
