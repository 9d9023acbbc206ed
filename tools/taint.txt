import Lean
/-! Prints the property theorems, marked `!` if they rest on `sorryAx`. Arguments: the modules to look at.
Run with `lake env lean --run taint.txt`. -/
open Lean

unsafe def main (args : List String) : IO Unit := do
  initSearchPath (← findSysroot)
  let env ← importModules (args.toArray.map fun m => { module := m.toName }) {} (loadExts := false)
  let mut seen : Std.HashMap Name Bool := {}
  let rec go (fuel : Nat) (seen : Std.HashMap Name Bool) (n : Name) : Std.HashMap Name Bool × Bool :=
    match fuel with
    | 0 => (seen, false)
    | fuel + 1 =>
      if n == ``sorryAx then (seen, true)
      else match seen[n]? with
        | some b => (seen, b)
        | none =>
          match env.getModuleIdxFor? n with
          | some i =>
            if !(`Verif).isPrefixOf env.header.moduleNames[i.toNat]! then (seen, false)
            else match env.find? n with
              | some ci =>
                let used := ci.type.getUsedConstants ++
                  (match ci.value? (allowOpaque := true) with | some v => v.getUsedConstants | none => #[])
                let (seen, b) := used.foldl (fun (seen, b) m =>
                  if b then (seen, b) else go fuel seen m) (seen.insert n false, false)
                (seen.insert n b, b)
              | none => (seen, false)
          | none => (seen, false)
  for (n, ci) in env.constants.map₁.toList do
    if let .thmInfo _ := ci then
      let t := toString n
      if t.startsWith "Mopaq.C" && (t.toList.drop 7 |>.take 2).all Char.isDigit && (t.splitOn "._").length == 1 then
        let (s, b) := go 1000 seen n
        seen := s
        IO.println s!"{if b then "! " else "  "}{t.drop 6}"
