import Lean
import Verif
/-! Prints, for every property theorem `Mopaq.Cnn_...`, the project declarations its proof rests on
(run with `lake env lean --run ../tools/deps.lean` in /verif/lean). -/
open Lean

partial def closure (env : Environment) (mods : Std.HashSet Nat) (todo : List Name) (seen : NameSet) : NameSet :=
  match todo with
  | [] => seen
  | n :: rest =>
    if seen.contains n then closure env mods rest seen
    else
      match env.getModuleIdxFor? n with
      | some i =>
        if mods.contains i.toNat then
          match env.find? n with
          | some ci =>
            let used := ci.type.getUsedConstants ++ (match ci.value? (allowOpaque := true) with | some v => v.getUsedConstants | none => #[])
            closure env mods (used.toList ++ rest) (seen.insert n)
          | none => closure env mods rest seen
        else closure env mods rest seen
      | none => closure env mods rest seen

unsafe def main : IO Unit := do
  initSearchPath (← findSysroot)
  let env ← importModules #[{ module := `Verif }] {} (loadExts := false)
  let mut mods : Std.HashSet Nat := {}
  for (m, i) in env.header.moduleNames.zipIdx do
    if (`Verif).isPrefixOf m then mods := mods.insert i
  for (n, ci) in env.constants.map₁.toList do
    if let .thmInfo _ := ci then
      let s := toString n
      if s.startsWith "Mopaq.C" && (s.splitOn "._").length == 1 && s.length > 9 && (s.toList.drop 7 |>.take 2).all Char.isDigit then
        let c := closure env mods [n] {}
        IO.println (Json.mkObj [("n", s), ("d", Json.arr (c.toArray.map fun x => Json.str (toString x)))]).compress
