import Lean
/-! Elaborates one module and writes its `.olean` even if some declarations fail (they then rest on `sorryAx`), so that the
modules above it can still be tried. Arguments: module name, source, olean. Prints a line `E <line> <message>` per error.
Run with `lake env lean --run elab.txt`. -/
open Lean Elab

unsafe def main (args : List String) : IO UInt32 := do
  let [mod, src, olean] := args | return 2
  initSearchPath (← findSysroot)
  enableInitializersExecution
  let opts : Options := ({} : Options) |>.setBool `Elab.async false |>.setBool `linter.all false
  let input ← IO.FS.readFile src
  let inputCtx := Parser.mkInputContext input src
  let (header, parserState, messages) ← Parser.parseHeader inputCtx
  let (env, messages) ← processHeader header opts messages inputCtx (mainModule := mod.toName)
  let s ← IO.processCommands inputCtx parserState (Command.mkState env messages opts)
  for m in s.commandState.messages.toList do
    if m.severity == .error then
      let t ← m.data.toString
      IO.println s!"E {m.pos.line} {((t.splitOn "\n").headD "").take 120}"
  let env := s.commandState.env
  writeModule env olean
  return 0
