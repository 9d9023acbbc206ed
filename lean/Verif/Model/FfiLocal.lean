import Verif.Model.Ffi

/-!
# The last error and the locale of a thread

Models the thread-local variables of `storm-ffi/src/lib.rs` (27-31) on top of the concurrent system of `Verif.Model.Ffi`:
`SFileGetLastError`, `SFileSetLastError`, `SFileSetLocale`, `SFileGetLocale`, and what the calls leave in the last error. A
thread can use these four calls when it is in no other call, or in the callback of `SFileEnumFiles`.
-/

namespace Mopaq

/-- Models `storm-ffi/src/lib.rs` 28-31: the variables of one thread. -/
structure ThreadVars where
  lastError : U32
  locale : U32
  deriving DecidableEq, Repr

/-- What a thread sees or does, as it happens. -/
inductive Event where
  /-- A call returned. -/
  | returned (o : Outcome)
  | setLastError (code : U32)
  /-- `SFileGetLastError` returned the code. -/
  | gotLastError (code : U32)
  /-- `SFileSetLocale(new)` returned `old`. -/
  | setLocale (new old : U32)
  /-- `SFileGetLocale` returned the locale. -/
  | gotLocale (locale : U32)
  deriving DecidableEq, Repr

/-- The process: the shared state, the variables of the threads, and the events so far (newest first). -/
structure Proc where
  sys : Sys
  vars : Nat → ThreadVars
  events : List (Nat × Event)

/-- Before the first call: no error (`ERROR_SUCCESS`), neutral locale (`storm-ffi/src/lib.rs` 29-30). -/
def Proc.init (n : Nat) : Proc := { sys := Sys.init n, vars := fun _ => { lastError := 0, locale := 0 }, events := [] }

/-- Models the calls of `set_last_error` on the ways out of each API function (`storm-ffi/src/lib.rs` 108-110, 139-1269): the
code on failure, 0 on success. `SFileHasFile` (565-584), the only call that answers with a flag, has none. -/
def leaveError (o : Outcome) (v : ThreadVars) : ThreadVars :=
  match o with
  | .ok (.flag _) => v
  | .ok _ => { v with lastError := 0 }
  | .error code => { v with lastError := code }

def Proc.setVars (p : Proc) (t : Nat) (v : ThreadVars) : Proc := { p with vars := fun u => if u = t then v else p.vars u }

def Proc.record (p : Proc) (t : Nat) (ev : Event) : Proc := { p with events := (t, ev) :: p.events }

/-- One step of thread `t`; if its innermost call returns, the last error is left behind. -/
def Proc.step (x : FfiEnv) (p : Proc) (t : Nat) : Option Proc :=
  match p.sys.step x t with
  | none => none
  | some s =>
    let p' : Proc := { p with sys := s }
    match p.sys.threads[t]? with
    | some (.ret o :: _) => some ((p'.setVars t (leaveError o (p.vars t))).record t (.returned o))
    | _ => some p'

/-- Thread `t`, which is not in a call, makes one. -/
def Proc.begin (p : Proc) (t : Nat) (c : Call) : Option Proc := (p.sys.begin t c).map fun s => { p with sys := s }

/-- The calls on the variables. -/
inductive Access where
  | getLastError
  | setLastError (code : U32)
  | getLocale
  | setLocale (locale : U32)
  deriving DecidableEq, Repr

/-- Models `storm-ffi/src/lib.rs` 871-897 (`SFileSetLocale`, `SFileGetLocale`, `SFileGetLastError`, `SFileSetLastError`). -/
def Access.run (p : Proc) (t : Nat) : Access → Proc
  | .getLastError => p.record t (.gotLastError (p.vars t).lastError)
  | .setLastError code => (p.setVars t { p.vars t with lastError := code }).record t (.setLastError code)
  | .getLocale => p.record t (.gotLocale (p.vars t).locale)
  | .setLocale locale => (p.setVars t { p.vars t with locale }).record t (.setLocale locale (p.vars t).locale)

/-- Whether the code of the program runs in thread `t`: the thread is in no call, or in a callback. -/
def Sys.inProgram (s : Sys) (t : Nat) : Bool :=
  !s.aborted && match s.threads[t]? with
    | some [] => true
    | some (.enumCallback .. :: _) => true
    | _ => false

def Proc.access (p : Proc) (t : Nat) (a : Access) : Option Proc := if p.sys.inProgram t then some (a.run p t) else none

/-- The process moves; `allowed` tells which of the calls on the variables are made. -/
inductive Proc.Moves (x : FfiEnv) (allowed : Access → Prop) : Proc → Proc → Prop where
  | refl (p) : Moves x allowed p p
  | step {p p' p''} (t : Nat) : Moves x allowed p p' → p'.step x t = some p'' → Moves x allowed p p''
  | begin {p p' p''} (t : Nat) (c : Call) : Moves x allowed p p' → p'.begin t c = some p'' → Moves x allowed p p''
  | access {p p' p''} (t : Nat) (a : Access) : Moves x allowed p p' → allowed a → p'.access t a = some p'' →
      Moves x allowed p p''

/-- Models `storm-ffi/src/lib.rs` 482-503 and 511-557: the number that `SFileGetFileSize` and `SFileSetFilePointer` return,
and what they write to the high half if the caller gave a place for it. -/
def Outcome.halves : Outcome → U32 × Option U32
  | .ok (.value n) => (BitVec.ofNat 32 n, some (BitVec.ofNat 32 (n / 2 ^ 32)))
  | _ => (0xFFFFFFFF#32, none)

end Mopaq
