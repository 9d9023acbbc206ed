import Verif.Model.FfiFile
import Verif.Model.Signature

/-!
# The C API as a concurrent system

Models `storm-ffi/src/lib.rs`: three global mutexes (`NEXT_HANDLE`, `ARCHIVES`, `FILES`), any number of threads, and every
API call as the sequence of its lock acquisitions and of the steps between them. A step made while holding a lock cannot
be observed by other threads except through the locks, so the work between two acquisitions, with the releases that follow
it, is one step.

A handle is a number, 0 is the null handle. Names are valid C strings. What depends on the outside is part of the call:
the result of `Archive::open`, whether writing to disk works, and what a callback does. A panic in a function with C
linkage aborts the process. `std::sync::Mutex` is not re-entrant: locking a mutex that the thread already holds never
returns.

The last error and the locale of each thread are added in `Verif.Model.FfiLocal`, the construction of a new
archive in `SFileCreateArchive` is modelled in `Verif.Model.Create`.
-/

namespace Mopaq

/-- `ERROR_FILE_NOT_FOUND` (`storm-ffi/src/lib.rs` 49). -/
def errorFileNotFound : U32 := 2
/-- `ERROR_ACCESS_DENIED` (`storm-ffi/src/lib.rs` 50). -/
def errorAccessDenied : U32 := 5
/-- `ERROR_INVALID_HANDLE` (`storm-ffi/src/lib.rs` 51). -/
def errorInvalidHandle : U32 := 6
/-- `ERROR_INSUFFICIENT_BUFFER` (`storm-ffi/src/lib.rs` 54). -/
def errorInsufficientBuffer : U32 := 122
/-- `ERROR_FILE_CORRUPT` (`storm-ffi/src/lib.rs` 56). -/
def errorFileCorrupt : U32 := 1392
/-- `ERROR_NOT_SUPPORTED` (`storm-ffi/src/lib.rs` 57). -/
def errorNotSupported : U32 := 50

/-- Models `storm-ffi/src/lib.rs` 34-37 (`ArchiveHandle`). -/
structure ArchiveHandle where
  archive : Archive
  path : List Byte

/-- What a call delivers when it succeeds. -/
inductive Out where
  | done
  | flag (b : Bool)
  | handle (id : Nat)
  | bytes (data : List Byte)
  | value (n : Nat)
  deriving DecidableEq, Repr

/-- The result of a call: what it delivers, or `false` (or 0xFFFFFFFF) with the last error set to the code. -/
abbrev Outcome := Except U32 Out

/-- What the calls depend on besides the shared state. -/
structure FfiEnv where
  env : Env
  sig : SigEnv
  crc32 : List Byte → U32

/-- A `match` on a `Result`: errors are values, panics and endless loops are not. -/
def caught {α : Type} (r : Res α) : Res (Except Err α) :=
  match r with
  | .ok v => .ok (.ok v)
  | .error .panic => .error .panic
  | .error .diverge => .error .diverge
  | .error err => .ok (.error err)

/-- The code for an error of the library (`storm-ffi/src/lib.rs` 171-177 and 1008-1014). -/
def errorCode : Err → U32
  | .fileNotFound => errorFileNotFound
  | .io => errorAccessDenied
  | _ => errorFileCorrupt

/-- Calls that look at or change one open file, under the lock on the files. -/
inductive FileOp where
  | read (n : U32)
  | size
  | seek (low : BitVec 32) (high : Option (BitVec 32)) (method : U32)
  | name
  | close
  deriving DecidableEq, Repr

/-- Models the bodies of `SFileReadFile` (423-474), `SFileGetFileSize` (482-503), `SFileSetFilePointer` (511-557),
`SFileGetFileName` (907-936) and `SFileCloseFile` (401-414) of `storm-ffi/src/lib.rs` on the file they are called for: the
result, and the handle afterwards (`none` if it is gone). -/
def FileOp.run : FileOp → FileHandle → Res (Outcome × Option FileHandle)
  | .read n, f => do
    let (data, f) ← f.read n
    return (.ok (.bytes data), some f)
  | .size, f => .ok (.ok (.value f.size), some f)
  | .seek low high method, f => do
    match ← f.seek low high method with
    | .ok f' => return (.ok (.value f'.position), some f')
    | .error code => return (.error code, some f)
  | .name, f => .ok (.ok (.bytes f.filename), some f)
  | .close, _ => .ok (.ok .done, none)

/-- Calls that look at one open archive, under the lock on the archives. -/
inductive ArchOp where
  | hasFile (name : List Byte)
  | archiveName (bufferSize : U32)
  | extractFile (name : List Byte) (writable : Bool)
  | verifyFile (name : List Byte) (flags : U32)
  deriving DecidableEq, Repr

/-- Reading the file and comparing a value computed from the content (`storm-ffi/src/lib.rs` 1107-1121 and 1137-1154). -/
def checkContent (x : FfiEnv) (a : Archive) (name : List Byte) (good : List Byte → Bool) : Res Bool := do
  match ← caught (a.readFile x.env name) with
  | .ok data => return good data
  | .error _ => return false

/-- The check of the sector checksums (`storm-ffi/src/lib.rs` 1078-1095): reading checks them. -/
def checkSectors (x : FfiEnv) (a : Archive) (name : List Byte) (flags : U32) (info : FileInfo) : Res Bool :=
  if hasBits flags 1#32 && info.hasSectorCrc then checkContent x a name (fun _ => true) else .ok true

/-- The check of the CRC32 in the attributes (`storm-ffi/src/lib.rs` 1098-1124). -/
def checkCrc (x : FfiEnv) (a : Archive) (name : List Byte) (flags : U32) (attrs : Option FileAttributes) : Res Bool :=
  match hasBits flags 2#32, attrs.bind (·.crc32) with
  | true, some expected => checkContent x a name (fun data => x.crc32 data == expected)
  | _, _ => .ok true

/-- The check of the MD5 in the attributes (`storm-ffi/src/lib.rs` 1127-1156). -/
def checkMd5 (x : FfiEnv) (a : Archive) (name : List Byte) (flags : U32) (attrs : Option FileAttributes) : Res Bool :=
  match hasBits flags 4#32, attrs.bind (·.md5) with
  | true, some expected => checkContent x a name (fun data => x.sig.md5 data == expected)
  | _, _ => .ok true

/-- Models `storm-ffi/src/lib.rs` 1059-1159 (`SFileVerifyFile`). The attributes were loaded when the archive was opened;
loading them again finds the same. -/
def verifyFileIn (x : FfiEnv) (a : Archive) (name : List Byte) (flags : U32) : Res Outcome := do
  match ← caught (a.findFile name) with
  | .error _ => return .error errorFileCorrupt
  | .ok none => return .error errorFileNotFound
  | .ok (some info) => do
    let flags := if flags = 0#32 then 0xFF#32 else flags
    let attrs := a.attributes.bind fun t => t.files[info.blockIndex]?
    if !(← checkSectors x a name flags info) then return .error errorFileCorrupt
    if !(← checkCrc x a name flags attrs) then return .error errorFileCorrupt
    if !(← checkMd5 x a name flags attrs) then return .error errorFileCorrupt
    return .ok .done

/-- Models the bodies of `SFileHasFile` (565-584), `SFileGetArchiveName` (770-794), `SFileExtractFile` (980-1019) and
`SFileVerifyFile` of `storm-ffi/src/lib.rs` on the archive they are called for. -/
def ArchOp.run (x : FfiEnv) (h : ArchiveHandle) : ArchOp → Res Outcome
  | .hasFile name => do
    match ← caught (h.archive.findFile name) with
    | .ok (some _) => return .ok (.flag true)
    | _ => return .ok (.flag false)
  | .archiveName bufferSize =>
    if bufferSize.toNat < h.path.length + 1 then .ok (.error errorInsufficientBuffer) else .ok (.ok (.bytes h.path))
  | .extractFile name writable => do
    match ← caught (h.archive.readFile x.env name) with
    | .ok data => if writable then return .ok (.bytes data) else return .error errorAccessDenied
    | .error err => return .error (errorCode err)
  | .verifyFile name flags => verifyFileIn x h.archive name flags

/-- What a call on an archive answers when the handle is not that of an open archive. `SFileGetArchiveName` looks at the size
of the buffer first (760-763). -/
def ArchOp.invalid : ArchOp → Outcome
  | .hasFile _ => .ok (.flag false)
  | .archiveName bufferSize => if bufferSize = 0#32 then .error errorInvalidParameter else .error errorInvalidHandle
  | _ => .error errorInvalidHandle

/-- A number of `needed` bytes, if the buffer is large enough. -/
def infoValue (needed : Nat) (bufferSize : U32) (n : Nat) : Outcome :=
  if needed ≤ bufferSize.toNat then .ok (.value n) else .error errorInsufficientBuffer

/-- Models `storm-ffi/src/lib.rs` 630-671 (`get_file_info`). -/
def fileInfoOf (f : FileHandle) (cls bufferSize : U32) : Outcome :=
  if cls = 7#32 then infoValue 8 bufferSize f.size
  else if cls = 10#32 then infoValue 8 bufferSize f.position
  else .error errorNotSupported

/-- Models `storm-ffi/src/lib.rs` 674-745 (`get_archive_info`). -/
def archiveInfoOf (h : ArchiveHandle) (cls bufferSize : U32) : Res Outcome :=
  let header := h.archive.header
  if cls = 1#32 then .ok (infoValue 8 bufferSize header.getArchiveSize.toNat)
  else if cls = 2#32 then .ok (infoValue 4 bufferSize header.hashTableSize.toNat)
  else if cls = 3#32 then .ok (infoValue 4 bufferSize header.blockTableSize.toNat)
  else if cls = 4#32 then
    if 4 ≤ bufferSize.toNat then do
      let size ← sectorSizeOf header.blockSize
      return .ok (.value (BitVec.ofNat 32 size).toNat)
    else .ok (.error errorInsufficientBuffer)
  else .ok (.error errorNotSupported)

/-- `str::contains`. -/
def containsSub (name part : List Byte) : Bool := (List.range (name.length + 1)).any fun i => part.isPrefixOf (name.drop i)

/-- Models `storm-ffi/src/lib.rs` 846: whether a name is reported for a mask. -/
def maskMatches (mask name : List Byte) : Bool :=
  mask == [0x2A#8] || containsSub name (mask.filter (· != 0x2A#8))

/-- Models `storm-ffi/src/lib.rs` 841-850: the names given to the callback, if it always asks to go on. A name with a zero
byte is passed over. -/
def enumNames (x : FfiEnv) (a : Archive) (mask : List Byte) : Res (List (List Byte)) := do
  match ← caught (a.list x.env) with
  | .ok entries => return (entries.map (·.name)).filter fun name => maskMatches mask name && !name.contains 0#8
  | .error _ => return []

/-- Models `storm-ffi/src/lib.rs` 1232-1238, 1253-1256: whether `SFileVerifyArchive` checks the file. -/
def verifiable (name : List Byte) : Bool :=
  !(name.head? == some 0x28#8 && name.getLast? == some 0x29#8) &&
  !(name.getLast? == some 0x2F#8 || name.getLast? == some 0x5C#8) && !name.contains 0#8

/-- The check of the signature in `SFileVerifyArchive` (`storm-ffi/src/lib.rs` 1189-1213). -/
def signatureAcceptable (x : FfiEnv) (a : Archive) (flags : U32) : Res Bool :=
  if hasBits flags 0x10#32 then do
    match ← caught (a.verifySignature x.env x.sig) with
    | .ok .weakValid | .ok .strongValid | .ok .none | .ok .strongNoKey => return true
    | _ => return false
  else .ok true

/-- Models `storm-ffi/src/lib.rs` 1182-1246 (`SFileVerifyArchive`) up to the loop: an answer, or the files to check with
their flags. -/
def verifyArchiveList (x : FfiEnv) (a : Archive) (flags : U32) : Res (Except Outcome (List (List Byte × U32))) := do
  let flags := if flags = 0#32 then 0x10#32 else flags
  if !(← signatureAcceptable x a flags) then return .error (.error errorFileCorrupt)
  if !hasBits flags 0x20#32 then return .error (.ok .done)
  let files := fun (entries : List FileEntry) => (entries.filter fun entry => verifiable entry.name).map fun entry =>
    (entry.name, (if hasBits entry.flags flagSectorCrc then 1#32 else 0#32) ||| 2#32 ||| 4#32)
  match ← caught (a.list x.env) with
  | .ok entries => return .ok (files entries)
  | .error _ =>
    match ← caught a.listAll with
    | .ok entries => return .ok (files entries)
    | .error _ => return .error (.error errorFileCorrupt)

/-- The three mutexes (`storm-ffi/src/lib.rs` 21-25). -/
inductive Lock where
  | next
  | archives
  | files
  deriving DecidableEq, Repr

/-- An API call. -/
inductive Call where
  | openArchive (path : List Byte) (opened : Res Archive)
  | closeArchive (h : Nat)
  | openFile (h : Nat) (name : List Byte)
  | onFile (h : Nat) (op : FileOp)
  | onArchive (h : Nat) (op : ArchOp)
  | getInfo (h : Nat) (cls bufferSize : U32)
  /-- The callback makes the calls `calls name` and then returns `goOn name`. -/
  | enumFiles (h : Nat) (mask : List Byte) (calls : List Byte → List Call) (goOn : List Byte → Bool)
  | verifyArchive (h : Nat) (flags : U32)

/-- Where a call is. Each stage holds certain locks, see `Stage.holds`. -/
inductive Stage where
  /-- Waiting for a lock. -/
  | lock (l : Lock) (k : Stage)
  /-- About to return. -/
  | ret (o : Outcome)
  /-- About to panic. -/
  | crash
  | takeArchiveId (a : ArchiveHandle)
  | storeArchive (a : ArchiveHandle) (id : Nat)
  | purge (h : Nat)
  | remove (h : Nat)
  | lookup (h : Nat) (name : List Byte)
  | takeFileId (f : FileHandle)
  | storeFile (f : FileHandle) (id : Nat)
  | leaveOpen (id : Nat)
  | fileOp (h : Nat) (op : FileOp)
  | archOp (h : Nat) (op : ArchOp)
  | fileInfo (h : Nat) (cls bufferSize : U32)
  | archInfo (h : Nat) (cls bufferSize : U32)
  | enumList (h : Nat) (mask : List Byte) (calls : List Byte → List Call) (goOn : List Byte → Bool)
  | enumNext (names : List (List Byte)) (calls : List Byte → List Call) (goOn : List Byte → Bool)
  | enumCallback (name : List Byte) (pending : List Call) (names : List (List Byte)) (calls : List Byte → List Call)
      (goOn : List Byte → Bool)
  | verifyList (h : Nat) (flags : U32)
  | verifyNext (h : Nat) (files : List (List Byte × U32))
  | verifyResult (h : Nat) (o : Outcome) (files : List (List Byte × U32))

/-- The start of a call, before it has taken a lock: `SFileOpenArchive` 152-181, `SFileCloseArchive` 291-299,
`SFileOpenFileEx` 332-345, `SFileCloseFile` 402-403, `SFileReadFile` 436-443, `SFileGetFileSize` 483-488,
`SFileSetFilePointer` 517-523, `SFileHasFile` 570-579, `SFileGetFileInfo` 607-617, `SFileGetArchiveName` 763-768,
`SFileEnumFiles` 811-832, `SFileExtractFile` 957-978, `SFileVerifyFile` 1041-1058, `SFileVerifyArchive` 1169-1175 of
`storm-ffi/src/lib.rs`. The archive is opened before any lock is taken. -/
def Call.start : Call → Stage
  | .openArchive path (.ok a) => .lock .next (.takeArchiveId { archive := a, path })
  | .openArchive _ (.error .panic) => .crash
  | .openArchive _ (.error .diverge) => .crash
  | .openArchive _ (.error err) => .ret (.error (errorCode err))
  | .closeArchive h => if h = 0 then .ret (.error errorInvalidHandle) else .lock .files (.purge h)
  | .openFile h name => if h = 0 then .ret (.error errorInvalidHandle) else .lock .archives (.lookup h name)
  | .onFile h op => if h = 0 then .ret (.error errorInvalidHandle) else .lock .files (.fileOp h op)
  | .onArchive h op =>
    if h = 0 ∨ op = .archiveName 0#32 then .ret op.invalid else .lock .archives (.archOp h op)
  | .getInfo h cls n => if h = 0 then .ret (.error errorInvalidHandle) else .lock .files (.fileInfo h cls n)
  | .enumFiles h mask calls goOn =>
    if h = 0 then .ret (.error errorInvalidHandle) else .lock .archives (.enumList h mask calls goOn)
  | .verifyArchive h flags => if h = 0 then .ret (.error errorInvalidHandle) else .lock .archives (.verifyList h flags)

/-- The locks a stage holds. -/
def Stage.holds : Stage → List Lock
  | .lock l k => k.holds.erase l
  | .takeArchiveId _ => [.next]
  | .storeArchive .. | .remove _ | .lookup .. | .leaveOpen _ | .archOp .. | .archInfo .. | .enumList .. | .enumNext ..
  | .enumCallback .. | .verifyList .. | .verifyNext .. | .verifyResult .. => [.archives]
  | .purge _ | .fileOp .. | .fileInfo .. => [.files]
  | .takeFileId _ => [.archives, .next]
  | .storeFile .. => [.archives, .files]
  | .ret _ | .crash => []

/-- The shared state: the counter, the two maps, who holds each lock, the stack of each thread's calls (innermost first;
a callback can make further calls), the results so far (newest first), and whether the process was aborted. -/
structure Sys where
  next : Nat
  archives : Nat → Option ArchiveHandle
  files : Nat → Option FileHandle
  holder : Lock → Option Nat
  threads : List (List Stage)
  results : List (Nat × Outcome)
  aborted : Bool

/-- The state before the first call, with `n` threads (`storm-ffi/src/lib.rs` 21-25). -/
def Sys.init (n : Nat) : Sys where
  next := 1
  archives := fun _ => none
  files := fun _ => none
  holder := fun _ => none
  threads := List.replicate n []
  results := []
  aborted := false

/-- `HashMap::insert`. -/
def insertKey {α : Type} (m : Nat → Option α) (k : Nat) (v : α) : Nat → Option α := fun j => if j = k then some v else m j

/-- `HashMap::remove`, and the update of an entry. -/
def setKey {α : Type} (m : Nat → Option α) (k : Nat) (v : Option α) : Nat → Option α := fun j => if j = k then v else m j

def Sys.acquire (s : Sys) (t : Nat) (l : Lock) : Sys := { s with holder := fun m => if m = l then some t else s.holder m }

def Sys.release (s : Sys) (l : Lock) : Sys := { s with holder := fun m => if m = l then none else s.holder m }

def Sys.setStack (s : Sys) (t : Nat) (stack : List Stage) : Sys := { s with threads := s.threads.set t stack }

def Sys.abort (s : Sys) : Sys := { s with aborted := true }

/-- The caller goes on with the result of a call it made. The callback of `SFileEnumFiles` has no use for it here;
`SFileVerifyArchive` looks at it. -/
def resume (o : Outcome) : List Stage → List Stage
  | .verifyNext h files :: rest => .verifyResult h o files :: rest
  | stack => stack

/-- A panic aborts (a call that loops for ever is treated the same way here), otherwise `k` goes on. -/
def orAbort {α : Type} (s : Sys) (r : Res α) (k : α → Sys) : Sys :=
  match r with
  | .ok v => k v
  | .error _ => s.abort

/-- One step of thread `t`, whose innermost call is at the given stage and whose other calls are `rest`. `none` if it has
to wait. The parts of `storm-ffi/src/lib.rs`: opening an archive 154-166, closing one 294-302, opening a file 347-396,
`SFileGetFileInfo` 618-627, `SFileEnumFiles` 833-868, `SFileVerifyArchive` 1176-1271, and the single locked sections of the
other calls. -/
def Sys.stepStage (x : FfiEnv) (s : Sys) (t : Nat) (rest : List Stage) : Stage → Option Sys
  | .lock l k => if s.holder l = none then some ((s.acquire t l).setStack t (k :: rest)) else none
  | .ret o => some ({ s with results := (t, o) :: s.results }.setStack t (resume o rest))
  | .crash => some s.abort
  | .takeArchiveId a =>
    if s.next + 1 < 2 ^ 64 then
      some (({ s with next := s.next + 1 }.release .next).setStack t (.lock .archives (.storeArchive a s.next) :: rest))
    else some s.abort
  | .storeArchive a id =>
    some (({ s with archives := insertKey s.archives id a }.release .archives).setStack t (.ret (.ok (.handle id)) :: rest))
  | .purge h =>
    let files := fun j => match s.files j with
      | some f => if f.archiveHandle = h then none else some f
      | none => none
    some (({ s with files }.release .files).setStack t (.lock .archives (.remove h) :: rest))
  | .remove h =>
    let o : Outcome := if (s.archives h).isSome then .ok .done else .error errorInvalidHandle
    some (({ s with archives := setKey s.archives h none }.release .archives).setStack t (.ret o :: rest))
  | .lookup h name =>
    match s.archives h with
    | none => some ((s.release .archives).setStack t (.ret (.error errorInvalidHandle) :: rest))
    | some a =>
      some <| orAbort s (caught (a.archive.findFile name)) fun
        | .error _ => (s.release .archives).setStack t (.ret (.error errorFileCorrupt) :: rest)
        | .ok none => (s.release .archives).setStack t (.ret (.error errorFileNotFound) :: rest)
        | .ok (some info) =>
          orAbort s (caught (a.archive.readFile x.env name)) fun
            | .error _ => (s.release .archives).setStack t (.ret (.error errorFileCorrupt) :: rest)
            | .ok data =>
              s.setStack t (.lock .next (.takeFileId
                { archiveHandle := h, filename := name, data, position := 0, size := info.fileSize }) :: rest)
  | .takeFileId f =>
    if s.next + 1 < 2 ^ 64 then
      some (({ s with next := s.next + 1 }.release .next).setStack t (.lock .files (.storeFile f s.next) :: rest))
    else some s.abort
  | .storeFile f id =>
    some (({ s with files := insertKey s.files id f }.release .files).setStack t (.leaveOpen id :: rest))
  | .leaveOpen id => some ((s.release .archives).setStack t (.ret (.ok (.handle id)) :: rest))
  | .fileOp h op =>
    match s.files h with
    | none => some ((s.release .files).setStack t (.ret (.error errorInvalidHandle) :: rest))
    | some f =>
      some <| orAbort s (op.run f) fun (o, f') =>
        ({ s with files := setKey s.files h f' }.release .files).setStack t (.ret o :: rest)
  | .archOp h op =>
    match s.archives h with
    | none => some ((s.release .archives).setStack t (.ret op.invalid :: rest))
    | some a => some <| orAbort s (op.run x a) fun o => (s.release .archives).setStack t (.ret o :: rest)
  | .fileInfo h cls n =>
    match s.files h with
    | none => some ((s.release .files).setStack t (.lock .archives (.archInfo h cls n) :: rest))
    | some f => some ((s.release .files).setStack t (.ret (fileInfoOf f cls n) :: rest))
  | .archInfo h cls n =>
    match s.archives h with
    | none => some ((s.release .archives).setStack t (.ret (.error errorInvalidHandle) :: rest))
    | some a => some <| orAbort s (archiveInfoOf a cls n) fun o => (s.release .archives).setStack t (.ret o :: rest)
  | .enumList h mask calls goOn =>
    match s.archives h with
    | none => some ((s.release .archives).setStack t (.ret (.error errorInvalidHandle) :: rest))
    | some a => some <| orAbort s (enumNames x a.archive mask) fun names => s.setStack t (.enumNext names calls goOn :: rest)
  | .enumNext [] _ _ => some ((s.release .archives).setStack t (.ret (.ok .done) :: rest))
  | .enumNext (name :: names) calls goOn =>
    some (s.setStack t (.enumCallback name (calls name) names calls goOn :: rest))
  | .enumCallback name [] names calls goOn =>
    if goOn name then some (s.setStack t (.enumNext names calls goOn :: rest))
    else some ((s.release .archives).setStack t (.ret (.ok .done) :: rest))
  | .enumCallback name (c :: pending) names calls goOn =>
    some (s.setStack t (c.start :: .enumCallback name pending names calls goOn :: rest))
  | .verifyList h flags =>
    match s.archives h with
    | none => some ((s.release .archives).setStack t (.ret (.error errorInvalidHandle) :: rest))
    | some a =>
      some <| orAbort s (verifyArchiveList x a.archive flags) fun
        | .error o => (s.release .archives).setStack t (.ret o :: rest)
        | .ok files => s.setStack t (.verifyNext h files :: rest)
  | .verifyNext _ [] => some ((s.release .archives).setStack t (.ret (.ok .done) :: rest))
  | .verifyNext h ((name, flags) :: files) =>
    some (s.setStack t ((Call.onArchive h (.verifyFile name flags)).start :: .verifyNext h files :: rest))
  | .verifyResult h o files =>
    if o = .error errorFileCorrupt then some ((s.release .archives).setStack t (.ret (.error errorFileCorrupt) :: rest))
    else some (s.setStack t (.verifyNext h files :: rest))

/-- One step of thread `t`, if it is in a call and need not wait. -/
def Sys.step (x : FfiEnv) (s : Sys) (t : Nat) : Option Sys :=
  if s.aborted then none
  else match s.threads[t]? with
    | some (top :: rest) => s.stepStage x t rest top
    | _ => none

/-- Thread `t`, which is not in a call, makes one. -/
def Sys.begin (s : Sys) (t : Nat) (c : Call) : Option Sys :=
  if s.aborted then none
  else match s.threads[t]? with
    | some [] => some (s.setStack t [c.start])
    | _ => none

/-- The system moves: a thread makes a step or starts one of the `allowed` calls. -/
inductive Sys.Moves (x : FfiEnv) (allowed : Call → Prop) : Sys → Sys → Prop where
  | refl (s) : Moves x allowed s s
  | step {s s' s''} (t : Nat) : Moves x allowed s s' → s'.step x t = some s'' → Moves x allowed s s''
  | begin {s s' s''} (t : Nat) (c : Call) : Moves x allowed s s' → allowed c → s'.begin t c = some s'' →
      Moves x allowed s s''

end Mopaq
