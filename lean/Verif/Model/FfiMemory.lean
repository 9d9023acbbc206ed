import Verif.Model.Ffi

/-!
# The memory of the calling program

Models what the calls of `storm-ffi/src/lib.rs` do with the pointers they are given. The memory is a function from
addresses to bytes; address 0 is the null pointer. A value written or read through a typed pointer has to stand at a
multiple of its size: debug builds check this and abort (release builds have undefined behaviour). The memory of the
library itself (the open archives and files) is apart from it. Names are given as byte strings; how they are read from
memory is not modelled. One thread.
-/

namespace Mopaq

/-- The bytes at all addresses. -/
abbrev Mem := Nat → Byte

/-- `std::ptr::copy_nonoverlapping` to address `p`. -/
def Mem.write (m : Mem) (p : Nat) (bytes : List Byte) : Mem :=
  fun a => if p ≤ a then (bytes[a - p]?).getD (m a) else m a

/-- `*p = value`, a value of 4 or 8 bytes. -/
def Mem.store (m : Mem) (p : Nat) (value : List Byte) : Res Mem :=
  if p % value.length = 0 then .ok (m.write p value) else .error .panic

/-- `if !p.is_null() { *p = value }`. -/
def Mem.storeOpt (m : Mem) (p : Nat) (value : List Byte) : Res Mem := if p = 0 then .ok m else m.store p value

/-- `*p` for a pointer to `i32` (`storm-ffi/src/lib.rs` 531). -/
def Mem.loadI32 (m : Mem) (p : Nat) : Res (BitVec 32) :=
  if p % 4 = 0 then .ok (ofLe32 [m p, m (p + 1), m (p + 2), m (p + 3)]) else .error .panic

/-- The optional high half of a position (`storm-ffi/src/lib.rs` 530-533). -/
def Mem.loadOpt (m : Mem) (p : Nat) : Res (Option (BitVec 32)) := if p = 0 then .ok none else (m.loadI32 p).map some

/-- A program and the library: what is open (`storm-ffi/src/lib.rs` 21-25), the memory, the last error of the thread. -/
structure Client where
  next : Nat
  archives : Nat → Option ArchiveHandle
  files : Nat → Option FileHandle
  mem : Mem
  lastError : U32

/-- The calls that take pointers to write to. -/
inductive PtrCall where
  | openFile (archive : Nat) (name : List Byte) (out : Nat)
  | readFile (file buffer : Nat) (toRead : U32) (read : Nat)
  | fileSize (file high : Nat)
  | setPointer (file : Nat) (low : BitVec 32) (high : Nat) (method : U32)
  | info (h : Nat) (cls : U32) (buffer : Nat) (size : U32) (needed : Nat)
  | archiveName (archive buffer : Nat) (size : U32)
  | fileName (file buffer : Nat)
  deriving DecidableEq, Repr

/-- `set_last_error(code); return v`. -/
def Client.answer (s : Client) (v code : U32) : Res (U32 × Client) := .ok (v, { s with lastError := code })

/-- Models `storm-ffi/src/lib.rs` 320-397 (`SFileOpenFileEx`). -/
def Client.openFile (x : FfiEnv) (s : Client) (archive : Nat) (name : List Byte) (out : Nat) : Res (U32 × Client) := do
  if out = 0 then s.answer 0 errorInvalidParameter
  else if archive = 0 then s.answer 0 errorInvalidHandle
  else match s.archives archive with
    | none => s.answer 0 errorInvalidHandle
    | some a =>
      match ← caught (a.archive.findFile name) with
      | .error _ => s.answer 0 errorFileCorrupt
      | .ok none => s.answer 0 errorFileNotFound
      | .ok (some info) =>
        match ← caught (a.archive.readFile x.env name) with
        | .error _ => s.answer 0 errorFileCorrupt
        | .ok data =>
          if s.next + 1 < 2 ^ 64 then do
            let file := { archiveHandle := archive, filename := name, data, position := 0, size := info.fileSize }
            let mem ← s.mem.store out (leBytes 8 s.next)
            { s with next := s.next + 1, files := insertKey s.files s.next file, mem }.answer 1 0
          else .error .panic

/-- Models `storm-ffi/src/lib.rs` 423-474 (`SFileReadFile`). -/
def Client.readFile (s : Client) (file buffer : Nat) (toRead : U32) (read : Nat) : Res (U32 × Client) := do
  if buffer = 0 then s.answer 0 errorInvalidParameter
  else if file = 0 then s.answer 0 errorInvalidHandle
  else match s.files file with
    | none => s.answer 0 errorInvalidHandle
    | some f =>
      let (bytes, f') ← f.read toRead
      let mem ← (s.mem.write buffer bytes).storeOpt read (leBytes 4 bytes.length)
      { s with files := setKey s.files file (some f'), mem }.answer 1 0

/-- Models `storm-ffi/src/lib.rs` 482-503 (`SFileGetFileSize`). -/
def Client.fileSize (s : Client) (file high : Nat) : Res (U32 × Client) := do
  if file = 0 then s.answer 0xFFFFFFFF errorInvalidHandle
  else match s.files file with
    | none => s.answer 0xFFFFFFFF errorInvalidHandle
    | some f =>
      let mem ← s.mem.storeOpt high (leBytes 4 (f.size / 2 ^ 32))
      { s with mem }.answer (BitVec.ofNat 32 f.size) 0

/-- Models `storm-ffi/src/lib.rs` 511-557 (`SFileSetFilePointer`). -/
def Client.setPointer (s : Client) (file : Nat) (low : BitVec 32) (high : Nat) (method : U32) : Res (U32 × Client) := do
  if file = 0 then s.answer 0xFFFFFFFF errorInvalidHandle
  else match s.files file with
    | none => s.answer 0xFFFFFFFF errorInvalidHandle
    | some f =>
      let h ← s.mem.loadOpt high
      match ← f.seek low h method with
      | .error code => s.answer 0xFFFFFFFF code
      | .ok f' =>
        let mem ← s.mem.storeOpt high (leBytes 4 (f'.position / 2 ^ 32))
        { s with files := setKey s.files file (some f'), mem }.answer (BitVec.ofNat 32 f'.position) 0

/-- One branch of `get_file_info` or `get_archive_info` (`storm-ffi/src/lib.rs` 638-650 and the others alike): a value of
`width` bytes. -/
def Client.giveInfo (s : Client) (buffer : Nat) (size : U32) (needed width : Nat) (value : Res Nat) : Res (U32 × Client) := do
  let mem ← s.mem.storeOpt needed (leBytes 4 width)
  let s := { s with mem }
  if width ≤ size.toNat then do
    let v ← value
    let mem ← s.mem.store buffer (leBytes width v)
    { s with mem }.answer 1 0
  else s.answer 0 errorInsufficientBuffer

/-- Models `storm-ffi/src/lib.rs` 594-745 (`SFileGetFileInfo`, `get_file_info`, `get_archive_info`). -/
def Client.info (s : Client) (h : Nat) (cls : U32) (buffer : Nat) (size : U32) (needed : Nat) : Res (U32 × Client) :=
  if buffer = 0 ∧ 0 < size.toNat then s.answer 0 errorInvalidParameter
  else if h = 0 then s.answer 0 errorInvalidHandle
  else match s.files h with
    | some f =>
      if cls = 7#32 then s.giveInfo buffer size needed 8 (.ok f.size)
      else if cls = 10#32 then s.giveInfo buffer size needed 8 (.ok f.position)
      else s.answer 0 errorNotSupported
    | none =>
      match s.archives h with
      | none => s.answer 0 errorInvalidHandle
      | some a =>
        let header := a.archive.header
        if cls = 1#32 then s.giveInfo buffer size needed 8 (.ok header.getArchiveSize.toNat)
        else if cls = 2#32 then s.giveInfo buffer size needed 4 (.ok header.hashTableSize.toNat)
        else if cls = 3#32 then s.giveInfo buffer size needed 4 (.ok header.blockTableSize.toNat)
        else if cls = 4#32 then s.giveInfo buffer size needed 4 (sectorSizeOf header.blockSize)
        else s.answer 0 errorNotSupported

/-- Models `storm-ffi/src/lib.rs` 753-794 (`SFileGetArchiveName`). -/
def Client.archiveName (s : Client) (archive buffer : Nat) (size : U32) : Res (U32 × Client) :=
  if buffer = 0 ∨ size = 0#32 then s.answer 0 errorInvalidParameter
  else if archive = 0 then s.answer 0 errorInvalidHandle
  else match s.archives archive with
    | none => s.answer 0 errorInvalidHandle
    | some a =>
      if a.path.contains 0#8 then s.answer 0 errorInvalidParameter
      else if size.toNat < a.path.length + 1 then s.answer 0 errorInsufficientBuffer
      else { s with mem := s.mem.write buffer (a.path ++ [0#8]) }.answer 1 0

/-- Models `storm-ffi/src/lib.rs` 907-936 (`SFileGetFileName`). -/
def Client.fileName (s : Client) (file buffer : Nat) : Res (U32 × Client) :=
  if buffer = 0 then s.answer 0 errorInvalidParameter
  else if file = 0 then s.answer 0 errorInvalidHandle
  else match s.files file with
    | none => s.answer 0 errorInvalidHandle
    | some f =>
      if f.filename.contains 0#8 then s.answer 0 errorInvalidParameter
      else { s with mem := s.mem.write buffer (f.filename ++ [0#8]) }.answer 1 0

/-- A call: what it returns (`true` is 1) and everything afterwards. -/
def Client.call (x : FfiEnv) (s : Client) : PtrCall → Res (U32 × Client)
  | .openFile archive name out => s.openFile x archive name out
  | .readFile file buffer toRead read => s.readFile file buffer toRead read
  | .fileSize file high => s.fileSize file high
  | .setPointer file low high method => s.setPointer file low high method
  | .info h cls buffer size needed => s.info h cls buffer size needed
  | .archiveName archive buffer size => s.archiveName archive buffer size
  | .fileName file buffer => s.fileName file buffer

end Mopaq
