import Verif.Model.Basic

/-! # The reader of `mopaq::io`

`BufferedMpqReader<R>` passes everything on to the reader it is made from. That reader is modelled as a file with a position;
what the system decides is a parameter: for every call to `read` it may deliver fewer bytes than asked for, be interrupted, or
fail. -/

namespace Mopaq

/-- What the system answers to a call of `read` with room for at least one byte: it delivers at most so many bytes, and at
least one unless the file is at its end; or the call is interrupted; or it fails. -/
inductive Answer where
  | upTo (n : Nat)
  | interrupted
  | fails
  deriving DecidableEq

/-- Models `mopaq/src/io.rs` 14-16: the reader, as the file it reads and its position. -/
structure MpqReader where
  file : List Byte
  pos : Nat

/-- Models `mopaq/src/io.rs` 33-37 (`read`): how many bytes one call delivers. -/
def delivered (f : List Byte) (pos room n : Nat) : Nat := min (max n 1) (min room (f.length - pos))

/-- `Read::read_exact` of the standard library, used in `mopaq/src/io.rs` 28: calls `read` until `room` bytes are there, again
when interrupted; an end of file before that is an error. Returns the result and the position after it. The answers are those
to the calls it makes; when there are none left, the calls deliver all that there is. -/
def readExactFrom (f : List Byte) : List Answer → Nat → Nat → Res (List Byte) × Nat
  | _, pos, 0 => (.ok [], pos)
  | [], pos, room + 1 =>
    if pos + (room + 1) ≤ f.length then (.ok (slice f pos (room + 1)), pos + (room + 1))
    else (.error .io, max pos f.length)
  | .interrupted :: rest, pos, room + 1 => readExactFrom f rest pos (room + 1)
  | .fails :: _, pos, _ + 1 => (.error .io, pos)
  | .upTo n :: rest, pos, room + 1 =>
    let k := delivered f pos (room + 1) n
    if k = 0 then (.error .io, pos)
    else
      let (r, pos') := readExactFrom f rest (pos + k) (room + 1 - k)
      (r.map (slice f pos k ++ ·), pos')

/-- `SeekFrom` of the standard library. -/
inductive SeekFrom where
  | start (n : Nat)
  | current (d : Int)
  | fromEnd (d : Int)

/-- Models `mopaq/src/io.rs` 39-43 (`seek`), which passes on to `lseek`: the new position must be within 0 and 2^63. -/
def MpqReader.seek (r : MpqReader) (s : SeekFrom) : Res Nat × MpqReader :=
  let target : Int := match s with
    | .start n => n
    | .current d => r.pos + d
    | .fromEnd d => r.file.length + d
  if 0 ≤ target ∧ target.toNat < 2 ^ 63 then (.ok target.toNat, { r with pos := target.toNat }) else (.error .io, r)

/-- Models `mopaq/src/io.rs` 33-37 (`read`): one call with room for `room` bytes. -/
def MpqReader.read (r : MpqReader) (room : Nat) (answer : Answer) : Res (List Byte) × MpqReader :=
  if room = 0 then (.ok [], r)
  else match answer with
    | .upTo n =>
      let k := delivered r.file r.pos room n
      (.ok (slice r.file r.pos k), { r with pos := r.pos + k })
    | _ => (.error .io, r)

/-- Models `mopaq/src/io.rs` 25-31 (`read_at`). -/
def MpqReader.readAt (r : MpqReader) (offset n : Nat) (answers : List Answer) : Res (List Byte) × MpqReader :=
  match r.seek (.start offset) with
  | (.error err, r) => (.error err, r)
  | (.ok _, r) =>
    let (res, pos) := readExactFrom r.file answers r.pos n
    (res, { r with pos })

/-- The calls a user can make. -/
inductive ReaderCall where
  | readAt (offset n : Nat) (answers : List Answer)
  | read (room : Nat) (answer : Answer)
  | seek (s : SeekFrom)

/-- One call: its result (for `seek` no bytes) and the reader after it. -/
def MpqReader.call (r : MpqReader) : ReaderCall → Res (List Byte) × MpqReader
  | .readAt offset n answers => r.readAt offset n answers
  | .read room answer => r.read room answer
  | .seek s => ((r.seek s).1.map fun _ => [], (r.seek s).2)

/-- A series of calls. -/
def MpqReader.calls (r : MpqReader) : List ReaderCall → MpqReader
  | [] => r
  | c :: cs => (r.call c).2.calls cs

end Mopaq
