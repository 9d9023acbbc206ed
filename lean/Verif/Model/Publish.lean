import Verif.Model.Builder
import Verif.Spec.Paths

/-!
# How a finished archive reaches its path

Models the file system calls of `mopaq/src/builder.rs` 525-564 (`build`): the temporary file, the writes to it, the rename,
and the removal of the temporary file when it is dropped (crate `tempfile`). Not modelled: permissions, links, other
processes, and where the temporary file is.
-/

namespace Mopaq

/-- A call to the file system. -/
inductive FsOp where
  | create (path : List Byte)
  | write (path : List Byte) (offset : Nat) (data : List Byte)
  | rename (source target : List Byte)
  | unlink (path : List Byte)

/-- The content after `data` was written at an offset. A gap before it is filled with zeros; writing nothing does nothing. -/
def overwrite (content : List Byte) (offset : Nat) (data : List Byte) : List Byte :=
  if data = [] then content
  else content.take offset ++ List.replicate (offset - content.length) 0 ++ data ++ content.drop (offset + data.length)

/-- The effect of a call on what is stored under each path. -/
def FsOp.apply (d : Spec.Disk) : FsOp → Spec.Disk
  | .create path => fun q => if q = path then some [] else d q
  | .write path offset data => fun q => if q = path then (d q).map (overwrite · offset data) else d q
  | .rename source target => fun q => if q = target then d source else if q = source then none else d q
  | .unlink path => fun q => if q = path then none else d q

def applyOps (d : Spec.Disk) (ops : List FsOp) : Spec.Disk := ops.foldl FsOp.apply d

/-- Writing pieces one after the other from an offset on (`Write::write_all`, and several writes in a row). -/
def writePieces (path : List Byte) : Nat → List (List Byte) → List FsOp
  | _, [] => []
  | offset, piece :: rest => .write path offset piece :: writePieces path (offset + piece.length) rest

/-- Models `mopaq/src/builder.rs` 532-557: the writes that put the archive `f` into the temporary file. From version 3 on it
is made in memory and written in one go (538-552); before, files and tables are written behind the space for the header
(625-697), then the header at the start (700-720). The system may take any number of calls: `body` and `front` are
the pieces. -/
inductive WritesArchive (v : FormatVersion) (f tmp : List Byte) : List FsOp → Prop where
  | buffered (body : List (List Byte)) (hv : v.ge .v3 = true) (hb : body.flatten = f) :
      WritesArchive v f tmp (writePieces tmp 0 body)
  | direct (body front : List (List Byte)) (hv : v.ge .v3 = false) (hb : body.flatten = f.drop v.headerSize.toNat)
      (hf : front.flatten = f.take v.headerSize.toNat) :
      WritesArchive v f tmp (writePieces tmp v.headerSize.toNat body ++ writePieces tmp 0 front)

/-- A call that writes to one path. -/
def FsOp.WritesTo (path : List Byte) (op : FsOp) : Prop := ∃ offset data, op = .write path offset data

/-- Models `mopaq/src/builder.rs` 525-564 (`build`): the calls of one run and its result.
`noTemp`: 529 fails. `failed`: something after it fails or panics — an input, a write, making the archive, the rename — and
the temporary file is removed when dropped; what was written to it until then is left open. `removalFails`: the same, but
the removal does not work. `done`: everything works. -/
inductive BuildRun (e : Env) (md5 : Md5) (b : Builder) (dest tmp : List Byte) : List FsOp → Res Unit → Prop where
  | noTemp : BuildRun e md5 b dest tmp [] (.error .io)
  | failed (writes : List FsOp) (h : ∀ op ∈ writes, op.WritesTo tmp) (err : Err) :
      BuildRun e md5 b dest tmp (.create tmp :: writes ++ [.unlink tmp]) (.error err)
  | removalFails (writes : List FsOp) (h : ∀ op ∈ writes, op.WritesTo tmp) (err : Err) :
      BuildRun e md5 b dest tmp (.create tmp :: writes) (.error err)
  | done (f : List Byte) (writes : List FsOp) (hf : buildBytes e md5 b = .ok f) (h : WritesArchive b.version f tmp writes) :
      BuildRun e md5 b dest tmp (.create tmp :: writes ++ [.rename tmp dest]) (.ok ())

/-- What may be left after a power failure once these calls were made, on a file system that keeps creations, renames and
removals in order but not the data: nothing was synchronised (`build` calls no `sync_all`), so any write may be missing. -/
inductive Lasting : List FsOp → List FsOp → Prop where
  | nil : Lasting [] []
  | keep (op : FsOp) {ops left : List FsOp} : Lasting ops left → Lasting (op :: ops) (op :: left)
  | lose (path : List Byte) (offset : Nat) (data : List Byte) {ops left : List FsOp} : Lasting ops left →
      Lasting (.write path offset data :: ops) left

end Mopaq
