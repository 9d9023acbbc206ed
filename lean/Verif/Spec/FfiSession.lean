import Verif.Model.Ffi
import Verif.Spec.Ffi

/-!
# Specification: a program that uses the C API one call at a time

What is open, and for every call what it answers and what is open afterwards. Said in terms of the library (finding and
reading a file of an archive) and of the numbers that the calls exchange.
-/

namespace Mopaq

open _root_.Spec (origin distance clamp)

namespace Spec

/-- What is open: the archives with the paths they were opened from, the files, and the next handle. -/
structure Session where
  next : Nat
  archives : Nat → Option ArchiveHandle
  files : Nat → Option FileHandle

/-- Nothing is open. -/
def Session.start : Session := { next := 1, archives := fun _ => none, files := fun _ => none }

/-- The map with one place changed. -/
def put {α : Type} (m : Nat → Option α) (k : Nat) (v : Option α) : Nat → Option α := fun j => if j = k then v else m j

/-- The files but those of archive `h`. -/
def without (files : Nat → Option FileHandle) (h : Nat) : Nat → Option FileHandle :=
  fun j => (files j).filter fun f => f.archiveHandle != h

/-- An error of the library that is none of a panic and an endless loop. -/
def Reported (err : Err) : Prop := err ≠ .panic ∧ err ≠ .diverge

/-- The codes: 2 file not found, 5 access denied, 6 invalid handle, 50 not supported, 87 invalid parameter, 122 insufficient
buffer, 1392 file corrupt. -/
inductive Says (x : FfiEnv) (σ : Session) : Call → Outcome → Session → Prop where
  /-- A new handle for the archive. -/
  | openArchive (path : List Byte) (a : Archive) (hn : σ.next + 1 < 2 ^ 64) :
      Says x σ (.openArchive path (.ok a)) (.ok (.handle σ.next))
        { σ with next := σ.next + 1, archives := put σ.archives σ.next (some ⟨a, path⟩) }
  | openArchiveMissing (path : List Byte) : Says x σ (.openArchive path (.error .fileNotFound)) (.error 2#32) σ
  | openArchiveDenied (path : List Byte) : Says x σ (.openArchive path (.error .io)) (.error 5#32) σ
  | openArchiveCorrupt (path : List Byte) (err : Err) (he : Reported err) (hio : err ≠ .io) (hnf : err ≠ .fileNotFound) :
      Says x σ (.openArchive path (.error err)) (.error 1392#32) σ
  /-- The archive and its files are closed. -/
  | closeArchive (h : Nat) (ho : σ.archives h ≠ none) :
      Says x σ (.closeArchive h) (.ok .done) { σ with archives := put σ.archives h none, files := without σ.files h }
  | closeArchiveInvalid (h : Nat) (ho : σ.archives h = none) : Says x σ (.closeArchive h) (.error 6#32) σ
  /-- A new handle for the file, at its start. -/
  | openFile (h : Nat) (name : List Byte) (a : ArchiveHandle) (info : FileInfo) (data : List Byte)
      (ho : σ.archives h = some a) (hf : a.archive.findFile name = .ok (some info))
      (hr : a.archive.readFile x.env name = .ok data) (hn : σ.next + 1 < 2 ^ 64) :
      Says x σ (.openFile h name) (.ok (.handle σ.next))
        { σ with next := σ.next + 1, files := put σ.files σ.next (some ⟨h, name, data, 0, info.fileSize⟩) }
  | openFileInvalid (h : Nat) (name : List Byte) (ho : σ.archives h = none) : Says x σ (.openFile h name) (.error 6#32) σ
  | openFileMissing (h : Nat) (name : List Byte) (a : ArchiveHandle) (ho : σ.archives h = some a)
      (hf : a.archive.findFile name = .ok none) : Says x σ (.openFile h name) (.error 2#32) σ
  | openFileCorrupt (h : Nat) (name : List Byte) (a : ArchiveHandle) (err : Err) (ho : σ.archives h = some a)
      (hf : a.archive.findFile name ≠ .ok none) (hr : a.archive.readFile x.env name = .error err) (he : Reported err) :
      Says x σ (.openFile h name) (.error 1392#32) σ
  /-- The bytes at the position, as many as asked for and left. -/
  | read (h : Nat) (f : FileHandle) (n : U32) (ho : σ.files h = some f) :
      Says x σ (.onFile h (.read n)) (.ok (.bytes ((f.data.drop f.position).take n.toNat)))
        { σ with files := put σ.files h (some { f with position := min (f.position + n.toNat) f.data.length }) }
  /-- A target at or after the start: the position becomes the target, clamped to the file. -/
  | seek (h : Nat) (f : FileHandle) (low : BitVec 32) (high : Option (BitVec 32)) (method : U32) (o : Nat)
      (ho : σ.files h = some f) (hlen : f.data.length < 2 ^ 63) (hm : origin method.toNat f.position f.data.length = some o)
      (hhigh : high = none ∨ 0 ≤ low.toInt) (hstart : 0 ≤ (o : Int) + distance low high)
      (hend : (o : Int) + distance low high < 2 ^ 63) :
      Says x σ (.onFile h (.seek low high method)) (.ok (.value (clamp (o + distance low high) f.data.length)))
        { σ with files := put σ.files h (some { f with position := clamp (o + distance low high) f.data.length }) }
  | seekUnknown (h : Nat) (f : FileHandle) (low : BitVec 32) (high : Option (BitVec 32)) (method : U32)
      (ho : σ.files h = some f) (hm : origin method.toNat f.position f.data.length = none) :
      Says x σ (.onFile h (.seek low high method)) (.error 87#32) σ
  | size (h : Nat) (f : FileHandle) (ho : σ.files h = some f) : Says x σ (.onFile h .size) (.ok (.value f.size)) σ
  | fileName (h : Nat) (f : FileHandle) (ho : σ.files h = some f) :
      Says x σ (.onFile h .name) (.ok (.bytes f.filename)) σ
  | closeFile (h : Nat) (ho : σ.files h ≠ none) :
      Says x σ (.onFile h .close) (.ok .done) { σ with files := put σ.files h none }
  | fileInvalid (h : Nat) (op : FileOp) (ho : σ.files h = none) : Says x σ (.onFile h op) (.error 6#32) σ
  /-- Whether there is such a file; errors and closed archives count as no. -/
  | hasFile (h : Nat) (name : List Byte) (b : Bool)
      (hb : b = true ↔ ∃ a info, σ.archives h = some a ∧ a.archive.findFile name = .ok (some info))
      (hp : ∀ a err, σ.archives h = some a → a.archive.findFile name = .error err → Reported err) :
      Says x σ (.onArchive h (.hasFile name)) (.ok (.flag b)) σ
  /-- The path and a zero byte must fit. -/
  | archiveName (h : Nat) (a : ArchiveHandle) (size : U32) (ho : σ.archives h = some a) (hs : a.path.length < size.toNat) :
      Says x σ (.onArchive h (.archiveName size)) (.ok (.bytes a.path)) σ
  | archiveNameShort (h : Nat) (a : ArchiveHandle) (size : U32) (ho : σ.archives h = some a)
      (hs : size.toNat ≤ a.path.length) (h0 : size ≠ 0#32) :
      Says x σ (.onArchive h (.archiveName size)) (.error 122#32) σ
  | archiveNameEmpty (h : Nat) : Says x σ (.onArchive h (.archiveName 0#32)) (.error 87#32) σ
  | archiveNameInvalid (h : Nat) (size : U32) (ho : σ.archives h = none) (h0 : size ≠ 0#32) :
      Says x σ (.onArchive h (.archiveName size)) (.error 6#32) σ
  /-- The content is written. -/
  | extract (h : Nat) (name : List Byte) (a : ArchiveHandle) (data : List Byte) (ho : σ.archives h = some a)
      (hr : a.archive.readFile x.env name = .ok data) :
      Says x σ (.onArchive h (.extractFile name true)) (.ok (.bytes data)) σ
  | extractDenied (h : Nat) (name : List Byte) (a : ArchiveHandle) (data : List Byte) (ho : σ.archives h = some a)
      (hr : a.archive.readFile x.env name = .ok data) :
      Says x σ (.onArchive h (.extractFile name false)) (.error 5#32) σ
  | extractMissing (h : Nat) (name : List Byte) (w : Bool) (a : ArchiveHandle) (ho : σ.archives h = some a)
      (hr : a.archive.readFile x.env name = .error .fileNotFound) :
      Says x σ (.onArchive h (.extractFile name w)) (.error 2#32) σ
  | extractUnreadable (h : Nat) (name : List Byte) (w : Bool) (a : ArchiveHandle) (ho : σ.archives h = some a)
      (hr : a.archive.readFile x.env name = .error .io) :
      Says x σ (.onArchive h (.extractFile name w)) (.error 5#32) σ
  | extractCorrupt (h : Nat) (name : List Byte) (w : Bool) (a : ArchiveHandle) (err : Err) (ho : σ.archives h = some a)
      (hr : a.archive.readFile x.env name = .error err) (he : Reported err) (hio : err ≠ .io) (hnf : err ≠ .fileNotFound) :
      Says x σ (.onArchive h (.extractFile name w)) (.error 1392#32) σ
  | extractInvalid (h : Nat) (name : List Byte) (w : Bool) (ho : σ.archives h = none) :
      Says x σ (.onArchive h (.extractFile name w)) (.error 6#32) σ
  /-- Size (7) and position (10) of a file, 8 bytes each. -/
  | fileInfo (h : Nat) (f : FileHandle) (cls size : U32) (v : Nat) (ho : σ.files h = some f)
      (hv : (cls = 7#32 ∧ v = f.size) ∨ (cls = 10#32 ∧ v = f.position)) (hs : 8 ≤ size.toNat) :
      Says x σ (.getInfo h cls size) (.ok (.value v)) σ
  /-- Size of the archive (1, 8 bytes), entries of the hash table (2) and of the block table (3), size of a sector (4), 4 bytes
  each. -/
  | archiveInfo (h : Nat) (a : ArchiveHandle) (cls size : U32) (v : Nat) (ho : σ.archives h = some a)
      (hv : (cls = 1#32 ∧ v = a.archive.header.getArchiveSize.toNat ∧ 8 ≤ size.toNat) ∨
        (cls = 2#32 ∧ v = a.archive.header.hashTableSize.toNat ∧ 4 ≤ size.toNat) ∨
        (cls = 3#32 ∧ v = a.archive.header.blockTableSize.toNat ∧ 4 ≤ size.toNat) ∨
        (cls = 4#32 ∧ a.archive.header.blockSize.toNat < 23 ∧ v = 512 * 2 ^ a.archive.header.blockSize.toNat ∧
          4 ≤ size.toNat)) :
      Says x σ (.getInfo h cls size) (.ok (.value v)) σ
  | infoShort (h : Nat) (cls size : U32)
      (ho : (σ.files h ≠ none ∧ (cls = 7#32 ∨ cls = 10#32) ∧ size.toNat < 8) ∨
        (σ.archives h ≠ none ∧ (cls = 1#32 ∧ size.toNat < 8 ∨ (cls = 2#32 ∨ cls = 3#32 ∨ cls = 4#32) ∧ size.toNat < 4))) :
      Says x σ (.getInfo h cls size) (.error 122#32) σ
  | infoUnknown (h : Nat) (cls size : U32)
      (ho : (σ.files h ≠ none ∧ cls ≠ 7#32 ∧ cls ≠ 10#32) ∨
        (σ.archives h ≠ none ∧ cls ≠ 1#32 ∧ cls ≠ 2#32 ∧ cls ≠ 3#32 ∧ cls ≠ 4#32)) :
      Says x σ (.getInfo h cls size) (.error 50#32) σ
  | infoInvalid (h : Nat) (cls size : U32) (hf : σ.files h = none) (ha : σ.archives h = none) :
      Says x σ (.getInfo h cls size) (.error 6#32) σ

/-- One call after the other, by any threads, with the answers. -/
inductive SaysAll (x : FfiEnv) : Session → List (Nat × Call × Outcome) → Session → Prop where
  | nil (σ : Session) : SaysAll x σ [] σ
  | cons {σ σ' σ'' : Session} {t : Nat} {c : Call} {o : Outcome} {more : List (Nat × Call × Outcome)} :
      Says x σ c o σ' → SaysAll x σ' more σ'' → SaysAll x σ ((t, c, o) :: more) σ''

end Spec

end Mopaq
