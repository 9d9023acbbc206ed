import Verif.Model.Ffi
import Verif.Props.Crypto
import Verif.Props.FileIO
import Verif.Props.Builder

/-! # Any spelling of a name reaches the same file (C66) -/

namespace Mopaq

theorem findFileHash_spelling {n m : List Byte} (h : Spec.sameName (n.map BitVec.toNat) (m.map BitVec.toNat))
    (t : HashTable) (locale : U16) : findFileHash t n locale = findFileHash t m locale := by
  have hh := (C04_case_and_separator n m h).1
  unfold findFileHash
  rw [hh htNameA (by decide), hh htNameB (by decide), hh htTableOffset (by decide)]

/-- C66: a name that differs from another only in the case of ASCII letters and in the kind of slashes finds the same file
or the same error, in every archive, whatever its version and however it was made, and gives the same content or the same
error when it is read. -/
theorem C66_same_file (e : Env) (a : Archive) (n m : List Byte)
    (h : Spec.sameName (n.map BitVec.toNat) (m.map BitVec.toNat)) :
    a.findFile n = a.findFile m ∧ a.readFile e n = a.readFile e m := by
  have hf : a.findFile n = a.findFile m := by
    have hc : a.findFileClassic n = a.findFileClassic m := by
      unfold Archive.findFileClassic
      simp only [findFileHash_spelling h]
    have hhet : ∀ ao het bet, hetBetFind ao het bet n = hetBetFind ao het bet m := by
      intro ao het bet
      unfold hetBetFind HetTable.findFile
      rw [(C04_case_and_separator n m h).2]
    unfold Archive.findFile
    simp only [hc, hhet]
  refine ⟨hf, ?_⟩
  have hd : ∀ f ao sh info sk sz, readFileData e f ao sh n info sk sz = readFileData e f ao sh m info sk sz := by
    intro f ao sh info sk sz
    unfold readFileData readerKey
    rw [fileKey_sameName h]
  unfold Archive.readFile
  simp only [hf, hd]

/-- C66: the same for the calls of the C interface that take a name: is the file there, extract it, verify it. -/
theorem C66_same_answer (x : FfiEnv) (a : ArchiveHandle) (n m : List Byte)
    (h : Spec.sameName (n.map BitVec.toNat) (m.map BitVec.toNat)) :
    (ArchOp.hasFile n).run x a = (ArchOp.hasFile m).run x a ∧
    (∀ writable, (ArchOp.extractFile n writable).run x a = (ArchOp.extractFile m writable).run x a) ∧
    ∀ flags, (ArchOp.verifyFile n flags).run x a = (ArchOp.verifyFile m flags).run x a := by
  obtain ⟨h1, h2⟩ := C66_same_file x.env a.archive n m h
  refine ⟨?_, fun writable => ?_, fun flags => ?_⟩
  · simp only [ArchOp.run, h1]
  · simp only [ArchOp.run, h2]
  · simp only [ArchOp.run, verifyFileIn, checkSectors, checkCrc, checkMd5, checkContent, h1, h2]

/-- The sample holds `dir/A.TXT`; it can be read as `DIR\\a.txt` as well. -/
example : ∃ f a, buildBytes toyEnv zeroMd5 (sampleBuilder .v3) = .ok f ∧ openArchive toyEnv f = .ok a ∧
    a.readFile toyEnv (ascii "DIR\\a.txt") = .ok (List.replicate 40 0x41#8) := by
  obtain ⟨f, a, hf, -, ho, hr, -⟩ := sample_reads .v3 (by decide)
  refine ⟨f, a, hf, ho, ?_⟩
  rw [← hr]
  exact (C66_same_file toyEnv a _ _ (by simp [ascii, Spec.sameName, Spec.sameChar])).2

end Mopaq
