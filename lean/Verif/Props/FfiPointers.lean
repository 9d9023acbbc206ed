import Verif.Props.FfiMemory
import Verif.Props.FfiSession
import Verif.Spec.FfiPointers

/-! # C84: what the calls with pointers answer -/

namespace Mopaq

open _root_.Mopaq.Spec (Within At numberAt asked widthOf Proper Delivered sessionOf Tidy Says)

theorem numberAt_store {m m' : Mem} {p n v : Nat} (h : m.storeOpt p (leBytes n v) = .ok m') (hp : p ≠ 0) (hv : v < 256 ^ n) :
    numberAt m' p n = v := by
  unfold Mem.storeOpt at h
  rw [if_neg hp] at h
  rw [store_ok h, numberAt_eq (leBytes_length _ _) (Mem.write_at _ _ _), leNat_leBytes, Nat.mod_eq_of_lt hv]

theorem storeOpt_some (m : Mem) {p : Nat} (value : List Byte) (h : p % value.length = 0) : ∃ m', m.storeOpt p value = .ok m' := by
  unfold Mem.storeOpt Mem.store
  by_cases h0 : p = 0
  · rw [if_pos h0]; exact ⟨_, rfl⟩
  · rw [if_neg h0, if_pos h]; exact ⟨_, rfl⟩

theorem numberAt_congr {m m' : Mem} : ∀ {n p : Nat}, (∀ a, Within a p n → m' a = m a) → numberAt m' p n = numberAt m p n := by
  intro n
  induction n with
  | zero => intro p _; rfl
  | succ n ih =>
    intro p h
    show (m' p).toNat + 256 * numberAt m' (p + 1) n = _
    rw [h p ⟨Nat.le_refl _, by omega⟩, ih fun a ha => h a ⟨by have := ha.1; omega, by have := ha.2; omega⟩]
    rfl

theorem loadOpt_eq (m : Mem) {p : Nat} (h : p % 4 = 0) :
    m.loadOpt p = .ok (if p = 0 then none else some (BitVec.ofNat 32 (numberAt m p 4))) := by
  unfold Mem.loadOpt
  by_cases h0 : p = 0
  · rw [if_pos h0, if_pos h0]
  · rw [if_neg h0, if_neg h0]
    unfold Mem.loadI32
    rw [if_pos h]
    show Except.ok (some _) = _
    congr 2

theorem session_files {s : Client} {files : Nat → Option FileHandle} {m : Mem} {e : U32} :
    sessionOf { s with files, mem := m, lastError := e } = { sessionOf s with files } := rfl

theorem giveInfo_short {s : Client} {buffer needed width : Nat} {size : U32} {value : Res Nat} (hn : needed % 4 = 0)
    (h : size.toNat < width) : ∃ s', s.giveInfo buffer size needed width value = .ok (0, s') ∧ sessionOf s' = sessionOf s ∧
      s'.lastError = 122#32 := by
  obtain ⟨m, hm⟩ := storeOpt_some s.mem (leBytes 4 width) (p := needed) (by rw [leBytes_length]; exact hn)
  refine ⟨{ s with mem := m, lastError := 122#32 }, ?_, rfl, rfl⟩
  unfold Client.giveInfo
  rw [hm]
  show (if width ≤ size.toNat then _ else _) = _
  rw [if_neg (by omega)]
  rfl

theorem giveInfo_fits {s : Client} {buffer needed width n : Nat} {size : U32} (hn : needed % 4 = 0)
    (hb : buffer % width = 0) (hap : ∀ a, Within a needed 4 → ¬ Within a buffer width) (hw : width < 2 ^ 32)
    (h : width ≤ size.toNat) (hv : n < 256 ^ width) :
    ∃ s', s.giveInfo buffer size needed width (.ok n) = .ok (1, s') ∧ sessionOf s' = sessionOf s ∧
      s'.lastError = 0#32 ∧ numberAt s'.mem buffer width = n ∧ (needed ≠ 0 → numberAt s'.mem needed 4 = width) := by
  obtain ⟨m, hm⟩ := storeOpt_some s.mem (leBytes 4 width) (p := needed) (by rw [leBytes_length]; exact hn)
  refine ⟨{ s with mem := m.write buffer (leBytes width n), lastError := 0#32 }, ?_, rfl, rfl, ?_, fun h0 => ?_⟩
  · unfold Client.giveInfo
    rw [hm]
    show (if width ≤ size.toNat then _ else _) = _
    rw [if_pos h]
    show (Mem.store m buffer (leBytes width n) >>= _) = _
    unfold Mem.store
    rw [if_pos (by rw [leBytes_length]; exact hb)]
    rfl
  · rw [numberAt_eq (leBytes_length _ _) (Mem.write_at _ _ _), leNat_leBytes, Nat.mod_eq_of_lt hv]
  · rw [numberAt_congr (m := m) fun a ha => Mem.write_outside (by rw [leBytes_length]; exact hap a ha)]
    exact numberAt_store hm h0 hw

/-- C84: every call with pointers answers as the specification of C71 says, if the pointers are such as a correct caller gives:
the same is open afterwards, and the value returned, the last error and the bytes in memory tell the answer. -/
theorem C84_answers (x : FfiEnv) (s : Client) (c : PtrCall) (ht : Tidy (sessionOf s)) (hc : Proper c) (o : Outcome)
    (σ : Spec.Session) (h : Says x (sessionOf s) (asked s.mem c) o σ) :
    ∃ v s', s.call x c = .ok (v, s') ∧ sessionOf s' = σ ∧ Delivered c o v s'.lastError s'.mem := by
  cases c with
  | openFile archive name out =>
    obtain ⟨h0, h8⟩ := hc
    have h : Says x (sessionOf s) (.openFile archive name) o σ := h
    show ∃ v s', s.openFile x archive name out = _ ∧ _
    unfold Client.openFile
    rw [if_neg h0]
    have ha0 : ∀ a, s.archives archive = some a → archive ≠ 0 := by
      intro a ha h0
      have := ht.archiveNew archive (Or.inl h0)
      rw [show (sessionOf s).archives archive = some a from ha] at this
      cases this
    cases h with
    | openFile _ _ a info data ho hf hr hn =>
      have ho : s.archives archive = some a := ho
      rw [if_neg (ha0 a ho), ho]
      dsimp only
      rw [hf, hr]
      refine ⟨1, { s with
        next := s.next + 1
        files := insertKey s.files s.next ⟨archive, name, data, 0, info.fileSize⟩
        mem := s.mem.write out (leBytes 8 s.next)
        lastError := 0 }, ?_, rfl, rfl, rfl, ?_⟩
      · show (if s.next + 1 < 2 ^ 64 then _ else _) = _
        rw [if_pos (show s.next + 1 < 2 ^ 64 from hn)]
        unfold Mem.store
        rw [if_pos (by rw [leBytes_length]; exact h8)]
        rfl
      · have hn : s.next + 1 < 2 ^ 64 := hn
        show numberAt (s.mem.write out (leBytes 8 s.next)) out 8 = s.next
        rw [numberAt_eq (leBytes_length _ _) (Mem.write_at _ _ _), leNat_leBytes, Nat.mod_eq_of_lt (by omega)]
    | openFileInvalid _ _ ho =>
      have ho : s.archives archive = none := ho
      rw [ho]
      refine ⟨0, { s with lastError := 6 }, ?_, rfl, rfl, rfl⟩
      split <;> rfl
    | openFileMissing _ _ a ho hf =>
      have ho : s.archives archive = some a := ho
      rw [if_neg (ha0 a ho), ho]
      dsimp only
      rw [hf]
      exact ⟨0, { s with lastError := 2 }, rfl, rfl, rfl, rfl⟩
    | openFileCorrupt _ _ a err ho hf hr he =>
      have ho : s.archives archive = some a := ho
      rw [if_neg (ha0 a ho), ho]
      dsimp only
      refine ⟨0, { s with lastError := 1392 }, ?_, rfl, rfl, rfl⟩
      cases hf' : a.archive.findFile name with
      | error err' =>
        have : err' = err := by rw [Archive.readFile, hf'] at hr; exact Except.error.inj hr
        rw [this, caught_reported he]
        rfl
      | ok r =>
        cases r with
        | none => exact absurd hf' hf
        | some info =>
          rw [hr, caught_reported he]
          rfl
  | readFile file buffer toRead read =>
    obtain ⟨h0, h4, hap⟩ := hc
    have h : Says x (sessionOf s) (.onFile file (.read toRead)) o σ := h
    cases h with
    | read _ f _ ho =>
      have ho : s.files file = some f := ho
      have hf0 : file ≠ 0 := by
        intro h0
        have := ht.fileNew file (Or.inl h0)
        rw [show (sessionOf s).files file = some f from ho] at this
        cases this
      have hr := C42_read_piece f toRead (ht.within file f ho).1
      obtain ⟨piece, hpc⟩ : ∃ p, p = (f.data.drop f.position).take toRead.toNat := ⟨_, rfl⟩
      have hl : piece.length ≤ toRead.toNat := by rw [hpc, List.length_take]; omega
      have hlt := toRead.isLt
      rw [← hpc] at hr ⊢
      obtain ⟨m, hm⟩ := storeOpt_some (s.mem.write buffer piece) (leBytes 4 piece.length) (p := read)
        (by rw [leBytes_length]; exact h4)
      refine ⟨1, { s with
        files := setKey s.files file (some { f with position := min (f.position + toRead.toNat) f.data.length })
        mem := m
        lastError := 0 }, ?_, rfl, rfl, rfl, ?_, fun hne => numberAt_store hm hne (by omega)⟩
      · show s.readFile file buffer toRead read = _
        unfold Client.readFile
        rw [if_neg h0, if_neg hf0, ho]
        dsimp only
        rw [hr]
        show (Mem.storeOpt _ read (leBytes 4 piece.length) >>= _) = _
        rw [hm]
        rfl
      · refine at_of_eq (Mem.write_at s.mem buffer piece) fun a ha => ?_
        by_cases hne : read = 0
        · unfold Mem.storeOpt at hm
          rw [if_pos hne] at hm
          rw [Except.ok.inj hm]
        · unfold Mem.storeOpt at hm
          rw [if_neg hne] at hm
          rw [store_ok hm]
          refine Mem.write_outside ?_
          rw [leBytes_length]
          intro hw
          exact hap a hw ⟨ha.1, by have := ha.2; omega⟩
    | fileInvalid _ _ ho =>
      have ho : s.files file = none := ho
      refine ⟨0, { s with lastError := 6 }, ?_, rfl, rfl, rfl⟩
      show s.readFile file buffer toRead read = _
      unfold Client.readFile
      rw [if_neg h0, ho]
      split <;> rfl
  | fileSize file high =>
    have h : Says x (sessionOf s) (.onFile file .size) o σ := h
    show ∃ v s', s.fileSize file high = _ ∧ _
    unfold Client.fileSize
    cases h with
    | size _ f ho =>
      have ho : s.files file = some f := ho
      have hf0 : file ≠ 0 := by
        intro h0
        have := ht.fileNew file (Or.inl h0)
        rw [show (sessionOf s).files file = some f from ho] at this
        cases this
      obtain ⟨m, hm⟩ := storeOpt_some s.mem (leBytes 4 (f.size / 2 ^ 32)) (p := high) (by rw [leBytes_length]; exact hc)
      rw [if_neg hf0, ho]
      dsimp only
      rw [hm]
      refine ⟨BitVec.ofNat 32 f.size, { s with mem := m, lastError := 0 }, rfl, rfl, rfl, BitVec.toNat_ofNat .., fun hne =>
        numberAt_store hm hne ?_⟩
      have := (ht.within file f ho).2.2.1
      rw [Nat.div_lt_iff_lt_mul (by decide)]
      exact this
    | fileInvalid _ _ ho =>
      have ho : s.files file = none := ho
      rw [ho]
      refine ⟨0xFFFFFFFF, { s with lastError := 6 }, ?_, rfl, rfl, rfl⟩
      split <;> rfl
  | setPointer file low high method =>
    have h : Says x (sessionOf s) (.onFile file (.seek low (if high = 0 then none else some (BitVec.ofNat 32 (numberAt s.mem high 4)))
      method)) o σ := h
    show ∃ v s', s.setPointer file low high method = _ ∧ _
    unfold Client.setPointer
    have hld := loadOpt_eq s.mem hc
    rw [hld]
    generalize (if high = 0 then none else some (BitVec.ofNat 32 (numberAt s.mem high 4)) : Option (BitVec 32)) = hi at *
    have hf0 : ∀ f, s.files file = some f → file ≠ 0 := by
      intro f ho h0
      have := ht.fileNew file (Or.inl h0)
      rw [show (sessionOf s).files file = some f from ho] at this
      cases this
    cases h with
    | seek _ f _ _ _ p ho hlen hm hhigh hstart hend =>
      have ho : s.files file = some f := ho
      have hsk := C43_seek_partial f low hi method p hlen (ht.within file f ho).1 hm hhigh hstart hend
      obtain ⟨q, hq⟩ : ∃ q, q = _root_.Spec.clamp (p + _root_.Spec.distance low hi) f.data.length := ⟨_, rfl⟩
      have hql : q ≤ f.data.length := by rw [hq]; unfold _root_.Spec.clamp; omega
      rw [← hq] at hsk ⊢
      obtain ⟨m, hms⟩ := storeOpt_some s.mem (leBytes 4 (q / 2 ^ 32)) (p := high) (by rw [leBytes_length]; exact hc)
      rw [if_neg (hf0 f ho), ho]
      dsimp only
      refine ⟨BitVec.ofNat 32 q, { s with files := setKey s.files file (some { f with position := q }), mem := m, lastError := 0 },
        ?_, rfl, rfl, BitVec.toNat_ofNat .., fun hne => numberAt_store hms hne ?_⟩
      · show (f.seek low hi method >>= _) = _
        rw [hsk]
        show (Mem.storeOpt s.mem high (leBytes 4 (q / 2 ^ 32)) >>= _) = _
        rw [hms]
        rfl
      · rw [Nat.div_lt_iff_lt_mul (by decide)]
        show q < 2 ^ 64
        omega
    | seekUnknown _ f _ _ _ ho hm =>
      have ho : s.files file = some f := ho
      rw [if_neg (hf0 f ho), ho]
      dsimp only
      refine ⟨0xFFFFFFFF, { s with lastError := 87 }, ?_, rfl, rfl, rfl⟩
      show (f.seek low hi method >>= _) = _
      rw [C43_unknown_origin f low hi method hm]
      rfl
    | fileInvalid _ _ ho =>
      have ho : s.files file = none := ho
      rw [ho]
      refine ⟨0xFFFFFFFF, { s with lastError := 6 }, ?_, rfl, rfl, rfl⟩
      split <;> rfl
  | info hd cls buffer size needed =>
    obtain ⟨hb0, hbw, hn4, hap⟩ := hc
    have h : Says x (sessionOf s) (.getInfo hd cls size) o σ := h
    have hbuf : ¬ (buffer = 0 ∧ 0 < size.toNat) := by
      rintro ⟨h1, h2⟩
      rw [hb0 h1] at h2
      exact absurd h2 (by decide)
    have hnz : s.files hd ≠ none ∨ s.archives hd ≠ none → hd ≠ 0 := by
      rintro (h1 | h1) h0
      · exact h1 (ht.fileNew hd (Or.inl h0))
      · exact h1 (ht.archiveNew hd (Or.inl h0))
    have hnofile : s.archives hd ≠ none → s.files hd = none := fun h1 => (ht.apart hd).resolve_right h1
    show ∃ v s', s.info hd cls buffer size needed = _ ∧ _
    unfold Client.info
    rw [if_neg hbuf]
    cases h with
    | fileInfo _ f _ _ v ho hv hs =>
      have ho : s.files hd = some f := ho
      rw [if_neg (hnz (Or.inl (by rw [ho]; nofun))), ho]
      dsimp only
      have hw := ht.within hd f ho
      rcases hv with ⟨rfl, rfl⟩ | ⟨rfl, rfl⟩
      · rw [if_pos rfl]
        obtain ⟨s', h1, h2, h3, h4, h5⟩ := giveInfo_fits (s := s) hn4 hbw hap (by decide) hs (show f.size < 256 ^ 8 by omega)
        exact ⟨1, s', h1, h2, h3, rfl, h4, h5⟩
      · rw [if_neg (by decide), if_pos rfl]
        obtain ⟨s', h1, h2, h3, h4, h5⟩ := giveInfo_fits (s := s) hn4 hbw hap (by decide) hs (show f.position < 256 ^ 8 by omega)
        exact ⟨1, s', h1, h2, h3, rfl, h4, h5⟩
    | archiveInfo _ a _ _ v ho hv =>
      have ho : s.archives hd = some a := ho
      have hne : s.archives hd ≠ none := by rw [ho]; nofun
      rw [if_neg (hnz (Or.inr hne)), hnofile hne, ho]
      dsimp only
      rcases hv with ⟨rfl, rfl, hs⟩ | ⟨rfl, rfl, hs⟩ | ⟨rfl, rfl, hs⟩ | ⟨rfl, h23, rfl, hs⟩
      · rw [if_pos rfl]
        obtain ⟨s', h1, h2, h3, h4, h5⟩ := giveInfo_fits (s := s) hn4 hbw hap (by decide) hs
          (show a.archive.header.getArchiveSize.toNat < 256 ^ 8 by have := a.archive.header.getArchiveSize.isLt; omega)
        exact ⟨1, s', h1, h2, h3, rfl, h4, h5⟩
      · rw [if_neg (by decide), if_pos rfl]
        obtain ⟨s', h1, h2, h3, h4, h5⟩ := giveInfo_fits (s := s) hn4 hbw hap (by decide) hs
          (show a.archive.header.hashTableSize.toNat < 256 ^ 4 by have := a.archive.header.hashTableSize.isLt; omega)
        exact ⟨1, s', h1, h2, h3, rfl, h4, h5⟩
      · rw [if_neg (by decide), if_neg (by decide), if_pos rfl]
        obtain ⟨s', h1, h2, h3, h4, h5⟩ := giveInfo_fits (s := s) hn4 hbw hap (by decide) hs
          (show a.archive.header.blockTableSize.toNat < 256 ^ 4 by have := a.archive.header.blockTableSize.isLt; omega)
        exact ⟨1, s', h1, h2, h3, rfl, h4, h5⟩
      · have hlt : 512 * 2 ^ a.archive.header.blockSize.toNat < 256 ^ 4 := by
          have := Nat.pow_le_pow_right (show 0 < 2 by decide) (show a.archive.header.blockSize.toNat ≤ 22 by omega)
          omega
        have hss : sectorSizeOf a.archive.header.blockSize = .ok (512 * 2 ^ a.archive.header.blockSize.toNat) := by
          unfold sectorSizeOf
          rw [if_pos (by omega), Nat.mod_eq_of_lt (by omega)]
        rw [if_neg (by decide), if_neg (by decide), if_neg (by decide), if_pos rfl, hss]
        obtain ⟨s', h1, h2, h3, h4, h5⟩ := giveInfo_fits (s := s) hn4 hbw hap (by decide) hs hlt
        exact ⟨1, s', h1, h2, h3, rfl, h4, h5⟩
    | infoShort _ _ _ ho =>
      rcases ho with ⟨ho, hcl, hs⟩ | ⟨ho, hcl⟩
      · have ho : s.files hd ≠ none := ho
        obtain ⟨f, hf⟩ := Option.ne_none_iff_exists'.1 ho
        rw [if_neg (hnz (Or.inl ho)), hf]
        dsimp only
        rcases hcl with rfl | rfl
        · rw [if_pos rfl]
          obtain ⟨s', h1, h2, h3⟩ := giveInfo_short (s := s) (buffer := buffer) (value := .ok f.size) hn4 hs
          exact ⟨0, s', h1, h2, h3, rfl⟩
        · rw [if_neg (by decide), if_pos rfl]
          obtain ⟨s', h1, h2, h3⟩ := giveInfo_short (s := s) (buffer := buffer) (value := .ok f.position) hn4 hs
          exact ⟨0, s', h1, h2, h3, rfl⟩
      · have ho : s.archives hd ≠ none := ho
        obtain ⟨a, ha⟩ := Option.ne_none_iff_exists'.1 ho
        rw [if_neg (hnz (Or.inr ho)), hnofile ho, ha]
        dsimp only
        rcases hcl with ⟨rfl, hs⟩ | ⟨rfl | rfl | rfl, hs⟩
        · rw [if_pos rfl]
          obtain ⟨s', h1, h2, h3⟩ := giveInfo_short (s := s) (buffer := buffer) (value := .ok _) hn4 hs
          exact ⟨0, s', h1, h2, h3, rfl⟩
        · rw [if_neg (by decide), if_pos rfl]
          obtain ⟨s', h1, h2, h3⟩ := giveInfo_short (s := s) (buffer := buffer) (value := .ok _) hn4 hs
          exact ⟨0, s', h1, h2, h3, rfl⟩
        · rw [if_neg (by decide), if_neg (by decide), if_pos rfl]
          obtain ⟨s', h1, h2, h3⟩ := giveInfo_short (s := s) (buffer := buffer) (value := .ok _) hn4 hs
          exact ⟨0, s', h1, h2, h3, rfl⟩
        · rw [if_neg (by decide), if_neg (by decide), if_neg (by decide), if_pos rfl]
          obtain ⟨s', h1, h2, h3⟩ := giveInfo_short (s := s) (buffer := buffer) (value := sectorSizeOf a.archive.header.blockSize) hn4 hs
          exact ⟨0, s', h1, h2, h3, rfl⟩
    | infoUnknown _ _ _ ho =>
      refine ⟨0, { s with lastError := 50 }, ?_, rfl, rfl, rfl⟩
      rcases ho with ⟨ho, h1, h2⟩ | ⟨ho, h1, h2, h3, h4⟩
      · have ho : s.files hd ≠ none := ho
        obtain ⟨f, hf⟩ := Option.ne_none_iff_exists'.1 ho
        rw [if_neg (hnz (Or.inl ho)), hf]
        dsimp only
        rw [if_neg h1, if_neg h2]
        rfl
      · have ho : s.archives hd ≠ none := ho
        obtain ⟨a, ha⟩ := Option.ne_none_iff_exists'.1 ho
        rw [if_neg (hnz (Or.inr ho)), hnofile ho, ha]
        dsimp only
        rw [if_neg h1, if_neg h2, if_neg h3, if_neg h4]
        rfl
    | infoInvalid _ _ _ hf ha =>
      have hf : s.files hd = none := hf
      have ha : s.archives hd = none := ha
      rw [hf, ha]
      refine ⟨0, { s with lastError := 6 }, ?_, rfl, rfl, rfl⟩
      split <;> rfl
  | archiveName archive buffer size =>
    have h : Says x (sessionOf s) (.onArchive archive (.archiveName size)) o σ := h
    have hc : buffer ≠ 0 := hc
    show ∃ v s', s.archiveName archive buffer size = _ ∧ _
    unfold Client.archiveName
    have ha0 : ∀ a, s.archives archive = some a → archive ≠ 0 := by
      intro a ha h0
      have := ht.archiveNew archive (Or.inl h0)
      rw [show (sessionOf s).archives archive = some a from ha] at this
      cases this
    cases h with
    | archiveName _ a _ ho hs =>
      have ho : s.archives archive = some a := ho
      have hz : size ≠ 0#32 := by rintro rfl; exact absurd hs (by simp)
      have := ht.paths archive a ho
      rw [if_neg (by simp [hc, hz]), if_neg (ha0 a ho), ho]
      dsimp only
      rw [if_neg (by simpa using this), if_neg (by omega)]
      exact ⟨1, _, rfl, rfl, rfl, rfl, Mem.write_at _ _ _⟩
    | archiveNameShort _ a _ ho hs hz =>
      have ho : s.archives archive = some a := ho
      have := ht.paths archive a ho
      rw [if_neg (by simp [hc, hz]), if_neg (ha0 a ho), ho]
      dsimp only
      rw [if_neg (by simpa using this), if_pos (by omega)]
      exact ⟨0, { s with lastError := 122 }, rfl, rfl, rfl, rfl⟩
    | archiveNameEmpty _ =>
      rw [if_pos (Or.inr rfl)]
      exact ⟨0, { s with lastError := 87 }, rfl, rfl, rfl, rfl⟩
    | archiveNameInvalid _ _ ho hz =>
      have ho : s.archives archive = none := ho
      rw [if_neg (by simp [hc, hz]), ho]
      refine ⟨0, { s with lastError := 6 }, ?_, rfl, rfl, rfl⟩
      split <;> rfl
  | fileName file buffer =>
    have h : Says x (sessionOf s) (.onFile file .name) o σ := h
    have hc : buffer ≠ 0 := hc
    show ∃ v s', s.fileName file buffer = _ ∧ _
    unfold Client.fileName
    rw [if_neg hc]
    cases h with
    | fileName _ f ho =>
      have ho : s.files file = some f := ho
      have hf0 : file ≠ 0 := by
        intro h0
        have := ht.fileNew file (Or.inl h0)
        rw [show (sessionOf s).files file = some f from ho] at this
        cases this
      have := (ht.within file f ho).2.2.2
      rw [if_neg hf0, ho]
      dsimp only
      rw [if_neg (by simpa using this)]
      exact ⟨1, _, rfl, rfl, rfl, rfl, Mem.write_at _ _ _⟩
    | fileInvalid _ _ ho =>
      have ho : s.files file = none := ho
      rw [ho]
      refine ⟨0, { s with lastError := 6 }, ?_, rfl, rfl, rfl⟩
      split <;> rfl

/-- C84: what a correct caller has to rely on for the next call holds again after each: `C84_answers` applies to all calls of a
program, if the names it gives are C strings and files are smaller than 2^63 bytes. -/
theorem C84_stays_tidy (x : FfiEnv) (σ σ' : Spec.Session) (m : Mem) (c : PtrCall) (o : Outcome) (ht : Tidy σ)
    (h : Says x σ (asked m c) o σ')
    (hname : ∀ archive name out, c = .openFile archive name out → 0#8 ∉ name ∧
      ∀ a info data, σ.archives archive = some a → a.archive.findFile name = .ok (some info) →
        a.archive.readFile x.env name = .ok data → data.length < 2 ^ 63 ∧ info.fileSize < 2 ^ 64) : Tidy σ' := by
  have move : ∀ (h : Nat) (f : FileHandle) (p : Nat), σ.files h = some f → p ≤ f.data.length →
      Tidy { σ with files := Spec.put σ.files h (some { f with position := p }) } := by
    intro h f p ho hp
    have hh : ¬ (h = 0 ∨ σ.next ≤ h) := by
      intro h0
      rw [ht.fileNew h h0] at ho
      cases ho
    refine ⟨ht.positive, ht.archiveNew, fun k hk => ?_, fun k => ?_, fun k g hg => ?_, ht.paths⟩
    · show (if k = h then _ else _) = _
      rw [if_neg (by rintro rfl; exact hh hk)]
      exact ht.fileNew k hk
    · by_cases hk : k = h
      · subst hk
        refine Or.inr ((ht.apart k).resolve_left ?_)
        rw [ho]
        nofun
      · rcases ht.apart k with h1 | h1
        · refine Or.inl ?_
          show (if k = h then _ else _) = _
          rw [if_neg hk, h1]
        · exact Or.inr h1
    · have hg : (if k = h then some { f with position := p } else σ.files k) = some g := hg
      split at hg
      · cases hg
        exact ⟨hp, (ht.within h f ho).2⟩
      · exact ht.within k g hg
  cases c with
  | openFile archive name out =>
    have h : Says x σ (.openFile archive name) o σ' := h
    cases h with
    | openFile _ _ a info data ho hf hr hn =>
      obtain ⟨h1, h2⟩ := hname archive name out rfl
      obtain ⟨h2, h3⟩ := h2 a info data ho hf hr
      refine ⟨Nat.succ_pos _, fun k hk => ht.archiveNew k ?_, fun k hk => ?_, fun k => ?_, fun k g hg => ?_, ht.paths⟩
      · have hk : k = 0 ∨ σ.next + 1 ≤ k := hk
        omega
      · have hk : k = 0 ∨ σ.next + 1 ≤ k := hk
        have := ht.positive
        show (if k = σ.next then _ else _) = _
        rw [if_neg (by omega)]
        exact ht.fileNew k (by omega)
      · by_cases hk : k = σ.next
        · exact Or.inr (ht.archiveNew k (by omega))
        · rcases ht.apart k with h1 | h1
          · refine Or.inl ?_
            show (if k = σ.next then _ else _) = _
            rw [if_neg hk, h1]
          · exact Or.inr h1
      · have hg : (if k = σ.next then some (⟨archive, name, data, 0, info.fileSize⟩ : FileHandle) else σ.files k) = some g := hg
        split at hg
        · cases hg
          exact ⟨Nat.zero_le _, h2, h3, h1⟩
        · exact ht.within k g hg
    | _ => exact ht
  | readFile file buffer toRead read =>
    have h : Says x σ (.onFile file (.read toRead)) o σ' := h
    cases h with
    | read _ f _ ho => exact move file f _ ho (Nat.min_le_right _ _)
    | _ => exact ht
  | setPointer file low high method =>
    have h : Says x σ (.onFile file (.seek low (if high = 0 then none else some (BitVec.ofNat 32 (numberAt m high 4))) method)) o σ' := h
    cases h with
    | seek _ f _ _ _ p ho => exact move file f _ ho (by unfold _root_.Spec.clamp; omega)
    | _ => exact ht
  | fileSize file high =>
    have h : Says x σ (.onFile file .size) o σ' := h
    cases h <;> exact ht
  | info hd cls buffer size needed =>
    have h : Says x σ (.getInfo hd cls size) o σ' := h
    cases h <;> exact ht
  | archiveName archive buffer size =>
    have h : Says x σ (.onArchive archive (.archiveName size)) o σ' := h
    cases h <;> exact ht
  | fileName file buffer =>
    have h : Says x σ (.onFile file .name) o σ' := h
    cases h <;> exact ht

/-- The program of `tenBytes`: one archive, one file of ten bytes, position 4. -/
theorem tenBytes_tidy (a : Archive) (mem : Mem) : Tidy (sessionOf (tenBytes a mem)) where
  positive := by show 0 < 3; decide
  archiveNew h hh := by
    have hh : h = 0 ∨ 3 ≤ h := hh
    show (if h = 1 then _ else _) = _
    rw [if_neg (by omega)]
  fileNew h hh := by
    have hh : h = 0 ∨ 3 ≤ h := hh
    show (if h = 2 then _ else _) = _
    rw [if_neg (by omega)]
  apart h := by
    by_cases h1 : h = 1
    · left
      show (if h = 2 then _ else _) = _
      rw [if_neg (by omega)]
    · right
      show (if h = 1 then _ else _) = _
      rw [if_neg h1]
  within h f hf := by
    have hf : (if h = 2 then some (⟨1, ascii "f", ascii "0123456789", 4, 10⟩ : FileHandle) else none) = some f := hf
    split at hf
    · cases hf
      decide
    · cases hf
  paths h b hb := by
    have hb : (if h = 1 then some (⟨a, ascii "a.mpq"⟩ : ArchiveHandle) else none) = some b := hb
    split at hb
    · cases hb
      show 0#8 ∉ ascii "a.mpq"
      decide
    · cases hb

/-- Two bytes forward: the position is 6, at 3000 are the bytes of the high half, which was 0 and is 0. -/
example (x : FfiEnv) (a : Archive) (mem : Mem) (hm : numberAt mem 3000 4 = 0) :
    ∃ s', (tenBytes a mem).call x (.setPointer 2 2#32 3000 1#32) = .ok (6#32, s') ∧ s'.lastError = 0#32 ∧
      numberAt s'.mem 3000 4 = 0 ∧ s'.files 2 = some ⟨1, ascii "f", ascii "0123456789", 6, 10⟩ := by
  have hs : Says x (sessionOf (tenBytes a mem)) (.onFile 2 (.seek 2#32 (some 0#32) 1#32))
      (.ok (.value 6)) _ :=
    Says.seek 2 ⟨1, ascii "f", ascii "0123456789", 4, 10⟩ 2#32 (some 0#32) 1#32 4 rfl (by decide) (by decide)
      (Or.inr (by decide)) (by decide) (by decide)
  have ha : asked mem (.setPointer 2 2#32 3000 1#32) = .onFile 2 (.seek 2#32 (some 0#32) 1#32) := by
    show Call.onFile 2 (.seek 2#32 (some (BitVec.ofNat 32 (numberAt mem 3000 4))) 1#32) = _
    rw [hm]
  obtain ⟨v, s', h, h1, h2, h3, h4⟩ := C84_answers x (tenBytes a mem) (.setPointer 2 2#32 3000 1#32) (tenBytes_tidy a mem) (by show 3000 % 4 = 0; decide) _ _
    (ha ▸ hs)
  refine ⟨s', ?_, h2, h4 (by decide), ?_⟩
  · rw [h]
    have : v = 6#32 := BitVec.eq_of_toNat_eq h3
    rw [this]
  · exact congrFun (congrArg Spec.Session.files h1) 2

end Mopaq
