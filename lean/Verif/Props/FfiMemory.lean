import Verif.Spec.FfiMemory
import Verif.Props.FfiFile
import Verif.Props.Deleted
import Verif.Props.Format

/-! # Which memory the C API writes to -/

namespace Mopaq

open _root_.Mopaq.Spec (Within At numberAt Lent LentOnFailure informationOf)

/-! ## C84 -/

theorem Mem.write_outside {m : Mem} {p : Nat} {bytes : List Byte} {a : Nat} (h : ¬ Within a p bytes.length) :
    m.write p bytes a = m a := by
  unfold Mem.write
  split
  · rw [List.getElem?_eq_none]
    · rfl
    · apply Nat.le_of_not_lt
      intro hl
      exact h ⟨by assumption, by omega⟩
  · rfl

theorem Mem.write_at (m : Mem) (p : Nat) (bytes : List Byte) : At (m.write p bytes) p bytes := by
  intro i b hb
  unfold Mem.write
  rw [if_pos (by omega), show p + i - p = i by omega, hb]
  rfl

theorem at_of_eq {m m' : Mem} {p : Nat} {bytes : List Byte} (h : At m p bytes)
    (he : ∀ a, Within a p bytes.length → m' a = m a) : At m' p bytes := by
  intro i b hb
  rw [he _ ⟨by omega, by have := (List.getElem?_eq_some_iff.1 hb).1; omega⟩]
  exact h i b hb

theorem numberAt_eq {m : Mem} {p n : Nat} {bytes : List Byte} (hl : bytes.length = n) (h : At m p bytes) :
    numberAt m p n = leNat bytes := by
  induction n generalizing p bytes with
  | zero => obtain rfl := List.length_eq_zero_iff.1 hl; rfl
  | succ n ih =>
    obtain ⟨b, bs, rfl⟩ := List.exists_cons_of_length_eq_add_one hl
    have h0 : m p = b := h 0 b rfl
    have ht : At m (p + 1) bs := by
      intro i c hc
      have := h (i + 1) c (by simpa using hc)
      rw [← this]
      congr 1
      omega
    show (m p).toNat + 256 * numberAt m (p + 1) n = _
    rw [ih (by simpa using hl) ht, h0]
    rfl

theorem store_ok {m m' : Mem} {p : Nat} {value : List Byte} (h : m.store p value = .ok m') : m' = m.write p value := by
  unfold Mem.store at h
  split at h
  · exact (Except.ok.inj h).symm
  · cases h

theorem storeOpt_ok {m m' : Mem} {p : Nat} {value : List Byte} (h : m.storeOpt p value = .ok m') {a : Nat}
    (ha : p ≠ 0 → ¬ Within a p value.length) : m' a = m a := by
  unfold Mem.storeOpt at h
  split at h
  · rw [← Except.ok.inj h]
  · rename_i hp
    rw [store_ok h]
    exact Mem.write_outside (ha hp)

theorem answer_ok {s s' : Client} {v code r : U32} (h : s.answer v code = .ok (r, s')) :
    r = v ∧ s' = { s with lastError := code } := by
  cases h
  exact ⟨rfl, rfl⟩

theorem read_ok_length {f f' : FileHandle} {n : U32} {bytes : List Byte} (h : f.read n = .ok (bytes, f')) :
    bytes.length ≤ n.toNat := by
  unfold FileHandle.read at h
  dsimp only at h
  split at h
  · cases h; exact Nat.zero_le _
  · split at h
    · cases h
      unfold slice
      rw [List.length_take]
      omega
    · cases h

theorem giveInfo_mem {s s' : Client} {buffer needed width : Nat} {size r : U32} {value : Res Nat}
    (h : s.giveInfo buffer size needed width value = .ok (r, s')) {a : Nat}
    (hn : needed ≠ 0 → ¬ Within a needed 4) (hb : s'.lastError = 0 → ¬ Within a buffer size.toNat) :
    s'.mem a = s.mem a := by
  unfold Client.giveInfo at h
  obtain ⟨m, hm, h⟩ := bind_eq_ok.1 h
  have e := storeOpt_ok hm (a := a) (by rw [leBytes_length]; exact hn)
  dsimp only at h
  split at h
  · rename_i hw
    obtain ⟨v, _, h⟩ := bind_eq_ok.1 h
    obtain ⟨m2, hm2, h⟩ := bind_eq_ok.1 h
    obtain ⟨_, rfl⟩ := answer_ok h
    show m2 a = _
    rw [store_ok hm2, Mem.write_outside, e]
    rw [leBytes_length]
    intro hw'
    exact hb rfl ⟨hw'.1, Nat.lt_of_lt_of_le hw'.2 (by omega)⟩
  · obtain ⟨_, rfl⟩ := answer_ok h
    exact e

theorem info_mem {s s' : Client} {hd buffer needed : Nat} {cls size r : U32}
    (h : s.info hd cls buffer size needed = .ok (r, s')) {a : Nat}
    (hn : needed ≠ 0 → ¬ Within a needed 4) (hb : s'.lastError = 0 → ¬ Within a buffer size.toNat) :
    s'.mem a = s.mem a := by
  unfold Client.info at h
  repeat' split at h
  all_goals first
    | exact giveInfo_mem h hn hb
    | (obtain ⟨_, rfl⟩ := answer_ok h; rfl)
    | skip
  all_goals (dsimp only at h; repeat' split at h)
  all_goals first
    | exact giveInfo_mem h hn hb
    | (obtain ⟨_, rfl⟩ := answer_ok h; rfl)

theorem openFile_mem {x : FfiEnv} {s s' : Client} {archive out : Nat} {name : List Byte} {r : U32}
    (h : s.openFile x archive name out = .ok (r, s')) {a : Nat} (ho : s'.lastError = 0 → ¬ Within a out 8) :
    s'.mem a = s.mem a := by
  unfold Client.openFile at h
  split at h
  · obtain ⟨_, rfl⟩ := answer_ok h; rfl
  split at h
  · obtain ⟨_, rfl⟩ := answer_ok h; rfl
  split at h
  · obtain ⟨_, rfl⟩ := answer_ok h; rfl
  obtain ⟨r1, _, h⟩ := bind_eq_ok.1 h
  split at h
  · obtain ⟨_, rfl⟩ := answer_ok h; rfl
  · obtain ⟨_, rfl⟩ := answer_ok h; rfl
  obtain ⟨r2, _, h⟩ := bind_eq_ok.1 h
  split at h
  · obtain ⟨_, rfl⟩ := answer_ok h; rfl
  split at h
  · obtain ⟨m, hm, h⟩ := bind_eq_ok.1 h
    obtain ⟨_, rfl⟩ := answer_ok h
    show m a = _
    rw [store_ok hm, Mem.write_outside]
    rw [leBytes_length]
    exact ho rfl
  · cases h

theorem readFile_mem {s s' : Client} {file buffer read : Nat} {toRead r : U32}
    (h : s.readFile file buffer toRead read = .ok (r, s')) {a : Nat}
    (hb : s'.lastError = 0 → ¬ Within a buffer toRead.toNat) (hr : s'.lastError = 0 → read ≠ 0 → ¬ Within a read 4) :
    s'.mem a = s.mem a := by
  unfold Client.readFile at h
  split at h
  · obtain ⟨_, rfl⟩ := answer_ok h; rfl
  split at h
  · obtain ⟨_, rfl⟩ := answer_ok h; rfl
  split at h
  · obtain ⟨_, rfl⟩ := answer_ok h; rfl
  obtain ⟨⟨bytes, f'⟩, hf, h⟩ := bind_eq_ok.1 h
  obtain ⟨m, hm, h⟩ := bind_eq_ok.1 h
  obtain ⟨_, rfl⟩ := answer_ok h
  show m a = _
  have hl := read_ok_length hf
  rw [storeOpt_ok hm (by rw [leBytes_length]; exact hr rfl), Mem.write_outside]
  intro hw
  exact hb rfl ⟨hw.1, Nat.lt_of_lt_of_le hw.2 (by omega)⟩

theorem fileSize_mem {s s' : Client} {file high : Nat} {r : U32} (h : s.fileSize file high = .ok (r, s')) {a : Nat}
    (ho : s'.lastError = 0 → high ≠ 0 → ¬ Within a high 4) : s'.mem a = s.mem a := by
  unfold Client.fileSize at h
  split at h
  · obtain ⟨_, rfl⟩ := answer_ok h; rfl
  split at h
  · obtain ⟨_, rfl⟩ := answer_ok h; rfl
  obtain ⟨m, hm, h⟩ := bind_eq_ok.1 h
  obtain ⟨_, rfl⟩ := answer_ok h
  exact storeOpt_ok hm (by rw [leBytes_length]; exact ho rfl)

theorem setPointer_mem {s s' : Client} {file high : Nat} {low method r : U32}
    (h : s.setPointer file low high method = .ok (r, s')) {a : Nat}
    (ho : s'.lastError = 0 → high ≠ 0 → ¬ Within a high 4) : s'.mem a = s.mem a := by
  unfold Client.setPointer at h
  split at h
  · obtain ⟨_, rfl⟩ := answer_ok h; rfl
  split at h
  · obtain ⟨_, rfl⟩ := answer_ok h; rfl
  obtain ⟨hh, _, h⟩ := bind_eq_ok.1 h
  obtain ⟨o, _, h⟩ := bind_eq_ok.1 h
  split at h
  · obtain ⟨_, rfl⟩ := answer_ok h; rfl
  obtain ⟨m, hm, h⟩ := bind_eq_ok.1 h
  obtain ⟨_, rfl⟩ := answer_ok h
  exact storeOpt_ok hm (by rw [leBytes_length]; exact ho rfl)

theorem archiveName_mem {s s' : Client} {archive buffer : Nat} {size r : U32}
    (h : s.archiveName archive buffer size = .ok (r, s')) {a : Nat}
    (ho : s'.lastError = 0 → ¬ Within a buffer size.toNat) : s'.mem a = s.mem a := by
  unfold Client.archiveName at h
  split at h
  · obtain ⟨_, rfl⟩ := answer_ok h; rfl
  split at h
  · obtain ⟨_, rfl⟩ := answer_ok h; rfl
  split at h
  · obtain ⟨_, rfl⟩ := answer_ok h; rfl
  split at h
  · obtain ⟨_, rfl⟩ := answer_ok h; rfl
  split at h
  · obtain ⟨_, rfl⟩ := answer_ok h; rfl
  obtain ⟨_, rfl⟩ := answer_ok h
  refine Mem.write_outside fun hw => ho rfl ⟨hw.1, Nat.lt_of_lt_of_le hw.2 ?_⟩
  rw [List.length_append, List.length_singleton]
  omega

/-- A call of `SFileGetFileName`. -/
def PtrCall.isFileName : PtrCall → Bool
  | .fileName .. => true
  | _ => false

/-- C84, all calls but `SFileGetFileName` (for which `C84_file_name_overruns` proves the opposite): whatever is open and
whatever is in memory, a call that returns has changed nothing but the memory its caller lent to it, and a call that
failed nothing but the place where it tells the size it needed. -/
theorem C84_writes_only_lent_partial (x : FfiEnv) (s s' : Client) (c : PtrCall) (hc : c.isFileName = false) (r : U32)
    (h : s.call x c = .ok (r, s')) (room a : Nat) :
    (¬ Lent room c a → s'.mem a = s.mem a) ∧ (s'.lastError ≠ 0 → ¬ LentOnFailure c a → s'.mem a = s.mem a) := by
  cases c with
  | openFile archive name out =>
    exact ⟨fun ha => openFile_mem h fun _ => ha, fun hf _ => openFile_mem h fun h0 => absurd h0 hf⟩
  | readFile file buffer toRead read =>
    exact ⟨fun ha => readFile_mem h (fun _ hw => ha (Or.inl hw)) (fun _ h0 hw => ha (Or.inr ⟨h0, hw⟩)),
      fun hf _ => readFile_mem h (fun h0 => absurd h0 hf) (fun h0 => absurd h0 hf)⟩
  | fileSize file high =>
    exact ⟨fun ha => fileSize_mem h fun _ h0 hw => ha ⟨h0, hw⟩, fun hf _ => fileSize_mem h fun h0 => absurd h0 hf⟩
  | setPointer file low high method =>
    exact ⟨fun ha => setPointer_mem h fun _ h0 hw => ha ⟨h0, hw⟩, fun hf _ => setPointer_mem h fun h0 => absurd h0 hf⟩
  | info hd cls buffer size needed =>
    exact ⟨fun ha => info_mem h (fun h0 hw => ha (Or.inr ⟨h0, hw⟩)) (fun _ hw => ha (Or.inl hw)),
      fun hf ha => info_mem h (fun h0 hw => ha ⟨h0, hw⟩) (fun h0 => absurd h0 hf)⟩
  | archiveName archive buffer size =>
    exact ⟨fun ha => archiveName_mem h fun _ => ha, fun hf _ => archiveName_mem h fun h0 => absurd h0 hf⟩
  | fileName file buffer => cases hc

/-- C84: a read puts the bytes at the position of the file into the buffer, as many as were asked for or are left, and
their number where the caller wants it (if that is not inside the buffer). -/
theorem C84_read_delivers (x : FfiEnv) (s : Client) (file buffer read : Nat) (toRead : U32) (f : FileHandle)
    (hh : file ≠ 0) (hb : buffer ≠ 0) (hf : s.files file = some f) (hp : f.position ≤ f.data.length)
    (ha : read % 4 = 0) (hd : ∀ a, Within a read 4 → ¬ Within a buffer toRead.toNat) :
    ∃ s', s.call x (.readFile file buffer toRead read) = .ok (1, s') ∧
      At s'.mem buffer ((f.data.drop f.position).take toRead.toNat) ∧
      (read ≠ 0 → numberAt s'.mem read 4 = min toRead.toNat (f.data.length - f.position)) ∧
      s'.files file = some { f with position := min (f.position + toRead.toNat) f.data.length } := by
  have hr := C42_read_piece f toRead hp
  obtain ⟨piece, hpc⟩ : ∃ p, p = (f.data.drop f.position).take toRead.toNat := ⟨_, rfl⟩
  obtain ⟨f', hf'⟩ : ∃ g, g = ({ f with position := min (f.position + toRead.toNat) f.data.length } : FileHandle) := ⟨_, rfl⟩
  rw [← hpc, ← hf'] at hr ⊢
  have hl : piece.length = min toRead.toNat (f.data.length - f.position) := by
    rw [hpc, List.length_take, List.length_drop]
  have ht := toRead.isLt
  have hv : leNat (leBytes 4 piece.length) = piece.length := by
    rw [leNat_leBytes, Nat.mod_eq_of_lt (by omega)]
  by_cases h0 : read = 0
  · refine ⟨{ s with files := setKey s.files file (some f'), mem := s.mem.write buffer piece, lastError := 0 }, ?_,
      Mem.write_at _ _ _, fun h => absurd h0 h, ?_⟩
    · show s.readFile file buffer toRead read = _
      unfold Client.readFile
      rw [if_neg hb, if_neg hh, hf]
      dsimp only
      rw [hr]
      refine bind_eq_ok.2 ⟨_, rfl, bind_eq_ok.2 ⟨s.mem.write buffer piece, ?_, rfl⟩⟩
      unfold Mem.storeOpt
      rw [if_pos h0]
    · show setKey s.files file (some f') file = _
      unfold setKey
      rw [if_pos rfl]
  · refine ⟨{ s with files := setKey s.files file (some f'),
                     mem := (s.mem.write buffer piece).write read (leBytes 4 piece.length), lastError := 0 }, ?_, ?_, ?_, ?_⟩
    · show s.readFile file buffer toRead read = _
      unfold Client.readFile
      rw [if_neg hb, if_neg hh, hf]
      dsimp only
      rw [hr]
      refine bind_eq_ok.2 ⟨_, rfl, bind_eq_ok.2 ⟨(s.mem.write buffer piece).write read (leBytes 4 piece.length), ?_, rfl⟩⟩
      unfold Mem.storeOpt Mem.store
      rw [if_neg h0, if_pos (by rw [leBytes_length]; exact ha)]
    · refine at_of_eq (Mem.write_at s.mem buffer piece) fun a hw => Mem.write_outside fun hw' => ?_
      rw [leBytes_length] at hw'
      exact hd a hw' ⟨hw.1, Nat.lt_of_lt_of_le hw.2 (by omega)⟩
    · intro _
      rw [numberAt_eq (leBytes_length _ _) (Mem.write_at _ _ _), hv, hl]
    · show setKey s.files file (some f') file = _
      unfold setKey
      rw [if_pos rfl]

/-- The branch of the call that is taken. -/
theorem info_eq {s : Client} {h buffer needed : Nat} {cls size : U32} {width value : Nat} (hh : h ≠ 0)
    (hb : buffer ≠ 0 ∨ size.toNat = 0) (hi : informationOf s h cls = some (width, value))
    (hs : ∀ a, s.archives h = some a → a.archive.header.blockSize.toNat < 55) :
    s.info h cls buffer size needed = s.giveInfo buffer size needed width (.ok value) := by
  unfold Client.info
  rw [if_neg (by omega), if_neg hh]
  unfold informationOf at hi
  cases hf : s.files h with
  | some f =>
    rw [hf] at hi
    dsimp only at hi ⊢
    split at hi
    · cases hi; rw [if_pos (by assumption)]
    · split at hi
      · cases hi; rw [if_neg (by assumption), if_pos (by assumption)]
      · cases hi
  | none =>
    cases ha : s.archives h with
    | none => rw [hf, ha] at hi; cases hi
    | some a =>
      rw [hf, ha] at hi
      dsimp only at hi ⊢
      split at hi
      · cases hi; rw [if_pos (by assumption)]
      rw [if_neg (by assumption)]
      split at hi
      · cases hi; rw [if_pos (by assumption)]
      rw [if_neg (by assumption)]
      split at hi
      · cases hi; rw [if_pos (by assumption)]
      rw [if_neg (by assumption)]
      split at hi
      · cases hi
        rw [if_pos (by assumption)]
        congr 1
        have hlt := hs a ha
        unfold sectorSizeOf
        rw [if_pos (by omega), Nat.mod_eq_of_lt]
        calc 512 * 2 ^ a.archive.header.blockSize.toNat = 2 ^ (9 + a.archive.header.blockSize.toNat) := by rw [Nat.pow_add]
          _ < 2 ^ 64 := Nat.pow_lt_pow_right (by decide) (by omega)
      · cases hi

theorem informationOf_width {s : Client} {h : Nat} {cls : U32} {width value : Nat} (hi : informationOf s h cls = some (width, value)) :
    width = 4 ∨ width = 8 := by
  unfold informationOf at hi
  repeat' split at hi
  all_goals first
    | (cases hi; exact Or.inr rfl)
    | (cases hi; exact Or.inl rfl)
    | cases hi
    | skip
  all_goals (dsimp only at hi; repeat' split at hi)
  all_goals first
    | (cases hi; exact Or.inr rfl)
    | (cases hi; exact Or.inl rfl)
    | cases hi

/-- C84: information asked for in two calls. The first, without a buffer, fails with `ERROR_INSUFFICIENT_BUFFER` and tells
the size needed. The second, with a buffer of that size, succeeds and puts the number there (as far as it fits), if the
buffer is at a multiple of its size and (for the sector size) the archive has one. -/
theorem C84_info_in_two_calls (x : FfiEnv) (s : Client) (h : Nat) (cls : U32) (needed : Nat) (width value : Nat) (hh : h ≠ 0)
    (hi : informationOf s h cls = some (width, value)) (hs : ∀ a, s.archives h = some a → a.archive.header.blockSize.toNat < 55)
    (hn : needed ≠ 0) (ha : needed % 4 = 0) :
    ∃ s', s.call x (.info h cls 0 0 needed) = .ok (0, s') ∧ s'.lastError = 122 ∧ numberAt s'.mem needed 4 = width ∧
      ∀ buffer, buffer ≠ 0 → buffer % width = 0 →
        ∃ s'', s'.call x (.info h cls buffer (BitVec.ofNat 32 (numberAt s'.mem needed 4)) needed) = .ok (1, s'') ∧
          s''.lastError = 0 ∧ numberAt s''.mem buffer width = value % 256 ^ width := by
  have hw := informationOf_width hi
  have hstore : ∀ m : Mem, m.storeOpt needed (leBytes 4 width) = .ok (m.write needed (leBytes 4 width)) := by
    intro m
    unfold Mem.storeOpt Mem.store
    rw [if_neg hn, if_pos (by rw [leBytes_length]; exact ha)]
  have hnum : ∀ m : Mem, numberAt (m.write needed (leBytes 4 width)) needed 4 = width := by
    intro m
    rw [numberAt_eq (leBytes_length _ _) (Mem.write_at _ _ _), leNat_leBytes, Nat.mod_eq_of_lt (by omega)]
  refine ⟨{ s with mem := s.mem.write needed (leBytes 4 width), lastError := 122 }, ?_, rfl, hnum _, ?_⟩
  · show s.info h cls 0 0 needed = _
    rw [info_eq hh (Or.inr rfl) hi hs]
    unfold Client.giveInfo
    refine bind_eq_ok.2 ⟨_, hstore _, ?_⟩
    rw [if_neg (by show ¬ width ≤ 0; omega)]
    rfl
  · intro buffer hb hm
    obtain ⟨m, hmm⟩ : ∃ m, m = s.mem.write needed (leBytes 4 width) := ⟨_, rfl⟩
    refine ⟨{ s with mem := (m.write needed (leBytes 4 width)).write buffer (leBytes width value), lastError := 0 }, ?_, rfl, ?_⟩
    · show Client.info _ h cls buffer _ needed = _
      dsimp only
      rw [hnum, ← hmm, info_eq hh (Or.inl hb) (s := { s with mem := m, lastError := 122 }) hi hs]
      unfold Client.giveInfo
      refine bind_eq_ok.2 ⟨_, hstore _, ?_⟩
      rw [if_pos (by rw [BitVec.toNat_ofNat, Nat.mod_eq_of_lt (by omega)]; omega)]
      refine bind_eq_ok.2 ⟨_, rfl, bind_eq_ok.2 ⟨(m.write needed (leBytes 4 width)).write buffer (leBytes width value), ?_, rfl⟩⟩
      unfold Mem.store
      rw [if_pos (by rw [leBytes_length]; exact hm)]
    · rw [numberAt_eq (leBytes_length _ _) (Mem.write_at _ _ _), leNat_leBytes]

/-- C84: but a buffer that is large enough and not at a multiple of the size of the number, as an array of bytes may well
be, is stored to all the same: a program built with checks is brought down by the question. -/
theorem C84_info_misaligned (x : FfiEnv) (s : Client) (h : Nat) (cls : U32) (buffer width value : Nat) (size : U32) (hh : h ≠ 0)
    (hi : informationOf s h cls = some (width, value)) (hs : ∀ a, s.archives h = some a → a.archive.header.blockSize.toNat < 55)
    (hsize : width ≤ size.toNat) (hm : buffer % width ≠ 0) : s.call x (.info h cls buffer size 0) = .error .panic := by
  show s.info h cls buffer size 0 = _
  rw [info_eq hh (Or.inl (fun h0 => hm (by rw [h0]; exact Nat.zero_mod _))) hi hs]
  unfold Client.giveInfo Mem.storeOpt
  rw [if_pos rfl]
  show (if width ≤ size.toNat then _ else _) = _
  rw [if_pos hsize]
  show (Mem.store s.mem buffer (leBytes width value) >>= _) = _
  unfold Mem.store
  rw [if_neg (by rw [leBytes_length]; exact hm)]
  rfl

/-- C84: the path of an archive is put into the buffer with a zero byte behind it if the buffer has room for both;
otherwise the call fails with `ERROR_INSUFFICIENT_BUFFER` and leaves the memory alone. -/
theorem C84_archive_name (x : FfiEnv) (s : Client) (h buffer : Nat) (size : U32) (a : ArchiveHandle) (hh : h ≠ 0)
    (hb : buffer ≠ 0) (hz : size ≠ 0#32) (ha : s.archives h = some a) (hp : 0#8 ∉ a.path) :
    (a.path.length < size.toNat → ∃ s', s.call x (.archiveName h buffer size) = .ok (1, s') ∧ s'.lastError = 0 ∧
      At s'.mem buffer (a.path ++ [0#8])) ∧
    (size.toNat ≤ a.path.length → s.call x (.archiveName h buffer size) = .ok (0, { s with lastError := 122 })) := by
  have e : s.call x (.archiveName h buffer size) =
      if size.toNat < a.path.length + 1 then s.answer 0 errorInsufficientBuffer
      else { s with mem := s.mem.write buffer (a.path ++ [0#8]) }.answer 1 0 := by
    show s.archiveName h buffer size = _
    unfold Client.archiveName
    rw [if_neg (by simp [hb, hz]), if_neg hh, ha]
    dsimp only
    rw [if_neg (by simpa using hp)]
  rw [e]
  constructor
  · intro hl
    rw [if_neg (by omega)]
    exact ⟨_, rfl, rfl, Mem.write_at _ _ _⟩
  · intro hl
    rw [if_pos (by omega)]
    rfl

/-- C84: `SFileGetFileName` puts the whole name and a zero byte into the memory at `buffer`, however large the caller's
buffer is: the call has no parameter to tell. -/
theorem C84_file_name (x : FfiEnv) (s : Client) (h buffer : Nat) (f : FileHandle) (hh : h ≠ 0) (hb : buffer ≠ 0)
    (hf : s.files h = some f) (hp : 0#8 ∉ f.filename) :
    ∃ s', s.call x (.fileName h buffer) = .ok (1, s') ∧ At s'.mem buffer (f.filename ++ [0#8]) ∧
      ∀ a, ¬ Within a buffer (f.filename.length + 1) → s'.mem a = s.mem a := by
  refine ⟨{ s with mem := s.mem.write buffer (f.filename ++ [0#8]), lastError := 0 }, ?_, Mem.write_at _ _ _, ?_⟩
  · show s.fileName h buffer = _
    unfold Client.fileName
    rw [if_neg hb, if_neg hh, hf]
    dsimp only
    rw [if_neg (by simpa using hp)]
    rfl
  · intro a ha
    refine Mem.write_outside ?_
    rw [List.length_append, List.length_singleton]
    exact ha

/-- A program that has opened one archive, with a byte of content under every name. -/
def onlyArchive (a : Archive) (mem : Mem) : Client :=
  { next := 2, archives := fun h => if h = 1 then some ⟨a, ascii "a.mpq"⟩ else none, files := fun _ => none, mem, lastError := 0 }

theorem storedOne_read (env : Env) {k1 k2 : U32} {name : List Byte} (h1 : hashString name htNameA = k1)
    (h2 : hashString name htNameB = k2) : (storedOne k1 k2 [7] 1 1 0x81000000).readFile env name = .ok [7] := by
  unfold Archive.readFile
  rw [storedOne_find h1 h2 [7] 1 1 0x81000000]
  rfl

/-- C84 does not hold of `SFileGetFileName`: for buffers of every size there is an archive with a file that can be opened
and whose name, asked for, is written beyond the end of the buffer, whatever is in memory. -/
theorem C84_file_name_overruns (x : FfiEnv) (room : Nat) : ∃ (a : Archive) (name : List Byte), ∀ (mem : Mem) (out buffer : Nat),
    out ≠ 0 → out % 8 = 0 → buffer ≠ 0 → ¬ Within (buffer + room) out 8 → mem (buffer + room) ≠ 0x61#8 →
    ∃ s s', (onlyArchive a mem).call x (.openFile 1 name out) = .ok (1, s) ∧ s.call x (.fileName 2 buffer) = .ok (1, s') ∧
      ¬ Lent room (.fileName 2 buffer) (buffer + room) ∧ s'.mem (buffer + room) ≠ s.mem (buffer + room) := by
  obtain ⟨name, hname⟩ : ∃ n, n = List.replicate (room + 1) 0x61#8 := ⟨_, rfl⟩
  obtain ⟨k1, e1⟩ : ∃ k, hashString name htNameA = k := ⟨_, rfl⟩
  obtain ⟨k2, e2⟩ : ∃ k, hashString name htNameB = k := ⟨_, rfl⟩
  have hf := storedOne_find e1 e2 [7] 1 1 0x81000000
  have hr := storedOne_read x.env e1 e2
  generalize storedOne k1 k2 [7] 1 1 0x81000000 = a at hf hr
  refine ⟨a, name, ?_⟩
  intro mem out buffer ho ho8 hb hout hmem
  obtain ⟨s, hs⟩ : ∃ s : Client, s = { onlyArchive a mem with
    next := 3
    files := insertKey (fun _ => none) 2 ⟨1, name, [7], 0, 1⟩
    mem := mem.write out (leBytes 8 2)
    lastError := 0 } := ⟨_, rfl⟩
  have hopen : (onlyArchive a mem).call x (.openFile 1 name out) = .ok (1, s) := by
    show (onlyArchive a mem).openFile x 1 name out = _
    unfold Client.openFile
    rw [if_neg ho, if_neg (by decide), show (onlyArchive a mem).archives 1 = some ⟨a, ascii "a.mpq"⟩ from rfl]
    dsimp only
    rw [hf, hr, hs]
    refine bind_eq_ok.2 ⟨_, rfl, bind_eq_ok.2 ⟨_, rfl, ?_⟩⟩
    dsimp only
    rw [if_pos (by show 2 + 1 < 2 ^ 64; decide)]
    refine bind_eq_ok.2 ⟨mem.write out (leBytes 8 2), ?_, rfl⟩
    show Mem.store mem out _ = _
    unfold Mem.store
    rw [if_pos (by rw [leBytes_length]; exact ho8)]
    rfl
  have hsf : s.files 2 = some ⟨1, name, [7], 0, 1⟩ := by rw [hs]; rfl
  obtain ⟨s', h1, h2, _⟩ := C84_file_name x s 2 buffer _ (by decide) hb hsf (by
    rw [hname]
    intro hmem
    have := List.eq_of_mem_replicate hmem
    revert this
    decide)
  refine ⟨s, s', hopen, h1, ?_, ?_⟩
  · show ¬ Within (buffer + room) buffer room
    intro hw
    exact absurd hw.2 (Nat.lt_irrefl _)
  · have e : s'.mem (buffer + room) = 0x61#8 := h2 room _ (by
      rw [hname, List.getElem?_append_left (by rw [List.length_replicate]; omega), List.getElem?_replicate, if_pos (by omega)])
    have e' : s.mem (buffer + room) = mem (buffer + room) := by
      rw [hs]
      refine Mem.write_outside ?_
      rw [leBytes_length]
      exact hout
    rw [e, e']
    exact fun h => hmem h.symm

/-- A file of ten bytes is open at position 4. -/
def tenBytes (a : Archive) (mem : Mem) : Client :=
  { onlyArchive a mem with
    next := 3
    files := fun h => if h = 2 then some ⟨1, ascii "f", ascii "0123456789", 4, 10⟩ else none }

/-- A buffer for three bytes at address 1000. -/
example (x : FfiEnv) (a : Archive) (mem : Mem) : ∃ s', (tenBytes a mem).call x (.readFile 2 1000 3 2000) = .ok (1, s') ∧ At s'.mem 1000 (ascii "456") ∧ numberAt s'.mem 2000 4 = 3 ∧
    s'.mem 1003 = mem 1003 := by
  obtain ⟨s', h, h1, h2, _⟩ := C84_read_delivers x (tenBytes a mem) 2 1000 2000 3 ⟨1, ascii "f", ascii "0123456789", 4, 10⟩ (by decide) (by decide) rfl (by decide) (by decide)
    (by
      intro b hw hw'
      have h1 := hw.1
      have h2 : b < 1000 + 3 := hw'.2
      omega)
  refine ⟨s', h, h1, h2 (by decide), (C84_writes_only_lent_partial x _ s' _ rfl 1 h 0 1003).1 ?_⟩
  rintro (hw | ⟨_, hw⟩)
  · have h2 : 1003 < 1000 + 3 := hw.2
    omega
  · have h2 := hw.1
    omega

/-- The position of that file is asked for: with a buffer at 1000 the answer is 4, with one at 1001 the program is brought
down. -/
example (x : FfiEnv) (a : Archive) (mem : Mem) (s : Client) (hs : s = tenBytes a mem) :
    (∃ s' s'', s.call x (.info 2 10 0 0 2000) = .ok (0, s') ∧ s'.call x (.info 2 10 1000 8 2000) = .ok (1, s'') ∧
      numberAt s''.mem 1000 8 = 4) ∧ s.call x (.info 2 10 1001 8 0) = .error .panic := by
  have hi : informationOf s 2 10 = some (8, 4) := by rw [hs]; rfl
  have ha : ∀ b, s.archives 2 = some b → b.archive.header.blockSize.toNat < 55 := by
    intro b hb
    rw [hs] at hb
    cases hb
  constructor
  · obtain ⟨s', h, _, h2, h3⟩ := C84_info_in_two_calls x s 2 10 2000 8 4 (by decide) hi ha (by decide) (by decide)
    obtain ⟨s'', h4, _, h5⟩ := h3 1000 (by decide) (by decide)
    rw [h2] at h4
    exact ⟨s', s'', h, h4, h5⟩
  · exact C84_info_misaligned x s 2 10 1001 8 4 8 (by decide) hi ha (by decide) (by decide)

/-- The path of the archive fits into a buffer of six bytes and not into one of five. -/
example (x : FfiEnv) (a : Archive) (mem : Mem) :
    (∃ s', (onlyArchive a mem).call x (.archiveName 1 1000 6) = .ok (1, s') ∧ At s'.mem 1000 (ascii "a.mpq" ++ [0#8])) ∧
    (onlyArchive a mem).call x (.archiveName 1 1000 5) = .ok (0, { onlyArchive a mem with lastError := 122 }) := by
  have h := fun size hz => C84_archive_name x (onlyArchive a mem) 1 1000 size ⟨a, ascii "a.mpq"⟩ (by decide) (by decide) hz
    rfl (by show 0#8 ∉ ascii "a.mpq"; decide)
  obtain ⟨s', h1, _, h2⟩ := (h 6 (by decide)).1 (by show (ascii "a.mpq").length < 6; decide)
  exact ⟨⟨s', h1, h2⟩, (h 5 (by decide)).2 (by show 5 ≤ (ascii "a.mpq").length; decide)⟩

end Mopaq
