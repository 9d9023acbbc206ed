import Verif.Props.FfiSession
import Verif.Props.FfiVerify
import Verif.Props.Signature
import Verif.Props.Analyze
import Verif.Props.Truncated

/-! # C76: verifying an archive through the C API -/

namespace Mopaq

/-- The answer of the library that is good enough: a valid signature, none at all, or one whose key is not known. -/
def Spec.Passes (r : Res SignatureStatus) : Prop :=
  r = .ok .weakValid ∨ r = .ok .strongValid ∨ r = .ok .none ∨ r = .ok .strongNoKey

/-- The answer that is not: an invalid signature or an error. -/
def Spec.Fails (r : Res SignatureStatus) : Prop :=
  r = .ok .weakInvalid ∨ r = .ok .strongInvalid ∨ ∃ err, r = .error err ∧ Spec.Reported err

/-- The caller asks for the signature: bit 4, or no flags at all. -/
def Spec.asksSignature (flags : U32) : Prop := flags = 0#32 ∨ flags.getLsbD 4 = true

/-- The caller asks for all files: bit 5. -/
def Spec.asksFiles (flags : U32) : Prop := flags.getLsbD 5 = true

/-- A name that is checked: not in parentheses, not that of a directory, without zero bytes. -/
def Spec.checkedName (name : List Byte) : Prop :=
  ¬ (name.head? = some 0x28#8 ∧ name.getLast? = some 0x29#8) ∧ name.getLast? ≠ some 0x2F#8 ∧ name.getLast? ≠ some 0x5C#8 ∧
    0#8 ∉ name

theorem verifiable_iff (name : List Byte) : verifiable name = true ↔ Spec.checkedName name := by
  unfold verifiable Spec.checkedName
  simp only [Bool.and_eq_true, Bool.not_eq_true', Bool.and_eq_false_iff, Bool.or_eq_false_iff, beq_eq_false_iff_ne, ne_eq,
    List.contains_eq_mem, decide_eq_false_iff_not, not_and]
  constructor
  · rintro ⟨⟨h1, h2, h3⟩, h4⟩
    exact ⟨fun h => h1.elim (fun h' => absurd h h') id, h2, h3, h4⟩
  · rintro ⟨h1, h2, h3, h4⟩
    refine ⟨⟨?_, h2, h3⟩, h4⟩
    by_cases h : name.head? = some 0x28#8
    · exact .inr (h1 h)
    · exact .inl h

theorem flags_signature (flags : U32) :
    hasBits (if flags = 0#32 then 0x10#32 else flags) 0x10#32 = true ↔ Spec.asksSignature flags := by
  have h := hasBits_bit (if flags = 0#32 then 0x10#32 else flags) 4 (by decide)
  rw [show (1#32 <<< 4) = 0x10#32 from rfl] at h
  rw [h]
  unfold Spec.asksSignature
  split
  · rename_i h0; simp [h0]
  · rename_i h0; simp [h0]

theorem flags_files (flags : U32) :
    hasBits (if flags = 0#32 then 0x10#32 else flags) 0x20#32 = true ↔ Spec.asksFiles flags := by
  have h := hasBits_bit (if flags = 0#32 then 0x10#32 else flags) 5 (by decide)
  rw [show (1#32 <<< 5) = 0x20#32 from rfl] at h
  rw [h]
  unfold Spec.asksFiles
  split
  · rename_i h0; simp [h0]
  · rfl

theorem acceptable_passes {x : FfiEnv} {a : Archive} {flags : U32} (hp : Spec.asksSignature flags → Spec.Passes (a.verifySignature x.env x.sig)) :
    signatureAcceptable x a (if flags = 0#32 then 0x10#32 else flags) = .ok true := by
  unfold signatureAcceptable
  by_cases h : hasBits (if flags = 0#32 then 0x10#32 else flags) 0x10#32 = true
  · rw [if_pos h]
    rcases hp ((flags_signature flags).1 h) with h | h | h | h <;> rw [h] <;> rfl
  · rw [if_neg h]

theorem acceptable_fails {x : FfiEnv} {a : Archive} {flags : U32} (ha : Spec.asksSignature flags)
    (hf : Spec.Fails (a.verifySignature x.env x.sig)) :
    signatureAcceptable x a (if flags = 0#32 then 0x10#32 else flags) = .ok false := by
  unfold signatureAcceptable
  rw [if_pos ((flags_signature flags).2 ha)]
  rcases hf with h | h | ⟨err, h, he⟩
  · rw [h]; rfl
  · rw [h]; rfl
  · rw [h, caught_reported he]; rfl

/-- A call to verify an archive that answers before the files. -/
theorem alone_verify {x : FfiEnv} {s : Sys} {t h : Nat} {flags : U32} {a : ArchiveHandle} {o : Outcome} (hq : s.Calm)
    (hidle : s.threads[t]? = some []) (ha : s.archives h = some a) (ho : verifyArchiveList x a.archive flags = .ok (.error o)) :
    Sys.CallsAlone x s t (.verifyArchive h flags) o (s.after s.session t o) := by
  have h0 : h ≠ 0 := fun h0 => by rw [hq.archive_new h (.inl h0)] at ha; cases ha
  refine alone_one_lock (l := .archives) (k := .verifyList h flags) hq hidle (by simp [Call.start, h0]) s.session ?_
  have ha' : (s.busy t (.verifyList h flags) [.archives]).archives h = some a := ha
  simp only [Sys.stepStage, ha', ho, orAbort]
  rfl

/-- C76: verifying an archive without its files answers what the check of the signature says: success (nothing else changes) for a
valid signature, for none and for one that cannot be checked, and "file corrupt" (1392) for an invalid one and when the check
fails. Without any check asked for it is success. In every state of the process in which no call is under way. -/
theorem C76_answer (x : FfiEnv) (s : Sys) (t h : Nat) (flags : U32) (a : ArchiveHandle) (hq : s.Calm)
    (hidle : s.threads[t]? = some []) (ha : s.archives h = some a) (hno : ¬ Spec.asksFiles flags) :
    (Spec.asksSignature flags → Spec.Passes (a.archive.verifySignature x.env x.sig) →
      s.CallsAlone x t (.verifyArchive h flags) (.ok .done) (s.after s.session t (.ok .done))) ∧
    (Spec.asksSignature flags → Spec.Fails (a.archive.verifySignature x.env x.sig) →
      s.CallsAlone x t (.verifyArchive h flags) (.error 1392#32) (s.after s.session t (.error 1392#32))) ∧
    (¬ Spec.asksSignature flags →
      s.CallsAlone x t (.verifyArchive h flags) (.ok .done) (s.after s.session t (.ok .done))) := by
  have hff : hasBits (if flags = 0#32 then 0x10#32 else flags) 0x20#32 = false :=
    Bool.eq_false_iff.2 fun h => hno ((flags_files flags).1 h)
  have good : (Spec.asksSignature flags → Spec.Passes (a.archive.verifySignature x.env x.sig)) →
      verifyArchiveList x a.archive flags = .ok (.error (.ok .done)) := by
    intro hp
    unfold verifyArchiveList
    dsimp only
    rw [acceptable_passes hp, hff]
    rfl
  refine ⟨fun _ hp => alone_verify hq hidle ha (good fun _ => hp), fun hs hf => alone_verify hq hidle ha ?_,
    fun hs => alone_verify hq hidle ha (good fun h => absurd h hs)⟩
  unfold verifyArchiveList
  dsimp only
  rw [acceptable_fails hs hf]
  rfl

/-- C76: when the check of the signature comes to an answer or an error, success means that the signature passes, and nothing
else. -/
theorem C76_success_iff (x : FfiEnv) (s : Sys) (t h : Nat) (flags : U32) (a : ArchiveHandle) (hq : s.Calm)
    (hidle : s.threads[t]? = some []) (ha : s.archives h = some a) (hno : ¬ Spec.asksFiles flags)
    (hs : Spec.asksSignature flags) (hr : ∀ err, a.archive.verifySignature x.env x.sig = .error err → Spec.Reported err) :
    (∃ s', s.CallsAlone x t (.verifyArchive h flags) (.ok .done) s') ↔
      Spec.Passes (a.archive.verifySignature x.env x.sig) := by
  obtain ⟨h1, h2, _⟩ := C76_answer x s t h flags a hq hidle ha hno
  refine ⟨fun ⟨s', hc⟩ => ?_, fun hp => ⟨_, h1 hs hp⟩⟩
  have bad : ¬ Spec.Fails (a.archive.verifySignature x.env x.sig) := fun hf => by
    cases (C71_answer_unique hc (h2 hs hf)).1
  unfold Spec.Fails at bad
  unfold Spec.Passes
  generalize a.archive.verifySignature x.env x.sig = r at bad hr ⊢
  cases r with
  | error err => exact absurd (.inr (.inr ⟨err, rfl, hr err rfl⟩)) bad
  | ok st =>
    cases st with
    | none => exact .inr (.inr (.inl rfl))
    | weakValid => exact .inl rfl
    | weakInvalid => exact absurd (.inl rfl) bad
    | strongValid => exact .inr (.inl rfl)
    | strongInvalid => exact absurd (.inr (.inl rfl)) bad
    | strongNoKey => exact .inr (.inr (.inr rfl))

/-- C76: an archive that a strong signature follows is verified if and only if the signature is that of its bytes: the number
it is, raised to the power of the key, is the padded SHA-1 digest of the archive. -/
theorem C76_strong_exact (x : FfiEnv) (s : Sys) (t h : Nat) (flags : U32) (a : ArchiveHandle) (hq : s.Calm)
    (hidle : s.threads[t]? = some []) (ha : s.archives h = some a) (hno : ¬ Spec.asksFiles flags)
    (hs : Spec.asksSignature flags) (hsha : ∀ b, (x.sig.sha1 b).length = 20) (hreads : ∀ k, x.sig.reads k ≠ none)
    (hend : a.archive.archiveOffset + a.archive.header.getArchiveSize.toNat + 260 < 2 ^ 64)
    (hp : _root_.Spec.strongPresent a.archive.file (a.archive.archiveOffset + a.archive.header.getArchiveSize.toNat)) :
    (∃ s', s.CallsAlone x t (.verifyArchive h flags) (.ok .done) s') ↔
      _root_.Spec.strongValue a.archive.file (a.archive.archiveOffset + a.archive.header.getArchiveSize.toNat) ^
          x.sig.strongKey.e % x.sig.strongKey.n =
        _root_.Spec.beNumber (_root_.Spec.strongBlock (x.sig.sha1
          ((a.archive.file.drop a.archive.archiveOffset).take a.archive.header.getArchiveSize.toNat))) := by
  have hst := (C47_precedence_partial x.env x.sig a.archive hend).1 hp
  rw [C76_success_iff x s t h flags a hq hidle ha hno hs (by
    intro err he; rcases hst with h | h <;> (rw [he] at h; cases h))]
  have hv := C38_strong_valid_iff x.env x.sig a.archive hsha hreads hend
  constructor
  · intro hpass
    refine (hv.1 ?_).2
    rcases hst with h | h
    · exact h
    · unfold Spec.Passes at hpass
      rw [h] at hpass
      rcases hpass with h | h | h | h <;> cases h
  · intro he
    exact .inr (.inl (hv.2 ⟨hp, he⟩))

/-- C76 (limit): an archive without a signature is always verified, whatever its bytes are. -/
theorem C76_unsigned_passes (x : FfiEnv) (s : Sys) (t h : Nat) (flags : U32) (a : ArchiveHandle) (hq : s.Calm)
    (hidle : s.threads[t]? = some []) (ha : s.archives h = some a) (hno : ¬ Spec.asksFiles flags)
    (hend : a.archive.archiveOffset + a.archive.header.getArchiveSize.toNat + 260 < 2 ^ 64)
    (hp : ¬ _root_.Spec.strongPresent a.archive.file (a.archive.archiveOffset + a.archive.header.getArchiveSize.toNat))
    (hf : a.archive.findFile signatureName = .ok none) :
    s.CallsAlone x t (.verifyArchive h flags) (.ok .done) (s.after s.session t (.ok .done)) := by
  obtain ⟨h1, _, h3⟩ := C76_answer x s t h flags a hq hidle ha hno
  by_cases hs : Spec.asksSignature flags
  · exact h1 hs (.inr (.inr (.inl ((C47_precedence_partial x.env x.sig a.archive hend).2.1 hp hf))))
  · exact h3 hs

/-- C76 fails: an archive with a weak signature is reported corrupt, whether the signature is right or wrong. -/
theorem C76_weak_signature_refused (x : FfiEnv) (s : Sys) (t h : Nat) (flags : U32) (a : ArchiveHandle) (hq : s.Calm)
    (hidle : s.threads[t]? = some []) (ha : s.archives h = some a) (hno : ¬ Spec.asksFiles flags)
    (hs : Spec.asksSignature flags)
    (hend : a.archive.archiveOffset + a.archive.header.getArchiveSize.toNat + 260 < 2 ^ 64)
    (hp : ¬ _root_.Spec.strongPresent a.archive.file (a.archive.archiveOffset + a.archive.header.getArchiveSize.toNat))
    (info : FileInfo) (content : List Byte) (hf : a.archive.findFile signatureName = .ok (some info))
    (hr : a.archive.readFile x.env signatureName = .ok content) (hw : _root_.Spec.weakPresent content)
    (h1 : a.archive.archiveOffset + a.archive.header.archiveSize.toNat < 2 ^ 64)
    (h2 : info.filePos + info.compressedSize < 2 ^ 64) :
    s.CallsAlone x t (.verifyArchive h flags) (.error 1392#32) (s.after s.session t (.error 1392#32)) :=
  (C76_answer x s t h flags a hq hidle ha hno).2.1 hs
    (.inl (((C47_precedence_partial x.env x.sig a.archive hend).2.2 hp info content hf hr).2 hw h1 h2))

/-- A thread that cannot go on before its call is at an end does not end it. -/
theorem runs_blocked {x : FfiEnv} {t : Nat} {s b s' : Sys} (h1 : Sys.Runs x t s b) (hb : b.step x t = none)
    (hn : b.threads[t]? ≠ some []) (h2 : Sys.Runs x t s s') : s'.threads[t]? ≠ some [] := by
  induction h1 with
  | refl =>
    cases h2 with
    | refl => exact hn
    | step h _ => rw [hb] at h; cases h
  | step h _ ih =>
    cases h2 with
    | refl =>
      intro he
      unfold Sys.step at h
      rw [he] at h
      split at h <;> cases h
    | step h' h2 =>
      cases (h.symm.trans h')
      exact ih hb hn h2

/-- C76: when all files are asked for and the list has none that is checked, the answer is success. -/
theorem C76_no_files (x : FfiEnv) (s : Sys) (t h : Nat) (flags : U32) (a : ArchiveHandle) (hq : s.Calm)
    (hidle : s.threads[t]? = some []) (ha : s.archives h = some a) (hfiles : Spec.asksFiles flags)
    (hs : Spec.asksSignature flags → Spec.Passes (a.archive.verifySignature x.env x.sig)) (entries : List FileEntry)
    (hlist : a.archive.list x.env = .ok entries) (hnone : ∀ entry ∈ entries, ¬ Spec.checkedName entry.name) :
    s.CallsAlone x t (.verifyArchive h flags) (.ok .done) (s.after s.session t (.ok .done)) := by
  have ht := (List.getElem?_eq_some_iff.1 hidle).1
  have h0 : h ≠ 0 := fun h0 => by rw [hq.archive_new h (.inl h0)] at ha; cases ha
  have hl : verifyArchiveList x a.archive flags = .ok (.ok []) := by
    unfold verifyArchiveList
    dsimp only
    have hfilter : (entries.filter fun entry => verifiable entry.name) = [] := by
      rw [List.filter_eq_nil_iff]
      intro e he hv
      exact hnone e he ((verifiable_iff _).1 hv)
    rw [acceptable_passes hs, (flags_files flags).2 hfiles, hlist]
    show (Except.ok (Except.ok _) : Res (Except Outcome (List (List Byte × U32)))) = _
    rw [hfilter]
    rfl
  refine alone_of (s1 := s) hq hidle ?_ rfl rfl rfl rfl rfl rfl rfl
  rw [show (Call.verifyArchive h flags).start = .lock .archives (.verifyList h flags) by simp [Call.start, h0]]
  refine .step (busy_lock hq.running ht (by simp)) ?_
  refine .step (busy_step (s' := s) (k' := .verifyNext h []) (ls' := [.archives]) hq.running ht
    (s2 := (s.busy t (.verifyList h flags) [.archives]).setStack t [.verifyNext h []]) ?_ setStack_busy) ?_
  · have ha' : (s.busy t (.verifyList h flags) [.archives]).archives h = some a := ha
    simp only [Sys.stepStage, ha', hl, orAbort]
  exact .step (busy_step (s' := s) (k' := .ret (.ok .done)) (ls' := []) hq.running ht rfl (release_busy (by simp))) (.refl _)

/-- C76 fails: when all files are asked for and there is one to check, the call never answers, neither success nor an error; this
holds for every archive whose files the library can list, with a signature that passes or is not asked for. -/
theorem C76_files_never_answered (x : FfiEnv) (s : Sys) (t h : Nat) (flags : U32) (a : ArchiveHandle) (hq : s.Calm)
    (hidle : s.threads[t]? = some []) (ha : s.archives h = some a) (hfiles : Spec.asksFiles flags)
    (hs : Spec.asksSignature flags → Spec.Passes (a.archive.verifySignature x.env x.sig)) (entries : List FileEntry)
    (hlist : a.archive.list x.env = .ok entries ∨
      (∃ err, a.archive.list x.env = .error err ∧ Spec.Reported err) ∧ a.archive.listAll = .ok entries)
    (hsome : ∃ entry ∈ entries, Spec.checkedName entry.name) (o : Outcome) (s' : Sys) :
    ¬ s.CallsAlone x t (.verifyArchive h flags) o s' := by
  have ht := (List.getElem?_eq_some_iff.1 hidle).1
  have h0 : h ≠ 0 := fun h0 => by rw [hq.archive_new h (.inl h0)] at ha; cases ha
  obtain ⟨name, fl, files, hl⟩ : ∃ name fl files, verifyArchiveList x a.archive flags = .ok (.ok ((name, fl) :: files)) := by
    have hfs := (flags_files flags).2 hfiles
    have : ∃ g : FileEntry → List Byte × U32, verifyArchiveList x a.archive flags =
        .ok (.ok ((entries.filter fun entry => verifiable entry.name).map g)) := by
      unfold verifyArchiveList
      dsimp only
      rw [acceptable_passes hs, hfs]
      rcases hlist with hl | ⟨⟨err, hl, he⟩, hall⟩
      · rw [hl]; exact ⟨_, rfl⟩
      · rw [hl, caught_reported he, hall]; exact ⟨_, rfl⟩
    obtain ⟨g, hg⟩ := this
    obtain ⟨entry, hm, hn⟩ := hsome
    have hmem : entry ∈ entries.filter fun entry => verifiable entry.name :=
      List.mem_filter.2 ⟨hm, (verifiable_iff _).2 hn⟩
    cases hfl : entries.filter fun entry => verifiable entry.name with
    | nil => rw [hfl] at hmem; cases hmem
    | cons e es => rw [hfl] at hg; exact ⟨_, _, _, hg⟩
  rintro ⟨s1, hb, hr, hend, _⟩
  rw [busy_begin hq.running hq.free hidle] at hb
  cases hb
  have hstep : ∀ {b : Sys}, b = (s.busy t (.verifyNext h ((name, fl) :: files)) [.archives]).setStack t
      [.lock .archives (.archOp h (.verifyFile name fl)), .verifyNext h files] → b.step x t = none ∧ b.threads[t]? ≠ some [] := by
    rintro b rfl
    have htop : ((s.busy t (.verifyNext h ((name, fl) :: files)) [.archives]).setStack t
        [.lock .archives (.archOp h (.verifyFile name fl)), .verifyNext h files]).threads[t]? =
        some [.lock .archives (.archOp h (.verifyFile name fl)), .verifyNext h files] := by
      show ((s.threads.set t _).set t _)[t]? = _
      rw [List.set_set, List.getElem?_set_self ht]
    refine ⟨?_, by rw [htop]; nofun⟩
    unfold Sys.step
    rw [htop]
    rw [if_neg (by
      show ¬ s.aborted = true
      rw [hq.running]; nofun)]
    simp [Sys.stepStage, Sys.setStack, Sys.busy]
  have e := hstep rfl
  refine runs_blocked ?_ e.1 e.2 hr hend
  rw [show (Call.verifyArchive h flags).start = .lock .archives (.verifyList h flags) by simp [Call.start, h0]]
  refine .step (busy_lock hq.running ht (by simp)) ?_
  refine .step (busy_step (s' := s) (k' := .verifyNext h ((name, fl) :: files)) (ls' := [.archives]) hq.running ht
    (s2 := (s.busy t (.verifyList h flags) [.archives]).setStack t [.verifyNext h ((name, fl) :: files)]) ?_ setStack_busy) ?_
  · have ha' : (s.busy t (.verifyList h flags) [.archives]).archives h = some a := ha
    simp only [Sys.stepStage, ha', hl, orAbort]
  refine .step (step_of_stage (rest := []) (List.getElem?_set_self ht) hq.running ?_) (.refl _)
  simp [Sys.stepStage, Call.start, h0]

/-! ## Examples -/

/-- The process after an archive has been opened: its handle is 1. -/
def openedOne (a : Archive) : Sys :=
  (Sys.init 1).after { (Sys.init 1).session with next := 2, archives := Spec.put (Sys.init 1).archives 1 (some ⟨a, []⟩) } 0
    (.ok (.handle 1))

theorem openedOne_calm (x : FfiEnv) (a : Archive) : (openedOne a).Calm :=
  calm_after (x := x) (t := 0) (init_calm 1) (.openArchive [] a (by decide))

/-- Keys and digests for examples; the digest is the first 20 bytes, if there are as many. -/
def exampleKeys : SigEnv :=
  { md5 := id, sha1 := fun x => (x ++ x ++ List.replicate 20 7#8).take 20, weakKey := weakKey, strongKey := plainKey, reads := fun _ => some 3 }

def tenSigned (content : Byte) : Archive :=
  signedArchive (List.replicate 10 content ++ [0x4E#8, 0x47#8, 0x49#8, 0x53#8] ++
    (_root_.Spec.strongBlock (List.replicate 20 1#8)).reverse) 10 none

/-- The signature is right for ten bytes that are 1, and wrong when they have been changed to 2. -/
example (e : Env) (crc : List Byte → U32) :
    (∃ s', (openedOne (tenSigned 1)).CallsAlone ⟨e, exampleKeys, crc⟩ 0 (.verifyArchive 1 0) (.ok .done) s') ∧
    (openedOne (tenSigned 2)).CallsAlone ⟨e, exampleKeys, crc⟩ 0 (.verifyArchive 1 0) (.error 1392#32)
      ((openedOne (tenSigned 2)).after (openedOne (tenSigned 2)).session 0 (.error 1392#32)) := by
  have hsha : ∀ b, (exampleKeys.sha1 b).length = 20 := by intro b; simp [exampleKeys]; omega
  have hreads : ∀ k, exampleKeys.reads k ≠ none := by intro k; nofun
  have hp : ∀ c : Byte, c = 1 ∨ c = 2 → _root_.Spec.strongPresent (tenSigned c).file 10 := by
    rintro c (rfl | rfl) <;> exact ⟨by decide +kernel, by decide +kernel, 0x0B#8, by decide +kernel, by decide⟩
  constructor
  · refine (C76_strong_exact ⟨e, exampleKeys, crc⟩ _ 0 1 0 ⟨tenSigned 1, []⟩ (openedOne_calm ⟨e, exampleKeys, crc⟩ _) rfl rfl
      (by unfold Spec.asksFiles; decide) (.inl rfl) hsha hreads (by decide +kernel) (hp 1 (.inl rfl))).2 ?_
    dsimp only
    decide +kernel
  · refine (C76_answer ⟨e, exampleKeys, crc⟩ _ 0 1 0 ⟨tenSigned 2, []⟩ (openedOne_calm ⟨e, exampleKeys, crc⟩ _) rfl rfl
      (by unfold Spec.asksFiles; decide)).2.1 (.inl rfl) ?_
    rcases (C47_precedence_partial e exampleKeys (tenSigned 2) (by decide +kernel)).1 (hp 2 (.inr rfl)) with h | h
    · have := ((C38_strong_valid_iff e exampleKeys (tenSigned 2) hsha hreads (by decide +kernel)).1 h).2
      exact absurd this (by decide +kernel)
    · exact .inr (.inl h)

/-- An archive without files and without a signature. -/
def tenUnsigned (bytes : List Byte) : Archive := { signedArchive bytes 10 none with hashTable := some [HashEntry.empty] }

/-- Ten bytes without a signature: success. -/
example (e : Env) (crc : List Byte → U32) (flags : U32) (hno : ¬ Spec.asksFiles flags) (bytes : List Byte) (h10 : bytes.length = 10) :
    ∃ s', (openedOne (tenUnsigned bytes)).CallsAlone ⟨e, exampleKeys, crc⟩ 0 (.verifyArchive 1 flags) (.ok .done) s' := by
  refine ⟨_, C76_unsigned_passes ⟨e, exampleKeys, crc⟩ _ 0 1 flags ⟨tenUnsigned bytes, []⟩
    (openedOne_calm ⟨e, exampleKeys, crc⟩ _) rfl rfl hno (by show 0 + ((10#32).zeroExtend 64).toNat + 260 < 2 ^ 64; decide) ?_ ?_⟩
  · rintro ⟨h, _⟩
    have h : 0 + ((10#32).zeroExtend 64).toNat + 260 ≤ bytes.length := h
    have : ((10#32).zeroExtend 64).toNat = 10 := by decide
    omega
  · have := findFileHash_one HashEntry.empty signatureName
    rw [if_neg (by simp [HashEntry.isHit, HashEntry.isValid, HashEntry.empty])] at this
    show (tenUnsigned bytes).findFileClassic signatureName = _
    unfold Archive.findFileClassic
    dsimp only [tenUnsigned, signedArchive]
    rw [this]
    rfl

/-- An archive with 72 bytes as signature file, whose name has the hash values `k1` and `k2`. -/
def weakArchive (k1 k2 : U32) : Archive :=
  { methodArchive k1 k2 with file := List.replicate 72 5#8, blockTable := some [⟨0, 72, 72, 0x81000000⟩] }

/-- It is reported corrupt. -/
example (e : Env) (crc : List Byte → U32) (k1 k2 : U32) (e1 : k1 = hashString signatureName htNameA)
    (e2 : k2 = hashString signatureName htNameB) :
    ∃ s', (openedOne (weakArchive k1 k2)).CallsAlone ⟨e, exampleKeys, crc⟩ 0 (.verifyArchive 1 0x10) (.error 1392#32) s' := by
  have f1 : (weakArchive k1 k2).findFile signatureName = .ok (some ⟨0, 0, 0, 72, 72, 0x81000000, 0⟩) := by
    have := findFileHash_one ⟨k1, k2, 0, 0, 0⟩ signatureName
    rw [← e1, ← e2, if_pos (by simp [HashEntry.isHit, HashEntry.isValid])] at this
    show (weakArchive k1 k2).findFileClassic signatureName = _
    unfold Archive.findFileClassic
    dsimp only [weakArchive, methodArchive]
    rw [this]
    rfl
  have hr : (weakArchive k1 k2).readFile e signatureName = .ok (List.replicate 72 5#8) := by
    unfold Archive.readFile
    rw [f1]
    rfl
  refine ⟨_, C76_weak_signature_refused ⟨e, exampleKeys, crc⟩ _ 0 1 0x10 ⟨weakArchive k1 k2, []⟩ (openedOne_calm ⟨e, exampleKeys, crc⟩ _)
    rfl rfl (by unfold Spec.asksFiles; decide) (.inr (by decide)) ?_ ?_ _ _ f1 hr ⟨by decide +kernel, 5#8, by decide +kernel, by decide⟩ ?_ ?_⟩
  · show 0 + (0 : Nat) + 260 < _; decide
  · rintro ⟨h, _⟩
    have h : 0 + (0 : Nat) + 260 ≤ (List.replicate 72 5#8).length := h
    rw [List.length_replicate] at h
    omega
  · show 0 + (0 : Nat) < _; decide
  · show (0 : Nat) + 72 < _; decide

/-- Verifying all files of the sample never comes to an end, and with no file listed it does at once. -/
example : ∃ (x : FfiEnv) (a : Archive), ∀ o s', ¬ (openedOne a).CallsAlone x 0 (.verifyArchive 1 0x20) o s' := by
  obtain ⟨f, a, entries, _, _, hl, hn⟩ := sample_lists .v2 (by decide)
  let x : FfiEnv := ⟨toyEnv, exampleKeys, fun _ => 0⟩
  refine ⟨x, a, fun o s' => C76_files_never_answered x _ 0 1 0x20 ⟨a, []⟩ (openedOne_calm x a) rfl rfl (by unfold Spec.asksFiles; decide)
    (fun h => absurd h (by unfold Spec.asksSignature; decide)) entries (.inl hl) ?_ o s'⟩
  cases entries with
  | nil => cases hn
  | cons entry rest =>
    rw [List.map_cons] at hn
    have : entry.name = ascii "Dir\\a.txt" := congrArg Prod.fst (List.cons.inj hn).1
    refine ⟨entry, List.mem_cons_self, ?_⟩
    rw [this]
    unfold Spec.checkedName
    decide +kernel

end Mopaq
