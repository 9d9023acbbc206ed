import Verif.Model.BuilderCalls
import Verif.Props.Listing

/-!
# C64: preparing an archive by a chain of calls
-/

namespace Mopaq

/-- The last of the values given, or the value that holds from the start. -/
def Spec.lastOr {α : Type} (start : α) (given : List α) : α := given.getLast?.getD start

theorem lastOr_append {α : Type} (start : α) (xs : List α) (x : α) : Spec.lastOr start (xs ++ [x]) = x := by
  unfold Spec.lastOr
  rw [List.getLast?_concat]
  rfl

/-- What a call asks to be added: where the content comes from, the name, the compression if it is given, whether to
encrypt, whether to adjust the key, the locale. -/
def BuilderCall.request : BuilderCall → Option (FileSource × List Byte × Option Byte × Bool × Bool × U16)
  | .addFile path name => some (.path path, name, none, false, false, 0)
  | .addFileData data name => some (.data data, name, none, false, false, 0)
  | .addFileWithOptions path name m enc loc => some (.path path, name, some m, enc, false, loc)
  | .addFileDataWithOptions data name m enc loc => some (.data data, name, some m, enc, false, loc)
  | .addFileWithEncryption path name m fix loc => some (.path path, name, some m, true, fix, loc)
  | .addFileDataWithEncryption data name m fix loc => some (.data data, name, some m, true, fix, loc)
  | _ => none

def BuilderCall.version? : BuilderCall → Option FormatVersion | .version v => some v | _ => none
def BuilderCall.blockSize? : BuilderCall → Option U16 | .blockSize v => some v | _ => none
def BuilderCall.defaultCompression? : BuilderCall → Option Byte | .defaultCompression v => some v | _ => none
def BuilderCall.listfileOption? : BuilderCall → Option ListfileSetting | .listfileOption v => some v | _ => none
def BuilderCall.generateCrcs? : BuilderCall → Option Bool | .generateCrcs v => some v | _ => none
def BuilderCall.compressTables? : BuilderCall → Option Bool | .compressTables v => some v | _ => none
def BuilderCall.tableCompression? : BuilderCall → Option Byte | .tableCompression v => some v | _ => none

theorem calls_snoc (cs : List BuilderCall) (c : BuilderCall) :
    ArchiveBuilder.calls (cs ++ [c]) = (ArchiveBuilder.calls cs).call c := by
  unfold ArchiveBuilder.calls
  rw [List.foldl_append]
  rfl

/-- Induction from the right. -/
theorem snoc_induction {α : Type} {P : List α → Prop} (h0 : P []) (h1 : ∀ l x, P l → P (l ++ [x])) (l : List α) : P l := by
  have : ∀ l : List α, P l.reverse := by
    intro l
    induction l with
    | nil => exact h0
    | cons x l ih => rw [List.reverse_cons]; exact h1 _ _ ih
  have := this l.reverse
  rwa [List.reverse_reverse] at this

theorem lastOr_step {α : Type} (start : α) (cs : List BuilderCall) (c : BuilderCall) (get : BuilderCall → Option α) :
    Spec.lastOr start ((cs ++ [c]).filterMap get) =
      match get c with | some v => v | none => Spec.lastOr start (cs.filterMap get) := by
  rw [List.filterMap_append]
  cases hg : get c with
  | none => simp only [List.filterMap_cons, hg, List.filterMap_nil, List.append_nil]
  | some v => simp only [List.filterMap_cons, hg, List.filterMap_nil]; rw [lastOr_append]

/-- C64: every option has the value given last, in whatever order the calls come and however often an option is given; an
option never given has its documented value. -/
theorem C64_options (cs : List BuilderCall) :
    let b := ArchiveBuilder.calls cs
    b.version = Spec.lastOr .v1 (cs.filterMap BuilderCall.version?) ∧
    b.blockSize = Spec.lastOr 3 (cs.filterMap BuilderCall.blockSize?) ∧
    b.defaultCompression = Spec.lastOr 0x02 (cs.filterMap BuilderCall.defaultCompression?) ∧
    b.listfileOption = Spec.lastOr .generate (cs.filterMap BuilderCall.listfileOption?) ∧
    b.generateCrcs = Spec.lastOr false (cs.filterMap BuilderCall.generateCrcs?) ∧
    b.compressTables = Spec.lastOr false (cs.filterMap BuilderCall.compressTables?) ∧
    b.tableCompression = Spec.lastOr 0x02 (cs.filterMap BuilderCall.tableCompression?) := by
  induction cs using snoc_induction with
  | h0 => exact ⟨rfl, rfl, rfl, rfl, rfl, rfl, rfl⟩
  | h1 cs c ih =>
    obtain ⟨h1, h2, h3, h4, h5, h6, h7⟩ := ih
    simp only [calls_snoc, lastOr_step]
    cases c <;>
      exact ⟨by first | rfl | exact h1, by first | rfl | exact h2, by first | rfl | exact h3, by first | rfl | exact h4,
        by first | rfl | exact h5, by first | rfl | exact h6, by first | rfl | exact h7⟩

theorem calls_append_files (pre post : List BuilderCall) : ∃ more,
    (ArchiveBuilder.calls (pre ++ post)).pendingFiles = (ArchiveBuilder.calls pre).pendingFiles ++ more ∧
      more.length = (post.filterMap BuilderCall.request).length := by
  induction post using snoc_induction with
  | h0 => exact ⟨[], by simp⟩
  | h1 post c ih =>
    obtain ⟨more, h1, h2⟩ := ih
    rw [← List.append_assoc, calls_snoc, List.filterMap_append]
    cases c <;> first
      | exact ⟨more, h1, by rw [h2]; simp [BuilderCall.request]⟩
      | exact ⟨more ++ [_], by
          show (ArchiveBuilder.calls (pre ++ post)).pendingFiles ++ [_] = _
          rw [h1, List.append_assoc], by simp [BuilderCall.request, h2]⟩

theorem calls_files_length (cs : List BuilderCall) :
    (ArchiveBuilder.calls cs).pendingFiles.length = (cs.filterMap BuilderCall.request).length := by
  obtain ⟨more, h1, h2⟩ := calls_append_files [] cs
  rw [List.nil_append] at h1
  rw [h1, ← h2]
  rfl

/-- C64: the files are the ones asked for, in the order of the calls, each with what its own call says; the two calls that
name no method take the default in force at that point, which later calls do not change. -/
theorem C64_files (cs : List BuilderCall) :
    (ArchiveBuilder.calls cs).pendingFiles.length = (cs.filterMap BuilderCall.request).length ∧
    ∀ (pre : List BuilderCall) (c : BuilderCall) (post : List BuilderCall) (source : FileSource) (name : List Byte)
      (method : Option Byte) (enc fix : Bool) (loc : U16), cs = pre ++ c :: post →
      c.request = some (source, name, method, enc, fix, loc) →
      (ArchiveBuilder.calls cs).pendingFiles[(pre.filterMap BuilderCall.request).length]? = some
        { source, name, encrypt := enc, useFixKey := fix, locale := loc,
          compression := method.getD (Spec.lastOr 0x02 (pre.filterMap BuilderCall.defaultCompression?)) } := by
  refine ⟨calls_files_length cs, ?_⟩
  intro pre c post source name method enc fix loc hcs hc
  obtain ⟨more, h1, _⟩ := calls_append_files (pre ++ [c]) post
  rw [List.append_assoc, List.singleton_append, ← hcs] at h1
  have hd := (C64_options pre).2.2.1
  rw [h1, ← calls_files_length pre, List.getElem?_append_left (by
    rw [calls_files_length, calls_files_length, List.filterMap_append, List.length_append, List.filterMap_cons, hc]
    exact Nat.lt_succ_self _), calls_snoc]
  have key : ∀ q, ((ArchiveBuilder.calls pre).push q).pendingFiles[(ArchiveBuilder.calls pre).pendingFiles.length]? = some q := by
    intro q
    show ((ArchiveBuilder.calls pre).pendingFiles ++ [q])[(ArchiveBuilder.calls pre).pendingFiles.length]? = some q
    rw [List.getElem?_append_right (Nat.le_refl _), Nat.sub_self]
    rfl
  cases c <;> first
    | (have hc := Option.some.inj hc
       simp only [Prod.mk.injEq] at hc
       obtain ⟨rfl, rfl, rfl, rfl, rfl, rfl⟩ := hc
       rw [← hd]
       exact key _)
    | exact absurd hc (by simp [BuilderCall.request])

/-- The option that a call sets, if any. -/
def BuilderCall.option : BuilderCall → Nat
  | .version _ => 1
  | .blockSize _ => 2
  | .defaultCompression _ => 3
  | .listfileOption _ => 4
  | .generateCrcs _ => 5
  | .compressTables _ => 6
  | .tableCompression _ => 7
  | _ => 0

theorem call_comm (b : ArchiveBuilder) (c d : BuilderCall) (hc : c.option ≠ 0) (hd : d.option ≠ c.option)
    (hdef : ∀ m, c = .defaultCompression m → ∀ x, d.request = some x → x.2.2.1 ≠ none) : (b.call c).call d = (b.call d).call c := by
  cases c <;> first
    | exact absurd rfl hc
    | (cases d <;> first
        | rfl
        | exact absurd rfl hd
        | exact absurd rfl (hdef _ rfl _ rfl))

/-- C64: an option may be set earlier or later without any effect on the archive, as long as the calls in between do not
set the same option and, for the default method, do not add files that take it. -/
theorem C64_order (pre mid post : List BuilderCall) (c : BuilderCall) (hc : c.option ≠ 0)
    (hmid : ∀ d ∈ mid, d.option ≠ c.option)
    (hdef : ∀ m, c = .defaultCompression m → ∀ d ∈ mid, ∀ x, d.request = some x → x.2.2.1 ≠ none) :
    ArchiveBuilder.calls (pre ++ c :: mid ++ post) = ArchiveBuilder.calls (pre ++ mid ++ c :: post) := by
  have key : ∀ (mid : List BuilderCall) (b : ArchiveBuilder), (∀ d ∈ mid, d.option ≠ c.option) →
      (∀ m, c = .defaultCompression m → ∀ d ∈ mid, ∀ x, d.request = some x → x.2.2.1 ≠ none) →
      mid.foldl ArchiveBuilder.call (b.call c) = (mid.foldl ArchiveBuilder.call b).call c := by
    intro mid
    induction mid with
    | nil => intro b _ _; rfl
    | cons d mid ih =>
      intro b h1 h2
      rw [List.foldl_cons, List.foldl_cons, call_comm b c d hc (h1 d List.mem_cons_self)
        (fun m hm => h2 m hm d List.mem_cons_self)]
      exact ih _ (fun x hx => h1 x (List.mem_cons_of_mem _ hx)) (fun m hm x hx => h2 m hm x (List.mem_cons_of_mem _ hx))
  unfold ArchiveBuilder.calls
  simp only [List.foldl_append, List.foldl_cons]
  rw [key mid _ hmid hdef]

/-- The paths that will be read. -/
def ArchiveBuilder.paths (b : ArchiveBuilder) : List (List Byte) :=
  (b.pendingFiles.filterMap fun q => match q.source with | .path p => some p | .data _ => none) ++
    (match b.listfileOption with | .external p => [p] | _ => [])

/-- C64: the archive depends on the disk only through what the paths mentioned contain when it is built, and when one of them
cannot be read there is no archive. -/
theorem C64_read_at_build (e : Env) (md5 : Md5) (hmd : ∀ x, (md5 x).length = 16) (b : ArchiveBuilder) :
    (∀ disk disk' : List Byte → Option (List Byte), (∀ p ∈ b.paths, disk p = disk' p) →
      b.build e md5 disk = b.build e md5 disk') ∧
    (∀ (disk : List Byte → Option (List Byte)) (p : List Byte), p ∈ b.paths → disk p = none → ∀ f, b.build e md5 disk ≠ .ok f) := by
  refine ⟨fun disk disk' h => ?_, fun disk p hp hd f hf => ?_⟩
  · have h1 : b.resolve disk = b.resolve disk' := by
      unfold ArchiveBuilder.resolve
      have e1 : b.pendingFiles.map (QueuedFile.resolve disk) = b.pendingFiles.map (QueuedFile.resolve disk') := by
        refine List.map_congr_left fun q hq => ?_
        unfold QueuedFile.resolve
        cases hs : q.source with
        | data d => rfl
        | path p =>
          have : disk p = disk' p := h p (List.mem_append_left _ (List.mem_filterMap.2 ⟨q, hq, by rw [hs]⟩))
          simp only [FileSource.read, this]
      have e2 : b.listfileOption.resolve disk = b.listfileOption.resolve disk' := by
        cases hl : b.listfileOption with
        | generate => rfl
        | none => rfl
        | external p =>
          have : disk p = disk' p := h p (List.mem_append_right _ (by rw [hl]; exact List.mem_singleton.2 rfl))
          simp only [ListfileSetting.resolve, this]
      rw [e1, e2]
    unfold ArchiveBuilder.build
    rw [h1]
  · obtain ⟨L⟩ := layout_of_build hmd hf
    rcases List.mem_append.1 hp with hp | hp
    · obtain ⟨q, hq, hs⟩ := List.mem_filterMap.1 hp
      cases hqs : q.source with
      | data d => rw [hqs] at hs; cases hs
      | path p' =>
        rw [hqs] at hs
        cases hs
        have hmem : (⟨none, q.name, q.compression, q.encrypt, q.useFixKey, q.locale⟩ : PendingFile) ∈ L.pending := by
          have h1 : (⟨none, q.name, q.compression, q.encrypt, q.useFixKey, q.locale⟩ : PendingFile) ∈ (b.resolve disk).pending :=
            List.mem_map.2 ⟨q, hq, by unfold QueuedFile.resolve; rw [hqs]; simp only [FileSource.read, hd]⟩
          have h2 := L.prepared
          unfold prepareListfile at h2
          split at h2
          · rw [← Except.ok.inj h2]; exact List.mem_append_left _ h1
          · cases h2
          · rw [← Except.ok.inj h2]; exact List.mem_append_left _ h1
          · rw [← Except.ok.inj h2]; exact h1
        obtain ⟨i, hi, hpi⟩ := List.mem_iff_getElem.1 hmem
        obtain ⟨s, _, _, _, _, _, hst⟩ := L.placed.get (List.getElem?_eq_getElem hi)
        rw [hpi] at hst
        obtain ⟨data, _, hdata, _⟩ := storeFile_ok hst
        cases hdata
    · split at hp
      · rename_i p' hl
        cases List.mem_singleton.1 hp
        have h2 := L.prepared
        unfold prepareListfile ArchiveBuilder.resolve at h2
        simp only [hl, ListfileSetting.resolve, hd] at h2
        cases h2
      · cases hp

/-- A file given by its path, given by its content instead. -/
def BuilderCall.inline (disk : List Byte → Option (List Byte)) : BuilderCall → BuilderCall
  | .addFile path name => .addFileData ((disk path).getD []) name
  | .addFileWithOptions path name m enc loc => .addFileDataWithOptions ((disk path).getD []) name m enc loc
  | .addFileWithEncryption path name m fix loc => .addFileDataWithEncryption ((disk path).getD []) name m fix loc
  | c => c

/-- C64: adding a file by its path has the same effect as adding its content from memory. -/
theorem C64_path_or_data (e : Env) (md5 : Md5) (disk : List Byte → Option (List Byte)) (cs : List BuilderCall)
    (h : ∀ p ∈ (ArchiveBuilder.calls cs).paths, disk p ≠ none) :
    (ArchiveBuilder.calls (cs.map (BuilderCall.inline disk))).build e md5 disk = (ArchiveBuilder.calls cs).build e md5 disk := by
  unfold ArchiveBuilder.build
  suffices hs : (ArchiveBuilder.calls (cs.map (BuilderCall.inline disk))).resolve disk = (ArchiveBuilder.calls cs).resolve disk by
    rw [hs]
  have h' : ∀ q ∈ (ArchiveBuilder.calls cs).pendingFiles, ∀ p, q.source = .path p → disk p ≠ none :=
    fun q hq p hp => h p (List.mem_append_left _ (List.mem_filterMap.2 ⟨q, hq, by rw [hp]⟩))
  clear h
  induction cs using snoc_induction with
  | h0 => rfl
  | h1 cs c ih =>
    rw [List.map_append, List.map_cons, List.map_nil, calls_snoc, calls_snoc]
    rw [calls_snoc] at h'
    have hsub : ∀ q ∈ (ArchiveBuilder.calls cs).pendingFiles, q ∈ ((ArchiveBuilder.calls cs).call c).pendingFiles := by
      intro q hq
      cases c <;> first | exact hq | exact List.mem_append_left _ hq
    specialize ih (fun q hq => h' q (hsub q hq))
    generalize ArchiveBuilder.calls (cs.map (BuilderCall.inline disk)) = b1 at ih ⊢
    generalize ArchiveBuilder.calls cs = b2 at ih h' hsub ⊢
    have key : ∀ p, (∃ q ∈ (b2.call c).pendingFiles, q.source = .path p) → some ((disk p).getD []) = disk p := by
      rintro p ⟨q, hq, hp⟩
      have := h' q hq p hp
      cases hd : disk p with
      | none => exact absurd hd this
      | some d => rfl
    simp only [ArchiveBuilder.resolve, Builder.mk.injEq, TableOptions.mk.injEq] at ih
    obtain ⟨h1, h2, h3, h4, h5, h6, h7, h8⟩ := ih
    cases c
    all_goals simp only [BuilderCall.inline, ArchiveBuilder.call, ArchiveBuilder.push, ArchiveBuilder.resolve, Builder.mk.injEq,
      TableOptions.mk.injEq, List.map_append, List.map_cons, List.map_nil, h1, h2, h3, h4, h5, h6, h7, h8, and_self,
      QueuedFile.resolve, FileSource.read, true_and, List.append_cancel_left_eq, List.cons.injEq, PendingFile.mk.injEq, and_true]
    · refine key _ ⟨_, List.mem_append_right _ (List.mem_singleton.2 rfl), ?_⟩
      rfl
    · refine key _ ⟨_, List.mem_append_right _ (List.mem_singleton.2 rfl), ?_⟩
      rfl
    · refine key _ ⟨_, List.mem_append_right _ (List.mem_singleton.2 rfl), ?_⟩
      rfl

/-- The call that adds a file with the default options. -/
def addDefault (x : FileSource × List Byte) : BuilderCall :=
  match x.1 with
  | .path p => .addFile p x.2
  | .data d => .addFileData d x.2

theorem addDefault_request (x : FileSource × List Byte) : (addDefault x).request = some (x.1, x.2, none, false, false, 0) := by
  obtain ⟨s, n⟩ := x
  cases s <;> rfl

/-- The archive that a new builder makes of files added with the default options. -/
theorem calls_default (files : List (FileSource × List Byte)) : ArchiveBuilder.calls (files.map addDefault) =
    { ArchiveBuilder.new with pendingFiles := files.map fun x => ⟨x.1, x.2, 0x02, false, false, 0⟩ } := by
  induction files using snoc_induction with
  | h0 => rfl
  | h1 files x ih =>
    rw [List.map_append, List.map_cons, List.map_nil, calls_snoc, ih]
    obtain ⟨s, n⟩ := x
    cases s <;> simp [addDefault, ArchiveBuilder.call, ArchiveBuilder.push, ArchiveBuilder.new]

theorem zlib_compresses {c : Codecs} (hz : ∀ x, ∃ y, c.deflate x = some y) (x : List Byte) : ∃ y, compress c x 0x02#8 = .ok y := by
  obtain ⟨y, hy⟩ := hz x
  unfold compress compressInternal
  rw [show Method.fromFlags 0x02#8 = .zlib by decide]
  simp only [zlibCompress, hy, liftCodec, bind, Except.bind]
  split <;> exact ⟨_, rfl⟩

variable {e : Env} {md5 : Md5} {b : Builder} {f : List Byte}

/-- The length of an archive of version 1 or 2. -/
theorem Layout.classic_length (L : Layout e md5 b f) (hmd : ∀ x, (md5 x).length = 16) (hv : b.version.ge .v3 = false)
    (hn : L.pending.length < 2 ^ 30) (hb : ∀ p ∈ L.pending, storedBound p < 2 ^ 32) :
    f.length ≤ (L.pending.map storedBound).sum + 82 * L.pending.length + 1000 := by
  have h30 : (2 : Nat) ^ 30 = 1073741824 := rfl
  have h32 : (2 : Nat) ^ 32 = 4294967296 := rfl
  have h1 := storedAt_length L.sector L.placed hb
  rw [← L.files_eq] at h1
  have h2 : L.hash.length = 16 * 2 ^ L.k := by rw [L.hash_eq, hashTableBytes_length, L.table_length (by omega)]
  have h3 : L.block.length = 16 * L.pending.length := by
    rw [L.block_eq, blockTableBytes_length, List.length_map, L.placed.length]
  have h4 : L.hi.length ≤ 2 * L.pending.length := by
    rw [L.hi_eq]
    split
    · rw [hiBlockTableBytes_length, List.length_map, L.placed.length]; omega
    · simp
  obtain ⟨h5, h6⟩ := L.classic hv
  have hk : 2 ^ L.k ≤ 4 * L.pending.length + 32 := by
    have h := L.slots
    obtain ⟨flag, hflag⟩ : ∃ flag, hashSizeOf b L.pending = calculateHashTableSize L.pending.length flag := ⟨_, rfl⟩
    rw [hflag] at h
    unfold calculateHashTableSize nextPowerOfTwo at h
    dsimp only at h
    generalize hc : L.pending.length + (if flag = true then 1 else 0) = c at h
    have hc1 : c ≤ L.pending.length + 1 := by rw [← hc]; split <;> omega
    rw [Nat.mod_eq_of_lt (by omega), if_neg (show ¬ max (c * 2) 16 ≤ 1 by omega)] at h
    split at h
    · rw [← Except.ok.inj h, Nat.pow_succ]
      have := Nat.log2_self_le (n := max (c * 2) 16 - 1) (by omega)
      omega
    · cases h
  have hh : b.version.headerSize.toNat ≤ 208 := by cases b.version <;> decide
  rw [L.f_length hmd, h5, h6]
  simp only [List.length_nil]
  omega

theorem sum_le_mul {k : Nat} : ∀ {l : List Nat}, (∀ x ∈ l, x ≤ k) → l.sum ≤ k * l.length
  | [], _ => by simp
  | x :: l, h => by
    have h1 := h x List.mem_cons_self
    have h2 := sum_le_mul (l := l) fun y hy => h y (List.mem_cons_of_mem _ hy)
    rw [List.sum_cons, List.length_cons, Nat.mul_add]
    omega

/-- C64: a new builder, up to half a million files of at most 4096 bytes each added from disk or from memory with the
default options, then `build`: this succeeds, and in the archive every file is read back under every spelling of its name.
Partial: larger files (see C22), more files, and names whose hashes collide. -/
theorem C64_default_round_trip_partial (e : Env) (he : e.codecs.Lawful) (hz : ∀ x, ∃ c, e.codecs.deflate x = some c) (md5 : Md5)
    (hmd : ∀ x, (md5 x).length = 16) (disk : List Byte → Option (List Byte)) (files : List (FileSource × List Byte))
    (hsmall : ∀ x ∈ files, ∃ data, x.1.read disk = some data ∧ data.length ≤ 4096)
    (hdist : (attributesName :: (files.map (·.2) ++ [listfileName])).Pairwise fun a b =>
      ¬ Spec.sameName (a.map BitVec.toNat) (b.map BitVec.toNat))
    (hc : NoCollision (attributesName :: (files.map (·.2) ++ [listfileName])))
    (hcount : files.length ≤ 2 ^ 19) (hlist : (files.map (·.2.length)).sum ≤ 2 ^ 29) :
    ∃ f a, (ArchiveBuilder.calls (files.map addDefault)).build e md5 disk = .ok f ∧ openArchive e f = .ok a ∧
      ∀ x ∈ files, ∀ (name data : List Byte), x.1.read disk = some data →
        Spec.sameName (name.map BitVec.toNat) (x.2.map BitVec.toNat) → a.readFile e name = .ok data := by
  have e29 : (2 : Nat) ^ 29 = 536870912 := rfl
  have e30 : (2 : Nat) ^ 30 = 1073741824 := rfl
  have e31 : (2 : Nat) ^ 31 = 2147483648 := rfl
  have e19 : (2 : Nat) ^ 19 = 524288 := rfl
  have e64 : (2 : Nat) ^ 64 = 18446744073709551616 := rfl
  have e32 : (2 : Nat) ^ 32 = 4294967296 := rfl
  have htext : (listfileText (files.map (·.2))).length ≤ 2 ^ 30 := by
    have key : ∀ l : List (FileSource × List Byte), ((l.map (·.2)).flatMap fun n => n ++ [(0x0D : Byte), 0x0A]).length =
        (l.map (·.2.length)).sum + 2 * l.length := by
      intro l
      induction l with
      | nil => rfl
      | cons x l ih =>
        rw [List.map_cons, List.flatMap_cons, List.length_append, ih, List.map_cons, List.sum_cons, List.length_cons,
          List.length_append, List.length_cons, List.length_cons, List.length_nil]
        omega
    unfold listfileText
    rw [List.length_append, key, show (listfileName ++ [(0x0D : Byte), 0x0A]).length = 12 by decide]
    omega
  let b : Builder := ⟨.v1, 3, files.map fun x => ⟨x.1.read disk, x.2, 0x02, false, false, 0⟩, .generate, 0x02, false, ⟨false, 0x02⟩⟩
  have hb : (ArchiveBuilder.calls (files.map addDefault)).resolve disk = b := by
    rw [calls_default]
    simp only [ArchiveBuilder.resolve, ArchiveBuilder.new, List.map_map, b]
    rfl
  have hnm : b.pending.map (·.name) = files.map (·.2) := by
    simp only [b, List.map_map]; rfl
  let pending := b.pending ++ [⟨some (listfileText (files.map (·.2))), listfileName, 0x02, false, false, 0⟩]
  have hp : prepareListfile b = .ok pending := by
    show Except.ok (b.pending ++ [⟨some (listfileText (b.pending.map (·.name))), listfileName, 0x02, false, false, 0⟩]) = _
    rw [hnm]
  have hnames : pending.map (·.name) = files.map (·.2) ++ [listfileName] := by
    simp only [pending, List.map_append, hnm]; rfl
  have hmem : ∀ p ∈ pending, (∃ x ∈ files, p = ⟨x.1.read disk, x.2, 0x02, false, false, 0⟩) ∨
      p = ⟨some (listfileText (files.map (·.2))), listfileName, 0x02, false, false, 0⟩ := by
    intro p hp
    rcases List.mem_append.1 hp with hp | hp
    · obtain ⟨x, hx, rfl⟩ := List.mem_map.1 hp
      exact .inl ⟨x, hx, rfl⟩
    · exact .inr (List.mem_singleton.1 hp)
  have hsize : ∀ p ∈ pending, ∃ data, p.source = some data ∧ data.length + data.length / 64 + 12 < 2 ^ 32 := by
    intro p hp
    rcases hmem p hp with ⟨x, hx, rfl⟩ | rfl
    · obtain ⟨data, hd, hl⟩ := hsmall x hx
      exact ⟨data, hd, by omega⟩
    · exact ⟨_, rfl, by omega⟩
  have hlen : pending.length = files.length + 1 := by simp [pending, b]
  have hbuildable : Buildable e b pending :=
    { shift := by show (3#16).toNat < 55; decide
      prepared := hp
      count := by omega
      readable := by
        intro p hp
        obtain ⟨data, hd, hl⟩ := hsize p hp
        have hm : p.compression = 0x02#8 := by
          rcases hmem p hp with ⟨x, hx, rfl⟩ | rfl <;> rfl
        refine ⟨data, hd, hl, ?_⟩
        unfold Compressible
        rw [hm]
        split
        · exact zlib_compresses hz _
        · intro x _; exact zlib_compresses hz _
      names := by rw [hnames]; exact noCollision_tail hc
      distinct := by
        have := (List.pairwise_cons.1 hdist).2
        rw [← hnames, List.pairwise_map] at this
        exact this.imp (fun h h' => h h'.1) }
  obtain ⟨f, hf⟩ := C50_classic_build_succeeds e md5 b pending hbuildable (.inl rfl)
  have hfl : f.length < 2 ^ 32 := by
    obtain ⟨L⟩ := layout_of_build hmd hf
    have hpe : L.pending = pending := Except.ok.inj (L.prepared.symm.trans hp)
    have hbound : ∀ p ∈ pending, storedBound p < 2 ^ 32 := by
      intro p hp
      obtain ⟨data, hd, hl⟩ := hsize p hp
      unfold storedBound
      rw [hd]
      exact hl
    have h1 := L.classic_length hmd rfl (by rw [hpe]; omega) (by rw [hpe]; exact hbound)
    rw [hpe] at h1
    have h2 : (b.pending.map storedBound).sum ≤ 4172 * b.pending.length := by
      have := sum_le_mul (k := 4172) (l := b.pending.map storedBound) (by
        intro n hn
        obtain ⟨p, hp, rfl⟩ := List.mem_map.1 hn
        obtain ⟨x, hx, rfl⟩ := List.mem_map.1 hp
        obtain ⟨data, hd, hl⟩ := hsmall x hx
        unfold storedBound
        simp only [hd]
        omega)
      rwa [List.length_map] at this
    have h3 : b.pending.length = files.length := by simp only [b, List.length_map]
    have h4 : (pending.map storedBound).sum = (b.pending.map storedBound).sum +
        ((listfileText (files.map (·.2))).length + (listfileText (files.map (·.2))).length / 64 + 12) := by
      show ((b.pending ++ [_]).map storedBound).sum = _
      rw [List.map_append, List.sum_append]
      simp [storedBound]
    omega
  obtain ⟨a, ss, ho, hss, hr, _⟩ := C26_read_back_partial e he md5 hmd b f hf pending hp (fun h => (nomatch h)) [] [] rfl
    (by intro o ho; cases ho) hfl (by simp only [List.length_nil]; omega)
    (by omega)
    (fun p hp data hd => by
      obtain ⟨data', hd', hl⟩ := hsize p hp
      cases Option.some.inj (hd.symm.trans hd')
      exact hl)
    (fun p hp => by
      have := (List.pairwise_cons.1 hdist).1 p.name (by rw [← hnames]; exact List.mem_map.2 ⟨p, hp, rfl⟩)
      exact this)
    (by rw [hnames]; exact hc)
  rw [List.nil_append, List.append_nil] at ho
  refine ⟨f, a, by unfold ArchiveBuilder.build; rw [hb]; exact hf, ho, ?_⟩
  intro x hx name data hd hname
  obtain ⟨i, hi, hxi⟩ := List.mem_iff_getElem.1 hx
  have hpi : pending[i]? = some ⟨x.1.read disk, x.2, 0x02, false, false, 0⟩ := by
    show (files.map _ ++ _)[i]? = _
    rw [List.getElem?_append_left (by simpa using hi), List.getElem?_map, List.getElem?_eq_getElem hi, hxi]
    rfl
  obtain ⟨data', hd', _, hok⟩ := hr i _ name hpi hname (by
    intro j hj q hq hsn
    have h1 : (pending.map (·.name))[j]? = some q.name := by rw [List.getElem?_map, hq]; rfl
    have h2 : (pending.map (·.name))[i]? = some x.2 := by rw [List.getElem?_map, hpi]; rfl
    have hpw := (List.pairwise_cons.1 hdist).2
    rw [← hnames] at hpw
    obtain ⟨hj', h1⟩ := List.getElem?_eq_some_iff.1 h1
    obtain ⟨hi', h2⟩ := List.getElem?_eq_some_iff.1 h2
    have := List.pairwise_iff_getElem.1 hpw j i hj' hi' hj
    rw [h1, h2] at this
    exact this (sameName_of_normalise ((normalise_of_sameName hsn).symm.trans (normalise_of_sameName hname))))
  have hd' : x.1.read disk = some data' := hd'
  cases Option.some.inj (hd.symm.trans hd')
  have hss' : sectorSizeOf 3#16 = .ok ss := hss
  rw [show sectorSizeOf 3#16 = .ok 4096 by decide] at hss'
  cases Except.ok.inj hss'
  obtain ⟨data'', hd'', hl⟩ := hsmall x hx
  cases Option.some.inj (hd.symm.trans hd'')
  exact hok hl ⟨by show (2#8).toNat < 64; decide, by show (2#8 : Byte) ≠ _; decide, by show (2#8 : Byte) ≠ _; decide,
    fun h => by rcases h with h | h <;> exact absurd h (by show ¬ (2#8 : Byte) = _; decide), by omega⟩

/-- Setting the version in between, a file from disk, a file from memory with its own method, and a change of the default
that comes too late for the first file. -/
def sampleCalls : List BuilderCall := [
  .addFile (ascii "/tmp/a") (ascii "a.txt"), .version .v2, .defaultCompression 0x10,
  .addFileData [1, 2, 3] (ascii "b.bin"), .version .v1,
  .addFileDataWithEncryption [4, 5] (ascii "c.bin") 0 true 0x409]

example : ArchiveBuilder.calls sampleCalls =
    { version := .v1, blockSize := 3, listfileOption := .generate, defaultCompression := 0x10, generateCrcs := false,
      compressTables := false, tableCompression := 0x02,
      pendingFiles := [⟨.path (ascii "/tmp/a"), ascii "a.txt", 0x02, false, false, 0⟩,
        ⟨.data [1, 2, 3], ascii "b.bin", 0x10, false, false, 0⟩,
        ⟨.data [4, 5], ascii "c.bin", 0, true, true, 0x409⟩] } := rfl

example : (ArchiveBuilder.calls sampleCalls).paths = [ascii "/tmp/a"] := rfl

example : (BuilderCall.version .v2).option ≠ 0 ∧ ∀ d ∈ [BuilderCall.addFile (ascii "/tmp/a") (ascii "a.txt")],
    d.option ≠ (BuilderCall.version .v2).option := by decide

theorem toyPack_total (x : List Byte) : ∃ c, toyPack x = some c := by
  unfold toyPack
  split
  · split <;> exact ⟨_, rfl⟩
  · exact ⟨_, rfl⟩

/-- A disk with one file. -/
def oneFile : List Byte → Option (List Byte) := fun p => if p = ascii "/tmp/a" then some (List.replicate 40 0x41#8) else none

example : ∃ f a, (ArchiveBuilder.calls ([(FileSource.path (ascii "/tmp/a"), ascii "a.txt"), (.data [1, 2, 3], ascii "Dir\\b.bin")].map
    addDefault)).build toyEnv zeroMd5 oneFile = .ok f ∧ openArchive toyEnv f = .ok a ∧
      a.readFile toyEnv (ascii "A.TXT") = .ok (List.replicate 40 0x41#8) ∧ a.readFile toyEnv (ascii "dir/b.bin") = .ok [1, 2, 3] := by
  obtain ⟨f, a, hf, ha, hr⟩ := C64_default_round_trip_partial toyEnv toyCodecs_lawful toyPack_total zeroMd5
    (fun _ => List.length_replicate)
    oneFile [(FileSource.path (ascii "/tmp/a"), ascii "a.txt"), (.data [1, 2, 3], ascii "Dir\\b.bin")]
    (by
      intro x hx
      simp only [List.mem_cons, List.not_mem_nil, or_false] at hx
      rcases hx with rfl | rfl
      · exact ⟨List.replicate 40 0x41#8, by decide +kernel, by decide⟩
      · exact ⟨[1, 2, 3], rfl, by decide⟩)
    (by decide +kernel) (noCollision_lit (by decide +kernel)) (by decide) (by decide +kernel)
  exact ⟨f, a, hf, ha, hr _ List.mem_cons_self _ _ (by decide +kernel) (by decide +kernel),
    hr _ (List.mem_cons_of_mem _ List.mem_cons_self) _ _ rfl (by decide +kernel)⟩

end Mopaq
