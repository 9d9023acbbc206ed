import Verif.Props.Info
import Verif.Props.Enumerate

/-!
# Reading files of large archives of versions 3 and 4 (C26)

From five files on the HET table can resolve names, always to file 0 (C31). What that means for reading.
-/

namespace Mopaq

/-- In the table written for any names, every lookup gives nothing or file 0; none panics. -/
theorem het_lookup (names : List (List Byte)) (c : HetContent) (hc : hetContent names = .ok c) (t : HetTable)
    (hh : t.header = c.header) (name : List Byte) : t.findFile name = .ok none ∨ t.findFile name = .ok (some 0#32) := by
  obtain ⟨⟨k, hk32, hnp, hts, hes, htot, hha⟩, hmax, hidx, hsize, hbound, hsm⟩ := hetContent_facts hc
  have h32 : (2 : Nat) ^ 32 = 4294967296 := rfl
  have h29 : (2 : Nat) ^ 29 = 536870912 := rfl
  have hb1 : 1 ≤ bitsNeeded (2 ^ k) := by
    have := lt_bitsNeeded (2 ^ k)
    cases hz : bitsNeeded (2 ^ k) with
    | zero => rw [hz] at this; have := Nat.two_pow_pos k; omega
    | succ n => omega
  have hb2 : bitsNeeded (2 ^ k) ≤ 33 := bitsNeeded_le (by omega) (Nat.pow_lt_pow_right (by omega) (by omega))
  have hp := Nat.two_pow_pos k
  have hsz : 2 ^ k ≤ 2 ^ k * bitsNeeded (2 ^ k) := Nat.le_mul_of_pos_right _ hb1
  have hbits : c.header.hashTableSize.toNat * 8 < 2 ^ 32 := by
    by_cases hk3 : k < 3
    · have : 2 ^ k * bitsNeeded (2 ^ k) ≤ 2 ^ 2 * 33 :=
        Nat.mul_le_mul (Nat.pow_le_pow_right (by omega) (by omega)) hb2
      rw [hts]; omega
    · have h8 : 2 ^ 3 ≤ 2 ^ k := Nat.pow_le_pow_right (by omega) (by omega)
      have hi : 1 ≤ bitsNeeded (names.length % 2 ^ 32) := by
        unfold bitsNeeded
        split
        · exact Nat.le_refl _
        · omega
      have hii : 2 ^ k ≤ 2 ^ k * bitsNeeded (names.length % 2 ^ 32) := Nat.le_mul_of_pos_right _ hi
      rw [hha, Nat.mul_add] at hsm
      rw [hts]; omega
  have hne : c.header.hashEntrySize ≠ 0#32 := by
    intro h0
    rw [h0] at hes
    have : (0#32).toNat = 0 := rfl
    omega
  have hen : c.header.hashTableSize.toNat * 8 / bitsNeeded (2 ^ k) ≠ 0 := by
    have hle : bitsNeeded (2 ^ k) ≤ 2 ^ k * bitsNeeded (2 ^ k) := Nat.le_mul_of_pos_left _ hp
    have := Nat.div_pos (show bitsNeeded (2 ^ k) ≤ c.header.hashTableSize.toNat * 8 by rw [hts]; omega) hb1
    omega
  cases hf : t.findFile name with
  | ok r =>
    cases r with
    | none => exact .inl rfl
    | some i => exact .inr (by rw [C31_lookup_only_index_zero t name i hf])
  | error err =>
    exfalso
    unfold HetTable.findFile u32Checked at hf
    rw [hh, if_pos hbits] at hf
    simp only [bind, Except.bind, pure, Except.pure, if_neg hne] at hf
    rw [hes, if_neg hen] at hf
    split at hf
    · cases hf
    · split at hf
      · cases hf
      · unfold shr64 at hf
        rw [if_pos (by omega)] at hf
        dsimp only at hf
        split at hf <;> cases hf

/-- Reading a file that is not encrypted does not depend on the name under which it was found. -/
theorem readFileData_plain (e : Env) (F : List Byte) (ao : Nat) (shift : U16) (n1 n2 : List Byte) (info : FileInfo)
    (h : info.isEncrypted = false) (k : U32) (size : Nat) :
    readFileData e F ao shift n1 info k size = readFileData e F ao shift n2 info k size := by
  unfold readFileData readerKey
  simp only [h, Bool.false_eq_true, if_false]

variable {e : Env} {md5 : Md5} {b : Builder} {f : List Byte}

/-- The lookup of a name gave the record of the archive's first file. -/
def TakenForFirst (a : Archive) (s : Stored) (name : List Byte) : Prop :=
  a.findFile name = .ok (some ⟨0, 0, a.archiveOffset + s.block.filePos.toNat, s.block.compressedSize.toNat,
    s.block.fileSize.toNat, s.block.flags, 0⟩)

/-- How names are looked up in an archive with uncompressed extended tables and records of less than 64 bits: through the
classic tables if the HET table does not resolve the name or the BET table has less than eight bytes of records, otherwise
the name is taken for the first file. -/
theorem Layout.lookup_exact (L : Layout e md5 b f) (hmd : ∀ x, (md5 x).length = 16) (hge : b.version.ge .v3 = true)
    (hno : b.tables.compressTables = false) (before after : List Byte)
    (hlen : f.length < addressable b.version) (hfit : before.length + f.length < 2 ^ 64)
    (hn : L.pending.length < 0xFFFFFFFE) (hw : (betWidths (L.stored.map (·.block))).total < 64) :
    ∃ c t u, hetContent (L.pending.map (·.name)) = .ok c ∧ t.header = c.header ∧
      (2 ≤ L.pending.length → t.hashTable = c.hashArea.take c.header.hashTableSize.toNat) ∧
      Mopaq.loadHet e (before ++ f ++ after) before.length L.hdr = .ok (some t) ∧
      Mopaq.loadBet e (before ++ f ++ after) before.length L.hdr = .ok (some u) ∧
      ∀ a, L.Opened before after a → a.hetTable = some t → a.betTable = some u → ∀ name,
        (t.findFile name = .ok none ∨ (L.pending.length * (betWidths (L.stored.map (·.block))).total + 7) / 8 < 8 →
          FallsBack a name) ∧
        (t.findFile name = .ok (some 0#32) → 8 ≤ (L.pending.length * (betWidths (L.stored.map (·.block))).total + 7) / 8 →
          ∃ s, L.stored[0]? = some s ∧ TakenForFirst a s name) := by
  obtain ⟨hd, bd, hhd, hwh, hbd, hwb⟩ := L.extended hge
  obtain ⟨hc, hcc⟩ := createHet_content hhd
  obtain ⟨bc, hbc⟩ := createBet_content hbd
  have h32 : (2 : Nat) ^ 32 = 4294967296 := rfl
  have hbl : (L.stored.map (·.block)).length = (L.pending.map (·.name)).length := by
    rw [List.length_map, List.length_map, L.placed.length]
  have hnl : (L.pending.map (·.name)).length = L.pending.length := List.length_map _
  obtain ⟨pre, post, hF, hh⟩ := L.loadHet hmd before after hlen hfit hge
  obtain ⟨pre', post', hF', hb'⟩ := L.loadBet hmd before after hlen hfit hge
  obtain ⟨t, ht, hth, htl⟩ := het_read e.codecs b.tables hno pre post _ (by omega) hc hcc hd L.het hhd hwh
  obtain ⟨u, hu, hu1, hu2, hu3, _⟩ := C33_bet_uncompressed_partial e.codecs b.tables hno pre' post' _ _ hbl (by omega) bc hbc
    bd L.bet hbd hwb
  have hf := betContent_facts hbl (by omega) hbc
  have hft : bc.fileTable.length = (L.pending.length * (betWidths (L.stored.map (·.block))).total + 7) / 8 := by
    rw [hf.tableLength, hnl]
  refine ⟨hc, t, u, hcc, hth, ?_, ?_, ?_, ?_⟩
  · intro h2
    obtain ⟨t', ht', _, ht2⟩ := C33_het_uncompressed_partial e.codecs b.tables hno pre post _ (by omega) (by omega) hc hcc hd
      L.het hhd hwh
    rw [ht] at ht'
    rw [Except.ok.inj ht']
    exact ht2
  · rw [hh, hF, ht]; rfl
  · rw [hb', hF', hu]; rfl
  intro a ho hhet hbet name
  rw [← hft]
  cases hus : usableHetBet a.hetTable a.betTable with
  | none =>
    refine ⟨fun _ => fallsBack_unusable hus name, fun _ h8 => ?_⟩
    exfalso
    rw [hhet, hbet] at hus
    unfold usableHetBet at hus
    dsimp only at hus
    have hn0 : L.pending.length ≠ 0 := by
      intro h0
      rw [hft, h0, Nat.zero_mul] at h8
      omega
    rw [if_pos (by rw [hth, hu1, hf.count, (hetContent_facts hcc).max, hnl, Nat.mod_eq_of_lt (by omega)]; omega)] at hus
    cases hus
  | some x =>
    obtain ⟨het, bet⟩ := x
    have hus0 := hus
    rw [hhet, hbet] at hus
    unfold usableHetBet at hus
    dsimp only at hus
    split at hus
    · rename_i hpos
      injection hus with hus
      injection hus with hus1 hus2
      subst hus1 hus2
      constructor
      · rintro (h0 | h8)
        · exact fallsBack_unresolved hus0 h0 (by rw [ho.hash]; rfl) (by rw [ho.block]; rfl)
        rcases het_lookup _ hc hcc t hth name with h0 | h0
        · exact fallsBack_unresolved hus0 h0 (by rw [ho.hash]; rfl) (by rw [ho.block]; rfl)
        · have hnone : u.getFileInfo 0#32 = .ok none := getFileInfo_no_room (i := 0) (by omega) (by
            rw [hu3]; omega)
          unfold FallsBack Archive.findFile
          rw [hus0]
          dsimp only
          unfold hetBetFind
          rw [h0]
          simp only [bind, Except.bind]
          rw [hnone, ho.hash, ho.block]
          rfl
      · intro h0 hroom
        have hcnt : 0 < (L.stored.map (·.block)).length := by
          have := hf.count
          rw [hu1] at hpos
          omega
        cases hst : L.stored with
        | nil => rw [hst] at hcnt; cases hcnt
        | cons s st =>
          refine ⟨s, rfl, ?_⟩
          have hrec := C32_record_round_trip_partial _ _ hbl (by omega) bc hbc u hu1 hu2 hu3 0 hcnt _ rfl
            (by rw [hf.entrySize]; exact hw) (by rw [hf.entrySize]; omega) (by omega)
          have hs0 : (L.stored.map (·.block))[0] = s.block := by simp only [hst]; rfl
          rw [hs0] at hrec
          unfold TakenForFirst Archive.findFile
          rw [hus0]
          dsimp only
          unfold hetBetFind
          rw [h0]
          simp only [bind, Except.bind]
          rw [show (0#32 : U32) = BitVec.ofNat 32 0 from rfl, hrec]
          dsimp only
          have hpl := L.placed
          rw [hst] at hpl
          have hset : ∀ x : U32, (x.setWidth 64).toNat = x.toNat := by
            intro x
            rw [BitVec.toNat_setWidth, Nat.mod_eq_of_lt (by have := x.isLt; omega)]
          have hsp : s.block.filePos.toNat ≤ f.length := by
            have hfl := L.f_length hmd
            cases hpp : L.pending with
            | nil => rw [hpp] at hpl; exact hpl.elim
            | cons p ps =>
              rw [hpp] at hpl
              obtain ⟨_, _, _, _, hse⟩ := storeFile_ok hpl.1
              rw [hse]
              show (BitVec.ofNat 32 _).toNat ≤ _
              rw [BitVec.toNat_ofNat]
              have := Nat.mod_le b.version.headerSize.toNat (2 ^ 32)
              omega
          rw [addPos_ok (by rw [hset, ho.offset]; omega)]
          dsimp only
          rw [hset, hset, hset]
          rfl
    · cases hus

/-- What C26 says about reading a file under a name: it gives the content exactly if that is recoverable. -/
def ReadsAs (e : Env) (a : Archive) (ss : Nat) (p : PendingFile) (name : List Byte) : Prop :=
  ∃ data, p.source = some data ∧
    (data.length ≤ ss ∨ Spec.LosslessMethod p.compression data →
      (a.readFile e name = .ok data ↔ Recoverable e.codecs ss p.compression data)) ∧
    (data.length ≤ ss → Spec.LosslessMethod p.compression data → a.readFile e name = .ok data)

/-- Reading a file once it has been found, under its own name or unencrypted. -/
theorem Layout.reads_found (L : Layout e md5 b f) (hmd : ∀ x, (md5 x).length = 16) {before after : List Byte} {a : Archive}
    (ha : L.Opened before after a) {i : Nat} {p : PendingFile} {s : Stored} {pre post : List Byte}
    (hs : L.stored[i]? = some s) (hfiles : L.files = pre ++ s.bytes ++ post)
    (hstore : storeFile e b.generateCrcs L.sectorSize (b.version.headerSize.toNat + pre.length) p = .ok s)
    (hsize : ∀ data, p.source = some data → data.length + data.length / 64 + 12 < 2 ^ 32) (he : e.codecs.Lawful)
    (name : List Byte) (info : FileInfo) (hfind : a.findFile name = .ok (some info)) (hbi : info.blockIndex = i)
    (hpos : info.filePos = before.length + (b.version.headerSize.toNat + pre.length))
    (hcs : info.compressedSize = s.block.compressedSize.toNat) (hfs : info.fileSize = s.block.fileSize.toNat)
    (hfl : info.flags = s.block.flags)
    (hname : Spec.sameName (name.map BitVec.toNat) (p.name.map BitVec.toNat) ∨ p.encrypt = false) :
    ReadsAs e a L.sectorSize p name := by
  obtain ⟨data, w0, hdata, hw0, hs0⟩ := storeFile_ok hstore
  have hsize := hsize data hdata
  obtain ⟨w, pre', post', hw, hdesc, hpl, hread⟩ := L.read_found hmd ha hs hfiles hstore data hdata hsize name _ hfind hbi
    hpos hcs hfs hfl
  have key : ∃ n, a.readFile e name = readFileData e (pre' ++ w.bytes ++ post') before.length b.blockSize n info
      (BitVec.ofNat 32 data.length) data.length ∧ Spec.sameName (n.map BitVec.toNat) (p.name.map BitVec.toNat) := by
    rcases hname with hname | henc
    · exact ⟨name, hread, hname⟩
    · refine ⟨p.name, ?_, sameName_of_normalise rfl⟩
      rw [hread]
      apply readFileData_plain
      have := writeFile_encrypt_flag hw0
      unfold FileInfo.isEncrypted
      rw [hfl, hs0]
      exact this.trans henc
  obtain ⟨n, hread, hname⟩ := key
  refine ⟨data, hdata, ?_⟩
  rw [hread]
  constructor
  · intro hor
    unfold Recoverable
    by_cases hl : data.length ≤ L.sectorSize
    · rw [if_pos hl]
      exact C21_single_unit_exact e b.generateCrcs _ w hw hl _ before.length hdesc pre' post' hpl b.blockSize n hname
    · rw [if_neg hl]
      exact C22_multi_sector_exact_partial e he b.generateCrcs _ w hw (by dsimp only; omega) b.blockSize L.sector hsize
        (hor.resolve_left hl) _ before.length hdesc pre' post' hpl n hname
  · intro hl hm
    exact C21_single_unit_round_trip_partial e he b.generateCrcs _ w hw hl hm _ before.length hdesc pre' post' hpl
      b.blockSize n hname

/-- Reading under a name that is taken for the first file. -/
theorem Layout.taken_reads (L : Layout e md5 b f) (hmd : ∀ x, (md5 x).length = 16) {before after : List Byte} {a : Archive}
    (ho : L.Opened before after a) (he : e.codecs.Lawful)
    (hsize : ∀ p ∈ L.pending, ∀ data, p.source = some data → data.length + data.length / 64 + 12 < 2 ^ 32) :
    ∀ name s, L.stored[0]? = some s → TakenForFirst a s name → ∃ (first : PendingFile) (info : FileInfo),
      L.pending[0]? = some first ∧ a.findFile name = .ok (some info) ∧ info.blockIndex = 0 ∧ info.fileSize = first.size ∧
      (Spec.sameName (name.map BitVec.toNat) (first.name.map BitVec.toNat) ∨ first.encrypt = false →
        ReadsAs e a L.sectorSize first name) := by
  intro name s hs ht
  have hpl := L.placed
  cases hst : L.stored with
  | nil => rw [hst] at hs; cases hs
  | cons s' st =>
    rw [hst] at hs hpl
    injection hs with hs
    have hs : s' = s := hs
    subst hs
    cases hpp : L.pending with
    | nil => rw [hpp] at hpl; exact hpl.elim
    | cons p ps =>
      rw [hpp] at hpl
      obtain ⟨data, w, hdata, _, hse⟩ := storeFile_ok hpl.1
      have hpm : p ∈ L.pending := by rw [hpp]; exact List.mem_cons_self
      have hsz := hsize p hpm data hdata
      refine ⟨p, _, rfl, ht, rfl, ?_, ?_⟩
      · show s'.block.fileSize.toNat = p.size
        rw [hse]
        show (BitVec.ofNat 32 data.length).toNat = _
        rw [BitVec.toNat_ofNat, Nat.mod_eq_of_lt (by omega)]
        unfold PendingFile.size
        rw [hdata]
        rfl
      · intro hor
        refine L.reads_found hmd ho (i := 0) (s := s') (pre := []) (post := st.flatMap (·.bytes)) (by rw [hst]; rfl) ?_
          hpl.1 (hsize p hpm) he name _ ht rfl ?_ rfl rfl rfl hor
        · rw [L.files_eq, hst]
          rfl
        · show a.archiveOffset + s'.block.filePos.toNat = _
          rw [ho.offset, hse]
          have hhs : b.version.headerSize.toNat < 2 ^ 32 := b.version.headerSize.isLt
          show _ + (BitVec.ofNat 32 _).toNat = _
          rw [BitVec.toNat_ofNat, Nat.mod_eq_of_lt hhs]
          rfl

/-- C26 (what holds in versions 3 and 4 for any number of files, without table compression): in the finished archive,
opened, with BET records of less than 64 bits, the first file is read back under every spelling of its name, and every
other name is either read back as C26 says (missing, if it was not added) or taken for the first file: then it has the
first file's record, and if the first file is not encrypted, reading gives the first file's content. Missing: that it is
never taken for the first file, which is false (`C26_extended_wrong_content`). -/
theorem C26_extended_read_partial (e : Env) (he : e.codecs.Lawful) (md5 : Md5) (hmd : ∀ x, (md5 x).length = 16) (b : Builder)
    (hv : b.version = .v3 ∨ b.version = .v4) (hno : b.tables.compressTables = false)
    (f : List Byte) (hb : buildBytes e md5 b = .ok f) (pending : List PendingFile) (hp : prepareListfile b = .ok pending)
    (before after : List Byte) (hal : before.length % 512 = 0)
    (hclean : ∀ o < before.length, o % 512 = 0 → ¬ Spec.archiveMark (before ++ f ++ after) o ∧
      ¬ Spec.userDataMark (before ++ f ++ after) o)
    (hlen : f.length < addressable b.version) (hfit : before.length + f.length < 2 ^ 64)
    (hcount : pending.length < 0xFFFFFFFE)
    (hsize : ∀ p ∈ pending, ∀ data, p.source = some data → data.length + data.length / 64 + 12 < 2 ^ 32)
    (hc : NoCollision (pending.map (·.name)))
    (a : Archive) (ha : openArchive e (before ++ f ++ after) = .ok a)
    (hw : ∀ bet, a.betTable = some bet → bet.header.tableEntrySize.toNat < 64) :
    ∃ ss, sectorSizeOf b.blockSize = .ok ss ∧
      (∀ (i : Nat) (p : PendingFile) (name : List Byte), pending[i]? = some p →
        Spec.sameName (name.map BitVec.toNat) (p.name.map BitVec.toNat) →
        (∀ j < i, ∀ q, pending[j]? = some q → ¬ Spec.sameName (name.map BitVec.toNat) (q.name.map BitVec.toNat)) →
        ReadsAs e a ss p name ∨ 0 < i ∧ ∃ (first : PendingFile) (info : FileInfo), pending[0]? = some first ∧
          a.findFile name = .ok (some info) ∧ info.blockIndex = 0 ∧ info.fileSize = first.size ∧
          (first.encrypt = false → ReadsAs e a ss first name)) ∧
      (∀ name, (∀ p ∈ pending, ¬ Spec.sameName (name.map BitVec.toNat) (p.name.map BitVec.toNat)) →
        NoCollision (name :: pending.map (·.name)) →
        a.readFile e name = .error .fileNotFound ∨ ∃ (first : PendingFile) (info : FileInfo), pending[0]? = some first ∧
          a.findFile name = .ok (some info) ∧ info.blockIndex = 0 ∧ info.fileSize = first.size ∧
          (first.encrypt = false → ReadsAs e a ss first name)) := by
  obtain ⟨L⟩ := layout_of_build hmd hb
  have hpe : L.pending = pending := Except.ok.inj (L.prepared.symm.trans hp)
  subst hpe
  have h32 : (2 : Nat) ^ 32 = 4294967296 := rfl
  have hge : b.version.ge .v3 = true := by rcases hv with h | h <;> rw [h] <;> rfl
  obtain ⟨ho, hhet, hbet, _⟩ := L.opened_tables hmd before after hal hclean hlen hfit hcount ha
  obtain ⟨u, hu, huw⟩ := L.betWidth hmd hge hno before after hal hclean hlen hfit hcount ha
  rw [if_pos hge] at hhet hbet
  have hwid := hw u hu
  rw [huw] at hwid
  obtain ⟨c, t, u', hcc, hth, _, hlh, hlb, hlook⟩ := L.lookup_exact hmd hge hno before after hlen hfit hcount hwid
  rw [hlh] at hhet
  rw [hlb] at hbet
  have hlook := hlook a ho (Except.ok.inj hhet).symm (Except.ok.inj hbet).symm
  have heither : ∀ name, FallsBack a name ∨ ∃ s, L.stored[0]? = some s ∧ TakenForFirst a s name := by
    intro name
    by_cases h8 : (L.pending.length * (betWidths (L.stored.map (·.block))).total + 7) / 8 < 8
    · exact .inl ((hlook name).1 (.inr h8))
    · rcases het_lookup _ c hcc t hth name with h0 | h0
      · exact .inl ((hlook name).1 (.inl h0))
      · exact .inr ((hlook name).2 h0 (by omega))
  have hfirst := L.taken_reads hmd ho he hsize
  refine ⟨L.sectorSize, L.sector, ?_, ?_⟩
  · intro i p name hp' hname hfst
    obtain ⟨s, _, _, _, _, _, hst⟩ := L.placed.get hp'
    obtain ⟨data, _, hdata, _⟩ := storeFile_ok hst
    rcases heither name with hfb | ⟨s0, hs0, ht⟩
    · exact .inl ⟨data, hdata, L.reads hmd ho hlen hfit hcount name hfb hp' hname hfst hc data hdata
        (hsize p (List.mem_of_getElem? hp') data hdata) he⟩
    · obtain ⟨first, info, h1, h2, h3, h4, h5⟩ := hfirst name s0 hs0 ht
      by_cases hi : i = 0
      · subst hi
        rw [hp'] at h1
        have h1 : p = first := Option.some.inj h1
        subst h1
        exact .inl (h5 (.inl hname))
      · exact .inr ⟨by omega, first, info, h1, h2, h3, h4, fun h => h5 (.inr h)⟩
  · intro name hnone hcn
    rcases heither name with hfb | ⟨s0, hs0, ht⟩
    · have hfn := L.find_none ho hcount name hnone hcn
      rw [← hfb] at hfn
      left
      unfold Archive.readFile
      rw [hfn]
      rfl
    · obtain ⟨first, info, h1, h2, h3, h4, h5⟩ := hfirst name s0 hs0 ht
      exact .inr ⟨first, info, h1, h2, h3, h4, fun h => h5 (.inr h)⟩

/-! ## The widths of the records -/

/-- The records of an archive of less than `2 ^ m` bytes and at most `2 ^ n` files have at most `3 m + n` bits. -/
theorem Layout.width_le (L : Layout e md5 b f) (m n : Nat) (hm : 0 < m) (hm32 : m ≤ 32) (hn : 0 < n)
    (hcount : L.pending.length ≤ 2 ^ n) (hsum : (L.pending.map storedBound).sum + b.version.headerSize.toNat < 2 ^ m) :
    (betWidths (L.stored.map (·.block))).total ≤ 3 * m + n := by
  have h32 : (2 : Nat) ^ m ≤ 2 ^ 32 := Nat.pow_le_pow_right (by omega) hm32
  have hmem : ∀ p ∈ L.pending, storedBound p < 2 ^ 32 := by
    intro p hp
    have : ∀ l : List PendingFile, p ∈ l → storedBound p ≤ (l.map storedBound).sum := by
      intro l
      induction l with
      | nil => intro h; cases h
      | cons q l ih =>
        intro h
        rw [List.map_cons, List.sum_cons]
        rcases List.mem_cons.1 h with rfl | h
        · omega
        · have := ih h; omega
    have := this _ hp
    omega
  have hall := storedAt_bound L.sector L.placed hmem
  have hbits : ∀ field : BlockEntry → U32, (∀ s ∈ L.stored, (field s.block).toNat < 2 ^ m) →
      bitsNeeded (maxField field (L.stored.map (·.block))) ≤ m := by
    intro field hf
    refine bitsNeeded_le hm ?_
    have hp := Nat.two_pow_pos m
    have := maxField_le field (2 ^ m - 1) (L.stored.map (·.block)) (by
      intro b' hb'
      obtain ⟨s, hs, rfl⟩ := List.mem_map.1 hb'
      have := hf s hs
      omega)
    omega
  have w1 := hbits (·.filePos) (fun s hs => by have := (hall s hs).1; omega)
  have w2 := hbits (·.fileSize) (fun s hs => by have := (hall s hs).2.1; omega)
  have w3 := hbits (·.compressedSize) (fun s hs => by have := (hall s hs).2.2; omega)
  have w4 : (betWidths (L.stored.map (·.block))).flag ≤ n := by
    have := flagArray_length_le (L.stored.map (·.block))
    rw [L.blocks_length] at this
    have hp := Nat.two_pow_pos n
    unfold betWidths
    dsimp only
    split
    · omega
    · exact bitsNeeded_le hn (by omega)
  unfold BetWidths.total
  unfold betWidths at w4 ⊢
  dsimp only at w4 ⊢
  omega

/-- If a file has at least `2 ^ k` bytes, the records have at least `k + 9` bits. -/
theorem Layout.width_ge (L : Layout e md5 b f) (hv : b.version = .v3 ∨ b.version = .v4) (k : Nat)
    (hsz : ∀ p ∈ L.pending, ∀ data, p.source = some data → data.length < 2 ^ 32)
    (hlong : ∃ p ∈ L.pending, 2 ^ k ≤ p.size) : k + 9 ≤ (betWidths (L.stored.map (·.block))).total := by
  obtain ⟨p, hp, hps⟩ := hlong
  obtain ⟨i, hi⟩ := List.mem_iff_getElem?.1 hp
  obtain ⟨blk, h1, _, h3⟩ := L.block_get hsz hi
  have hfs := (betWidths_fit _ blk (List.mem_of_getElem? h1)).2.1
  have w6 : k + 1 ≤ (betWidths (L.stored.map (·.block))).size := by
    rcases Nat.lt_or_ge (betWidths (L.stored.map (·.block))).size (k + 1) with h | h
    · have := Nat.pow_le_pow_right (show 0 < 2 by decide) (Nat.le_of_lt_succ h)
      omega
    · exact h
  have w7 : 0 < (betWidths (L.stored.map (·.block))).cmp := bitsNeeded_pos _
  have w5 : 7 ≤ (betWidths (L.stored.map (·.block))).pos := by
    have hpl := L.placed
    cases hpend : L.pending with
    | nil => rw [hpend] at hp; cases hp
    | cons q ps =>
      rw [hpend] at hpl
      cases hst : L.stored with
      | nil => rw [hst] at hpl; exact hpl.elim
      | cons s st =>
        rw [hst] at hpl
        obtain ⟨_, _, _, _, hs⟩ := storeFile_ok hpl.1
        have hfit := (betWidths_fit ((s :: st).map (·.block)) s.block (by simp)).1
        have hpos : 68 ≤ s.block.filePos.toNat := by
          rw [hs]
          dsimp only
          rw [BitVec.toNat_ofNat]
          rcases hv with h | h <;> rw [h] <;> decide
        rcases Nat.lt_or_ge (betWidths ((s :: st).map (·.block))).pos 7 with h | h
        · have := Nat.pow_le_pow_right (show 0 < 2 by decide) (Nat.le_of_lt_succ h)
          have h64 : (2 : Nat) ^ 6 = 64 := rfl
          omega
        · exact h
  unfold BetWidths.total
  omega

/-- C26 fails in versions 3 and 4 from five files on: whatever is stored as `a.txt`, `b.txt`, `c.txt`, `d.txt` and
`(listfile)` (at most 1 MiB in all, one file of at least 16 bytes, the first not encrypted and of at most one sector), reading
`c.txt` gives the content of `a.txt`, and so does reading `x.txt`, which was never added. -/
theorem C26_extended_wrong_content (e : Env) (he : e.codecs.Lawful) (md5 : Md5) (hmd : ∀ x, (md5 x).length = 16) (b : Builder)
    (hv : b.version = .v3 ∨ b.version = .v4) (hno : b.tables.compressTables = false)
    (f : List Byte) (hb : buildBytes e md5 b = .ok f) (pending : List PendingFile) (hp : prepareListfile b = .ok pending)
    (hnames : pending.map (·.name) = fiveNames)
    (hsum : (pending.map storedBound).sum + b.version.headerSize.toNat < 2 ^ 20) (hlong : ∃ p ∈ pending, 16 ≤ p.size)
    (first : PendingFile) (hfirst : pending[0]? = some first) (hplain : first.encrypt = false) (data : List Byte)
    (hdata : first.source = some data) (ss : Nat) (hss : sectorSizeOf b.blockSize = .ok ss) (hone : data.length ≤ ss)
    (hm : Spec.LosslessMethod first.compression data) :
    ∃ a, openArchive e f = .ok a ∧ a.readFile e (ascii "c.txt") = .ok data ∧ a.readFile e (ascii "x.txt") = .ok data := by
  obtain ⟨L⟩ := layout_of_build hmd hb
  have hpe : L.pending = pending := Except.ok.inj (L.prepared.symm.trans hp)
  subst hpe
  have hss' : L.sectorSize = ss := Except.ok.inj (L.sector.symm.trans hss)
  subst hss'
  have h20 : (2 : Nat) ^ 20 = 1048576 := rfl
  have h32 : (2 : Nat) ^ 32 = 4294967296 := rfl
  have h48 : (2 : Nat) ^ 48 = 281474976710656 := rfl
  have h47 : (2 : Nat) ^ 47 = 140737488355328 := rfl
  have h64 : (2 : Nat) ^ 64 = 18446744073709551616 := rfl
  have hge : b.version.ge .v3 = true := by rcases hv with h | h <;> rw [h] <;> rfl
  have h5 : L.pending.length = 5 := by
    have := congrArg List.length hnames
    rw [List.length_map] at this
    exact this
  have hbound : ∀ p ∈ L.pending, storedBound p < 2 ^ 20 := by
    intro p hp
    have : ∀ l : List PendingFile, p ∈ l → storedBound p ≤ (l.map storedBound).sum := by
      intro l
      induction l with
      | nil => intro h; cases h
      | cons q l ih =>
        intro h
        rw [List.map_cons, List.sum_cons]
        rcases List.mem_cons.1 h with rfl | h
        · omega
        · have := ih h; omega
    have := this _ hp
    omega
  have hsize : ∀ p ∈ L.pending, ∀ data, p.source = some data → data.length + data.length / 64 + 12 < 2 ^ 32 := by
    intro p hp data hd
    have := hbound p hp
    unfold storedBound at this
    rw [hd] at this
    dsimp only at this
    omega
  have hlt : f.length < 2 ^ 48 := L.length_lt hmd (by omega)
    (by intro p hp; have := hbound p hp; omega) (by omega)
  have hlen : f.length < addressable b.version := by
    unfold addressable
    rw [if_neg (by rcases hv with h | h <;> rw [h] <;> decide)]
    exact hlt
  have hwle := L.width_le 20 3 (by omega) (by omega) (by omega) (by omega) hsum
  have hwge := L.width_ge hv 4 (fun p hp data hd => by have := hsize p hp data hd; omega) hlong
  have hroom : 8 ≤ (L.pending.length * (betWidths (L.stored.map (·.block))).total + 7) / 8 := by
    rw [h5]
    omega
  obtain ⟨c, t, u, hcc, hth, hta, hlh, hlb, hlook⟩ := L.lookup_exact hmd hge hno [] [] hlen (by simp only [List.length_nil]; omega)
    (by omega) (by omega)
  have hcf : c = fiveHet := by
    rw [hnames, fiveHet_eq] at hcc
    exact (Except.ok.inj hcc).symm
  subst hcf
  have hta := hta (by omega)
  have hcong := fun name => findFile_congr t ⟨fiveHet.header, fiveHet.hashArea.take 10, []⟩ name hth hta
  have hfc : t.findFile (ascii "c.txt") = .ok (some 0#32) := by rw [hcong]; decide +kernel
  have hfx : t.findFile (ascii "x.txt") = .ok (some 0#32) := by rw [hcong]; decide +kernel
  have hfa : t.findFile attributesName = .ok none := by rw [hcong]; decide +kernel
  obtain ⟨a, ha, hht, hbt, hat, _, hopen⟩ := L.open hmd [] [] rfl (by intro o ho; cases ho) hlen
    (by simp only [List.length_nil]; omega) (by omega) (some t) (some u) (by rw [if_pos hge]; exact hlh)
    (by rw [if_pos hge]; exact hlb)
  have hfn : a.findFile attributesName = .ok none := by
    rw [(hlook a ha hht hbt attributesName).1 (.inl hfa)]
    have key : ∀ n ∈ fiveNames, ¬ Spec.sameName (attributesName.map BitVec.toNat) (n.map BitVec.toNat) := by decide +kernel
    refine L.find_none ha (by omega) _ ?_ ?_
    · intro p hp
      exact key _ (by rw [← hnames]; exact List.mem_map.2 ⟨p, hp, rfl⟩)
    · rw [hnames]; exact noCollision_lit (by decide +kernel)
  rw [loadAttributes_none hfn hat] at hopen
  have ha' : L.Opened [] [] { a with attributes := none } := ⟨ha.file, ha.offset, ha.header, ha.hash, ha.block, ha.his⟩
  have hopen' : openArchive e ([] ++ f ++ []) = .ok { a with attributes := none } := hopen
  rw [List.nil_append, List.append_nil] at hopen'
  have hread : ∀ name, t.findFile name = .ok (some 0#32) →
      ({ a with attributes := none } : Archive).readFile e name = .ok data := by
    intro name hf
    obtain ⟨s, hs, ht⟩ := (hlook { a with attributes := none } ha' hht hbt name).2 hf hroom
    obtain ⟨p, _, h1, _, _, _, h2⟩ := L.taken_reads hmd ha' he hsize name s hs ht
    rw [hfirst] at h1
    have h1 := Option.some.inj h1
    subst h1
    obtain ⟨data', hd', _, h3⟩ := h2 (.inr hplain)
    rw [hdata] at hd'
    have hd' := Option.some.inj hd'
    subst hd'
    exact h3 hone hm
  exact ⟨_, hopen', hread _ hfc, hread _ hfx⟩

/-! ## Example -/

/-- A stored file of 16 equal bytes. -/
def letterFile (name : String) (byte : Byte) : PendingFile :=
  { source := some (List.replicate 16 byte), name := ascii name, compression := 0, encrypt := false, useFixKey := false, locale := 0 }

def fivePending : List PendingFile :=
  [letterFile "a.txt" 0x41, letterFile "b.txt" 0x42, letterFile "c.txt" 0x43, letterFile "d.txt" 0x44, letterFile "(listfile)" 0x45]

/-- Five stored files with the names of `fiveNames`. -/
def fiveBuilder (v : FormatVersion) : Builder := { sampleBuilder v with listfile := .none, pending := fivePending }

theorem fiveBuilder_prepared (v : FormatVersion) : prepareListfile (fiveBuilder v) = .ok fivePending := rfl

theorem five_buildable (v : FormatVersion) : Buildable toyEnv (fiveBuilder v) fivePending where
  shift := by show (3#16).toNat < 55; decide
  prepared := fiveBuilder_prepared v
  count := by decide
  readable := by
    intro p hp
    have key : ∀ name byte, ∃ data, (letterFile name byte).source = some data ∧ data.length + data.length / 64 + 12 < 2 ^ 32 ∧
        Compressible toyCodecs (512 * 2 ^ (fiveBuilder v).blockSize.toNat) (letterFile name byte).compression data := by
      intro name byte
      refine ⟨_, rfl, by rw [List.length_replicate]; decide, ?_⟩
      unfold Compressible
      rw [List.length_replicate, show (fiveBuilder v).blockSize = 3#16 from rfl, if_pos (by decide)]
      exact ⟨_, by rfl⟩
    simp only [fivePending, List.mem_cons, List.not_mem_nil, or_false] at hp
    rcases hp with rfl | rfl | rfl | rfl | rfl <;> exact key _ _
  names := noCollision_lit (by decide +kernel)
  distinct := by unfold DistinctFiles; decide +kernel

/-- In versions 3 and 4 this archive builds and opens, but `c.txt` reads as `a.txt`, and so does `x.txt`. -/
theorem five_wrong (v : FormatVersion) (hv : v = .v3 ∨ v = .v4) : ∃ f a, buildBytes toyEnv zeroMd5 (fiveBuilder v) = .ok f ∧
    openArchive toyEnv f = .ok a ∧ a.readFile toyEnv (ascii "c.txt") = .ok (List.replicate 16 0x41#8) ∧
    a.readFile toyEnv (ascii "x.txt") = .ok (List.replicate 16 0x41#8) := by
  have h20 : (2 : Nat) ^ 20 = 1048576 := rfl
  have h21 : (2 : Nat) ^ 21 = 2097152 := rfl
  have hh : v.headerSize.toNat ≤ 208 := by cases v <;> decide
  have hsum : (fivePending.map storedBound).sum < 1000 := by decide +kernel
  obtain ⟨f, hf⟩ := C50_extended_build_succeeds_partial toyEnv zeroMd5 (fiveBuilder v) fivePending (five_buildable v) (.inl rfl)
    (by show _ + v.headerSize.toNat < _; omega)
  obtain ⟨a, ha, h1, h2⟩ := C26_extended_wrong_content toyEnv toyCodecs_lawful zeroMd5 (fun _ => List.length_replicate)
    (fiveBuilder v) hv rfl f hf fivePending (fiveBuilder_prepared v) (by decide +kernel) (by show _ + v.headerSize.toNat < _; omega)
    ⟨letterFile "a.txt" 0x41, List.mem_cons_self, by decide +kernel⟩ (letterFile "a.txt" 0x41) rfl rfl _ rfl 4096
    (show sectorSizeOf 3#16 = _ by decide) (by decide)
    ⟨by decide, by decide, by decide, fun h => by rcases h with h | h <;> exact absurd h (by decide), by decide +kernel⟩
  exact ⟨f, a, hf, ha, h1, h2⟩

/-- Both properties at work on one archive: `a.txt` is read back. -/
example : ∃ f a, buildBytes toyEnv zeroMd5 (fiveBuilder .v3) = .ok f ∧ openArchive toyEnv f = .ok a ∧
    a.readFile toyEnv (ascii "A.TXT") = .ok (List.replicate 16 0x41#8) := by
  have h20 : (2 : Nat) ^ 20 = 1048576 := rfl
  have h47 : (2 : Nat) ^ 47 = 140737488355328 := rfl
  have h64 : (2 : Nat) ^ 64 = 18446744073709551616 := rfl
  have h48 : (2 : Nat) ^ 48 = 281474976710656 := rfl
  obtain ⟨f, a, hf, ha, _⟩ := five_wrong .v3 (.inl rfl)
  obtain ⟨L⟩ := layout_of_build (fun _ => List.length_replicate) hf
  have hpe : L.pending = fivePending := Except.ok.inj (L.prepared.symm.trans (fiveBuilder_prepared .v3))
  have hsum : (fivePending.map storedBound).sum < 1000 := by decide +kernel
  have hsb : ∀ p ∈ fivePending, storedBound p + (p.source.getD []).length < 1000 := by decide +kernel
  have hhs : (fiveBuilder .v3).version.headerSize.toNat = 68 := by decide
  have hlt : f.length < 2 ^ 48 := L.length_lt (fun _ => List.length_replicate) (by rw [hpe]; decide)
    (by rw [hpe]; intro p hp; have := hsb p hp; omega) (by rw [hpe]; omega)
  have ha' : openArchive toyEnv ([] ++ f ++ []) = .ok a := by rw [List.nil_append, List.append_nil]; exact ha
  have hfit : ([] : List Byte).length + f.length < 2 ^ 64 := by simp only [List.length_nil]; omega
  obtain ⟨ss, hss, hr, _⟩ := C26_extended_read_partial toyEnv toyCodecs_lawful zeroMd5 (fun _ => List.length_replicate)
    (fiveBuilder .v3) (.inl rfl) rfl f hf fivePending (fiveBuilder_prepared .v3) [] [] rfl (by intro o ho; cases ho) (by exact hlt)
    hfit (by decide) (fun p hp data hd => by
      have := hsb p hp
      rw [hd] at this
      have : storedBound p + data.length < 1000 := this
      omega) (noCollision_lit (by decide +kernel)) a ha' (by
      intro bet hbet
      obtain ⟨u', hu', hw'⟩ := L.betWidth (fun _ => List.length_replicate) rfl rfl [] [] rfl (by intro o ho; cases ho) (by exact hlt)
        hfit (by rw [hpe]; decide) ha'
      rw [hu'] at hbet
      rw [← Option.some.inj hbet, hw']
      have := L.width_le 20 3 (by omega) (by omega) (by omega) (by rw [hpe]; decide) (by rw [hpe]; omega)
      omega)
  have hss' : ss = 4096 := Except.ok.inj (hss.symm.trans (show sectorSizeOf 3#16 = .ok 4096 by decide))
  subst hss'
  refine ⟨f, a, hf, ha, ?_⟩
  rcases hr 0 (letterFile "a.txt" 0x41) (ascii "A.TXT") rfl (by decide +kernel) (by intro j hj; omega) with h | ⟨h, _⟩
  · obtain ⟨data, hd, _, h⟩ := h
    have hd := Option.some.inj hd
    subst hd
    exact h (by decide) ⟨by decide, by decide, by decide, fun h => by rcases h with h | h <;> exact absurd h (by decide), by decide +kernel⟩
  · omega

/-! ## Compressed tables -/

/-- The HET table of the five names, as it is compressed. -/
def fiveTable : List Byte := fiveHet.header.toBytes ++ (fiveHet.hashArea ++ fiveHet.indexArea)

/-- A stand-in for zlib that shortens this table. -/
def shortensFive : Codecs :=
  { zlibLike with
    deflate := fun d => if d = fiveTable then some [0x78#8, 3#8, 0#8] else zlibLike.deflate d
    inflate := fun c => if c = [0x78#8, 3#8, 0#8] then some fiveTable else zlibLike.inflate c }

theorem toyPack_first {d c : List Byte} (h : toyPack d = some c) : ∃ t r, c = t :: r ∧ (t = 1#8 ∨ t = 2#8) := by
  unfold toyPack at h
  split at h
  · split at h <;> exact ⟨_, _, (Option.some.inj h).symm, by simp⟩
  · exact ⟨_, _, (Option.some.inj h).symm, by simp⟩

theorem shortensFive_lawful : shortensFive.Lawful := by
  refine ⟨?_, zlibLike_lawful.bzip2, zlibLike_lawful.lzma, zlibLike_lawful.pkware⟩
  intro d c h
  simp only [shortensFive] at h ⊢
  split at h
  · rename_i hd
    have h := Option.some.inj h
    subst h
    exact ⟨by simp, by rw [if_pos rfl, hd]⟩
  · refine ⟨(zlibLike_lawful.zlib d c h).1, ?_⟩
    rw [if_neg, (zlibLike_lawful.zlib d c h).2]
    intro hc
    obtain ⟨c', hc', rfl⟩ := Option.map_eq_some_iff.1 h
    obtain ⟨t, r, rfl, ht⟩ := toyPack_first hc'
    rcases ht with rfl | rfl <;> simp at hc

theorem shortensFive_tables : ZlibTables shortensFive fiveNames where
  two := by
    intro x c h
    simp only [shortensFive] at h
    split at h
    · rw [← Option.some.inj h]; decide
    · obtain ⟨c', hc', rfl⟩ := Option.map_eq_some_iff.1 h
      obtain ⟨t, r, rfl, _⟩ := toyPack_first hc'
      simp only [List.length_cons]; omega
  rejects := by
    intro r
    simp only [shortensFive]
    rw [if_neg (by simp)]
    rfl
  shrinks := by
    intro c hc
    rw [fiveHet_eq] at hc
    rw [← Except.ok.inj hc]
    refine ⟨[0x78#8, 3#8, 0#8], ?_, by decide⟩
    show (if fiveTable = fiveTable then some _ else zlibLike.deflate fiveTable) = _
    exact if_pos rfl

def fiveEnv : Env := { toyEnv with codecs := shortensFive }

theorem fiveEnv_compresses (x : List Byte) : ∃ c, compress fiveEnv.codecs x 0x02#8 = .ok c := by
  have : ∃ c, shortensFive.deflate x = some c := by
    simp only [shortensFive]
    split
    · exact ⟨_, rfl⟩
    · simp only [zlibLike]
      unfold toyPack
      split
      · split <;> exact ⟨_, rfl⟩
      · exact ⟨_, rfl⟩
  obtain ⟨c, hc⟩ := this
  unfold compress compressInternal
  rw [show Method.fromFlags 0x02#8 = .zlib by decide]
  simp only [zlibCompress, fiveEnv, hc, liftCodec, bind, Except.bind]
  split <;> exact ⟨_, rfl⟩

/-- The five files with tables compressed by zlib. -/
def fiveBuilderZ (v : FormatVersion) : Builder := { fiveBuilder v with tables := ⟨true, 0x02#8⟩ }

theorem fiveZ_buildable (v : FormatVersion) : Buildable fiveEnv (fiveBuilderZ v) fivePending where
  shift := (five_buildable v).shift
  prepared := rfl
  count := by decide
  readable := by
    intro p hp
    have key : ∀ name byte, ∃ data, (letterFile name byte).source = some data ∧ data.length + data.length / 64 + 12 < 2 ^ 32 ∧
        Compressible shortensFive (512 * 2 ^ (fiveBuilderZ v).blockSize.toNat) (letterFile name byte).compression data := by
      intro name byte
      refine ⟨_, rfl, by rw [List.length_replicate]; decide, ?_⟩
      unfold Compressible
      rw [List.length_replicate, show (fiveBuilderZ v).blockSize = 3#16 from rfl, if_pos (by decide)]
      exact ⟨_, by rfl⟩
    simp only [fivePending, List.mem_cons, List.not_mem_nil, or_false] at hp
    rcases hp with rfl | rfl | rfl | rfl | rfl <;> exact key _ _
  names := (five_buildable v).names
  distinct := (five_buildable v).distinct

/-- With compressed tables, which do not load, the same archive reads back right: C26 for five files in version 4. -/
example : ∃ f a, buildBytes fiveEnv zeroMd5 (fiveBuilderZ .v4) = .ok f ∧ openArchive fiveEnv f = .ok a ∧
    a.readFile fiveEnv (ascii "c.txt") = .ok (List.replicate 16 0x43#8) ∧
    a.readFile fiveEnv (ascii "x.txt") = .error .fileNotFound := by
  have h21 : (2 : Nat) ^ 21 = 2097152 := rfl
  have h47 : (2 : Nat) ^ 47 = 140737488355328 := rfl
  have h48 : (2 : Nat) ^ 48 = 281474976710656 := rfl
  have h64 : (2 : Nat) ^ 64 = 18446744073709551616 := rfl
  have h32 : (2 : Nat) ^ 32 = 4294967296 := rfl
  have hsum : (fivePending.map storedBound).sum < 1000 := by decide +kernel
  have hsb : ∀ p ∈ fivePending, storedBound p + (p.source.getD []).length < 1000 := by decide +kernel
  have hhs : (fiveBuilderZ .v4).version.headerSize.toNat = 208 := by decide
  obtain ⟨f, hf⟩ := C50_extended_build_succeeds_partial fiveEnv zeroMd5 (fiveBuilderZ .v4) fivePending (fiveZ_buildable .v4)
    (.inr fiveEnv_compresses) (by omega)
  obtain ⟨L⟩ := layout_of_build (fun _ => List.length_replicate) hf
  have hpe : L.pending = fivePending := Except.ok.inj (L.prepared.symm.trans (fiveZ_buildable .v4).prepared)
  have hlt : f.length < 2 ^ 48 := L.length_lt (fun _ => List.length_replicate) (by rw [hpe]; decide)
    (by rw [hpe]; intro p hp; have := hsb p hp; omega) (by rw [hpe]; omega)
  obtain ⟨a, ss, ho, hss, hr, hn⟩ := C26_read_back_partial fiveEnv shortensFive_lawful zeroMd5 (fun _ => List.length_replicate)
    (fiveBuilderZ .v4) f hf fivePending (fiveZ_buildable .v4).prepared
    (fun _ => .inr ⟨rfl, (by decide +kernel : fivePending.map (·.name) = fiveNames) ▸ shortensFive_tables⟩) [] [] rfl
    (by intro o ho; cases ho) (by exact hlt) (by simp only [List.length_nil]; omega) (by decide)
    (fun p hp data hd => by
      have := hsb p hp
      rw [hd] at this
      have hb : storedBound p = data.length + data.length / 64 + 12 := by unfold storedBound; rw [hd]
      have : storedBound p + data.length < 1000 := this
      omega) (by decide +kernel) (noCollision_lit (by decide +kernel))
  rw [List.nil_append, List.append_nil] at ho
  have hss' : ss = 4096 := Except.ok.inj (hss.symm.trans (show sectorSizeOf 3#16 = .ok 4096 by decide))
  subst hss'
  refine ⟨f, a, hf, ho, ?_, hn _ (by decide +kernel) (noCollision_lit (by decide +kernel))⟩
  obtain ⟨data, hd, _, h⟩ := hr 2 (letterFile "c.txt" 0x43) (ascii "c.txt") rfl (by decide +kernel) (by
    intro j hj q hq
    match j, hj with
    | 0, _ => rw [← Option.some.inj hq]; decide +kernel
    | 1, _ => rw [← Option.some.inj hq]; decide +kernel)
  have hd := Option.some.inj hd
  subst hd
  exact h (by decide) ⟨by decide, by decide, by decide, fun h => by rcases h with h | h <;> exact absurd h (by decide), by decide +kernel⟩

end Mopaq
