import Verif.Spec.Format
import Verif.Props.Damage
import Verif.Props.Crypto
import Verif.Props.FfiVerify

/-! # Files as the format stores them (C81) -/

namespace Mopaq

/-! ## The specification in terms of the model -/

theorem dwords_eq (bs : List Byte) : Spec.dwords bs = (toDwords bs).map BitVec.toNat := by
  fun_induction toDwords bs with
  | case1 a b c d rest ih =>
    unfold Spec.dwords
    rw [ih, List.map_cons]
    congr 1
    unfold ofLe32 leNat leNat leNat leNat leNat
    rw [BitVec.toNat_ofNat]
    have ha := a.isLt
    have hb := b.isLt
    have hc := c.isLt
    have hd := d.isLt
    rw [Nat.mod_eq_of_lt (by omega)]
    omega
  | case2 t h =>
    unfold Spec.dwords
    split
    · exact absurd rfl (h _ _ _ _ _)
    · rfl

theorem toDwords_inj {a b : List Byte} (ha : a.length % 4 = 0) (hb : b.length % 4 = 0) (h : toDwords a = toDwords b) : a = b := by
  have h1 := ofDwords_toDwords a
  have h2 := ofDwords_toDwords b
  rw [List.take_of_length_le (by omega)] at h1 h2
  rw [← h1, ← h2, h]

/-- Data encrypted as published are decrypted, if there are no odd bytes at the end. -/
theorem decrypts (key : U32) (plain cipher : List Byte) (hq : plain.length % 4 = 0)
    (h : Spec.Enciphers key.toNat plain cipher) : decryptFileData cipher key = plain := by
  obtain ⟨hl, _, h⟩ := h
  rw [dwords_eq, dwords_eq] at h
  have hinj : ∀ {x y : List U32}, x.map BitVec.toNat = y.map BitVec.toNat → x = y := by
    intro x y hxy
    exact List.map_inj_right (fun _ _ h => BitVec.eq_of_toNat_eq h) |>.1 hxy
  by_cases hk : key = 0
  · rw [if_pos (by rw [hk]; rfl)] at h
    have := toDwords_inj (by omega) hq (hinj h)
    rw [this]
    unfold decryptFileData
    rw [if_pos (Or.inr hk)]
  · rw [if_neg (by intro h0; exact hk (BitVec.eq_of_toNat_eq h0))] at h
    have h1 := C03_byte_cipher key hk plain
    have h2 := hinj (encrypts_unique h h1)
    have h3 : cipher = encryptData plain key :=
      toDwords_inj (by omega) (by rw [encryptData_length]; exact hq) h2
    rw [h3]
    exact decryptFileData_encryptData ..

theorem readAt_standsAt {f : List Byte} {place : Nat} {b : List Byte} (h : Spec.StandsAt f place b) :
    readAt f place b.length = .ok b := by
  unfold Spec.StandsAt at h
  unfold readAt
  split
  · rename_i h0; rw [List.length_eq_zero_iff.1 h0]
  · have := congrArg List.length h
    rw [List.length_take, List.length_drop] at this
    rw [if_pos (by omega)]
    unfold slice
    rw [h]

/-- What stands in the file is read, and decrypted if need be. -/
theorem read_stands {f : List Byte} {info : FileInfo} {key : U32} {k place : Nat} {packed : List Byte}
    (h : Spec.Stands f info.flags k place packed) (hq : Spec.encrypted info.flags = true → packed.length % 4 = 0)
    (he : info.isEncrypted = Spec.encrypted info.flags) (hk : info.isEncrypted = true → key.toNat = k) : ∃ raw, readAt f place packed.length = .ok raw ∧
      (if info.isEncrypted then decryptFileData raw key else raw) = packed := by
  unfold Spec.Stands at h
  rw [he]
  rw [he] at hk
  split at h
  · rename_i hx
    rw [← hk hx] at h
    obtain ⟨cipher, h1, h2⟩ := h
    have := readAt_standsAt h2
    rw [h1.1] at this
    exact ⟨cipher, this, by rw [if_pos hx]; exact decrypts key packed cipher (hq hx) h1⟩
  · rename_i hx
    exact ⟨packed, readAt_standsAt h, by rw [if_neg hx]⟩

/-- What stands for a piece of the file gives that piece. -/
theorem readSector_piece {e : Env} {m : Spec.Methods} (hu : ∀ k b n d, m.unpack k b n = some d → decompress e.codecs b k n = .ok d)
    {f : List Byte} {info : FileInfo} {key : U32} {i at_ : Nat} {x packed raw : List Byte}
    (hpk : Spec.Packs m info.flags x packed) (himp : Spec.imploded info.flags = false)
    (hc : info.isCompressed = true) (hraw : readAt f at_ packed.length = .ok raw)
    (hdec : (if info.isEncrypted then decryptFileData raw (key + BitVec.ofNat 32 i) else raw) = packed) :
    readSector e f info key i at_ packed.length x.length = .ok x := by
  unfold readSector
  rw [hraw]
  show (if (info.isCompressed && decide (packed.length < x.length)) = true then _ else _) = _
  rw [hdec, hc, Bool.true_and]
  rcases hpk with hpk | ⟨hlt, ⟨_, method, body, hb, hun⟩ | ⟨_, hi, _⟩⟩
  · subst hpk
    rw [if_neg (by simp)]
    simp [pure, Except.pure]
  · rw [if_pos (by simpa using hlt), hb]
    show decompress e.codecs body method x.length = _
    exact hu _ _ _ _ hun
  · rw [himp] at hi; cases hi

theorem readSectors_pieces {e : Env} {m : Spec.Methods} (hu : ∀ k b n d, m.unpack k b n = some d → decompress e.codecs b k n = .ok d)
    {f : List Byte} {info : FileInfo} {key : U32} {ss : Nat} (hss : 0 < ss) {data : List Byte} (hd : data.length = info.fileSize)
    {packed : Nat → List Byte} {offs : List U32} (himp : Spec.imploded info.flags = false) (hc : info.isCompressed = true)
    (ho : offs.length = (info.fileSize + ss - 1) / ss + 1)
    (hp : ∀ i, i * ss < info.fileSize → Spec.Packs m info.flags (Spec.piece ss data i) (packed i) ∧
      (offs.getD (i + 1) 0).toNat = (offs.getD i 0).toNat + (packed i).length ∧
      ∃ raw, readAt f (info.filePos + (offs.getD i 0).toNat) (packed i).length = .ok raw ∧
        (if info.isEncrypted then decryptFileData raw (key + BitVec.ofNat 32 i) else raw) = packed i) :
    ∀ (l : List U32) (i : Nat), offs.drop i = l → l ≠ [] →
      readSectors e f info key ss i (min (i * ss) info.fileSize) l = .ok (data.drop (i * ss)) := by
  intro l
  induction l with
  | nil => intro i _ h; exact absurd rfl h
  | cons o0 tail ih =>
    intro i hi _
    have hlen : (offs.drop i).length = tail.length + 1 := by rw [hi]; rfl
    rw [List.length_drop] at hlen
    cases tail with
    | nil =>
      have hi' : i = (info.fileSize + ss - 1) / ss := by simp only [List.length_nil] at hlen; omega
      have : info.fileSize ≤ i * ss := by
        rw [hi']
        have h1 := Nat.div_add_mod (info.fileSize + ss - 1) ss
        have h2 := Nat.mod_lt (info.fileSize + ss - 1) hss
        rw [Nat.mul_comm] at h1
        omega
      rw [List.drop_eq_nil_of_le (by omega)]
      rfl
    | cons o1 rest =>
      have hlt : i * ss < info.fileSize := by
        simp only [List.length_cons] at hlen
        have h1 : i + 1 ≤ (info.fileSize + ss - 1) / ss := by omega
        rw [Nat.le_div_iff_mul_le hss, Nat.add_mul, Nat.one_mul] at h1
        omega
      have g0 : offs.getD i 0 = o0 := by
        rw [List.getD_eq_getElem?_getD, ← List.head?_drop, hi]; rfl
      have g1 : offs.getD (i + 1) 0 = o1 := by
        rw [List.getD_eq_getElem?_getD, ← List.head?_drop, ← List.drop_drop, hi]; rfl
      obtain ⟨h1, h2, raw, h3, h4⟩ := hp i hlt
      rw [g0, g1] at h2
      rw [g0] at h3
      have hpl : (Spec.piece ss data i).length = min (info.fileSize - i * ss) ss := by
        unfold Spec.piece
        rw [List.length_take, List.length_drop, hd, Nat.min_comm]
      unfold readSectors
      rw [if_neg (by omega), if_neg (by omega), Nat.min_eq_left (show i * ss ≤ info.fileSize by omega), ← hpl,
        show o1.toNat - o0.toNat = (packed i).length from by omega]
      refine bind_eq_ok.2 ⟨_, readSector_piece hu h1 himp hc h3 h4, bind_eq_ok.2 ⟨data.drop ((i + 1) * ss), ?_, ?_⟩⟩
      · rw [hpl]
        have := ih (i + 1) (by rw [← List.drop_drop, hi]; rfl) (by simp)
        rw [show i * ss + min (info.fileSize - i * ss) ss = min ((i + 1) * ss) info.fileSize from by
          rw [Nat.add_mul, Nat.one_mul]; omega]
        exact this
      · show Except.ok _ = _
        congr 1
        unfold Spec.piece
        rw [Nat.add_mul, Nat.one_mul, ← List.drop_drop]
        exact List.take_append_drop ..

/-! ## The flags and the key -/

theorem spec_encrypted (i : FileInfo) : i.isEncrypted = Spec.encrypted i.flags := hasBits_bit i.flags 16 (by decide)
theorem spec_fixKey (i : FileInfo) : i.hasFixKey = Spec.fixKey i.flags := hasBits_bit i.flags 17 (by decide)
theorem spec_singleUnit (i : FileInfo) : i.isSingleUnit = Spec.singleUnit i.flags := hasBits_bit i.flags 24 (by decide)
theorem spec_checksums (i : FileInfo) : i.hasSectorCrc = Spec.checksums i.flags := hasBits_bit i.flags 26 (by decide)
theorem spec_compressed (i : FileInfo) : i.isCompressed = (Spec.compressed i.flags || Spec.imploded i.flags) := by
  have h1 := hasBits_bit i.flags 9 (by decide)
  have h2 := hasBits_bit i.flags 8 (by decide)
  have : i.isCompressed = (hasBits i.flags (1#32 <<< 9) || hasBits i.flags (1#32 <<< 8)) := by
    unfold FileInfo.isCompressed hasBits
    have h3 : flagImplode ||| flagCompress = (1#32 <<< 9 ||| 1#32 <<< 8) := by decide
    rw [h3]
    rw [show i.flags &&& (1#32 <<< 9 ||| 1#32 <<< 8) = (i.flags &&& 1#32 <<< 9 ||| i.flags &&& 1#32 <<< 8) from by
      ext j; simp only [BitVec.getElem_and, BitVec.getElem_or]; cases i.flags[j] <;> simp]
    rw [Bool.eq_iff_iff]
    simp only [bne_iff_ne, ne_eq, Bool.or_eq_true]
    constructor
    · intro h
      by_cases h0 : i.flags &&& 1#32 <<< 9 = 0#32
      · right; intro h1; exact h (by rw [h0, h1]; rfl)
      · exact Or.inl h0
    · rintro (h | h) h0
      · exact h (by
          have := BitVec.or_eq_zero_iff.1 h0
          exact this.1)
      · exact h (by
          have := BitVec.or_eq_zero_iff.1 h0
          exact this.2)
  rw [this, h1, h2]
  rfl

theorem spec_key (name : List Byte) (ao : Nat) (info : FileInfo) (h : info.isEncrypted = true) :
    (readerKey name ao info (BitVec.ofNat 32 info.fileSize)).toNat =
      Spec.fileKey name info.flags (info.filePos - ao) info.fileSize := by
  unfold readerKey Spec.fileKey
  rw [if_pos h, spec_fixKey]
  have hb : (hashString name htFileKey).toNat = Spec.nameHash 3 (name.map BitVec.toNat) := hashString_spec 3 (by decide) name
  dsimp only
  split
  · rw [BitVec.toNat_xor, BitVec.toNat_add, hb, BitVec.toNat_ofNat, BitVec.toNat_ofNat, Nat.add_mod_mod]
  · exact hb

theorem stores_cases {m : Spec.Methods} {ss : Nat} {f : List Byte} {s : Spec.Stored} {data : List Byte}
    {packed : Nat → List Byte} (h : Spec.Stores m ss f s data packed) :
    (Spec.singleUnit s.flags = true → Spec.Packs m s.flags data (packed 0) ∧ (packed 0).length = s.storedSize ∧
      Spec.Stands f s.flags s.key s.place (packed 0)) ∧
    (Spec.singleUnit s.flags = false → (Spec.compressed s.flags || Spec.imploded s.flags) = true →
      ∃ table, table.length = 4 * ((s.size + ss - 1) / ss + 1) ∧
        Spec.Stands f s.flags ((s.key + (2 ^ 32 - 1)) % 2 ^ 32) s.place table ∧
        ∀ i, i * ss < s.size → Spec.Packs m s.flags (Spec.piece ss data i) (packed i) ∧
          (Spec.dwords table).getD (i + 1) 0 = (Spec.dwords table).getD i 0 + (packed i).length ∧
          Spec.Stands f s.flags ((s.key + i) % 2 ^ 32) (s.place + (Spec.dwords table).getD i 0) (packed i)) ∧
    (Spec.singleUnit s.flags = false → (Spec.compressed s.flags || Spec.imploded s.flags) = false →
      s.storedSize = s.size ∧ ∀ i, i * ss < s.size → packed i = Spec.piece ss data i ∧
        Spec.Stands f s.flags ((s.key + i) % 2 ^ 32) (s.place + i * ss) (packed i)) := by
  obtain ⟨_, h⟩ := h
  refine ⟨fun h1 => ?_, fun h1 h2 => ?_, fun h1 h2 => ?_⟩
  · rw [if_pos h1] at h; exact h
  · rw [if_neg (by rw [h1]; exact Bool.false_ne_true), if_pos h2] at h; exact h
  · rw [if_neg (by rw [h1]; exact Bool.false_ne_true), if_neg (by rw [h2]; exact Bool.false_ne_true)] at h; exact h

theorem standsAt_append {f : List Byte} {place : Nat} {a b : List Byte} (ha : Spec.StandsAt f place a)
    (hb : Spec.StandsAt f (place + a.length) b) : Spec.StandsAt f place (a ++ b) := by
  unfold Spec.StandsAt at *
  rw [List.length_append, List.take_add, ha, List.drop_drop, hb]

theorem pieces_stand {f : List Byte} {place ss : Nat} {data : List Byte}
    (h : ∀ i, i * ss < data.length → Spec.StandsAt f (place + i * ss) (Spec.piece ss data i)) :
    ∀ n, Spec.StandsAt f place (data.take (n * ss)) := by
  intro n
  induction n with
  | zero => rw [Nat.zero_mul]; rfl
  | succ n ih =>
    by_cases hn : n * ss < data.length
    · rw [Nat.add_mul, Nat.one_mul, List.take_add]
      refine standsAt_append ih ?_
      rw [List.length_take, Nat.min_eq_left (by omega)]
      exact h n hn
    · rw [List.take_of_length_le (by omega)] at ih
      rw [List.take_of_length_le (by rw [Nat.add_mul]; omega)]
      exact ih

/-- The way the entry of a file that has been found describes it. -/
def Archive.entryOf (a : Archive) (name : List Byte) (info : FileInfo) : Spec.Stored where
  place := info.filePos
  storedSize := info.compressedSize
  size := info.fileSize
  flags := info.flags
  key := Spec.fileKey name info.flags (info.filePos - a.archiveOffset) info.fileSize

theorem readFile_found {e : Env} {a : Archive} {name : List Byte} {info : FileInfo} (hf : a.findFile name = .ok (some info)) :
    a.readFile e name =
      readFileData e a.file a.archiveOffset a.header.blockSize name info (BitVec.ofNat 32 info.fileSize) info.fileSize := by
  unfold Archive.readFile
  rw [hf]
  show (if (a.hetTable.isSome && a.betTable.isSome) = true then _ else _) = _
  split
  · rfl
  · rename_i hx
    have hcl : a.findFileClassic name = .ok (some info) := by
      unfold Archive.findFile at hf
      have : usableHetBet a.hetTable a.betTable = none := by
        unfold usableHetBet
        split
        · rename_i h1 h2; rw [h1, h2] at hx; exact absurd rfl hx
        · rfl
      rw [this] at hf
      exact hf
    obtain ⟨bt, block, hbt, hb, hs⟩ := findFileClassic_at hcl
    rw [hbt]
    dsimp only
    rw [hb]
    dsimp only
    rw [hs, BitVec.ofNat_toNat, BitVec.setWidth_eq]

/-- C81: a file that is stored as the format describes is read as what it is, in every archive and whoever wrote it, but for
five kinds of files: imploded ones; encrypted ones of which a part has a length that is not a multiple of four; encrypted ones of
several sectors that are not compressed; and files stored as one unit with the flag for checksums, or with that for compression
though not compressed. The theorems below are on these. -/
theorem C81_reads_what_is_stored_partial (e : Env) (m : Spec.Methods)
    (hu : ∀ k b n d, m.unpack k b n = some d → decompress e.codecs b k n = .ok d) (a : Archive) (name : List Byte) (info : FileInfo)
    (hf : a.findFile name = .ok (some info)) (hbs : a.header.blockSize.toNat < 55) (data : List Byte) (packed : Nat → List Byte)
    (hs : Spec.Stores m (512 * 2 ^ a.header.blockSize.toNat) a.file (a.entryOf name info) data packed)
    (himp : Spec.imploded info.flags = false)
    (hquad : Spec.encrypted info.flags = true → ∀ i, (packed i).length % 4 = 0)
    (hsect : Spec.encrypted info.flags = true → Spec.compressed info.flags = false → Spec.singleUnit info.flags = false →
      info.fileSize ≤ 512 * 2 ^ a.header.blockSize.toNat)
    (hcrc : Spec.singleUnit info.flags = true → Spec.checksums info.flags = false)
    (hone : Spec.singleUnit info.flags = true → Spec.compressed info.flags = true → packed 0 ≠ data) :
    a.readFile e name = .ok data := by
  rw [readFile_found hf]
  have h64 : (2 : Nat) ^ 64 = 512 * 2 ^ 55 := by decide
  have hpw : 2 ^ a.header.blockSize.toNat < 2 ^ 55 := Nat.pow_lt_pow_right (by decide) hbs
  have hpos : 0 < 2 ^ a.header.blockSize.toNat := Nat.pow_pos (by decide)
  have hse : sectorSizeOf a.header.blockSize = .ok (512 * 2 ^ a.header.blockSize.toNat) := by
    unfold sectorSizeOf
    rw [if_pos (by omega), Nat.mod_eq_of_lt (by omega)]
  generalize hssdef : 512 * 2 ^ a.header.blockSize.toNat = ss at *
  have hss0 : 0 < ss := by omega
  have hsz : data.length = info.fileSize := hs.1
  obtain ⟨hs1, hs2, hs3⟩ := stores_cases hs
  clear hs
  have hke := spec_key name a.archiveOffset info
  have henc := spec_encrypted info
  unfold readFileData
  dsimp only
  generalize hkd : readerKey name a.archiveOffset info (BitVec.ofNat 32 info.fileSize) = key at *
  rw [spec_singleUnit, spec_compressed, himp, Bool.or_false]
  dsimp only [Archive.entryOf] at hs1 hs2 hs3
  generalize Spec.fileKey name info.flags (info.filePos - a.archiveOffset) info.fileSize = k at hs1 hs2 hs3 hke
  cases hsu : Spec.singleUnit info.flags with
  | true =>
    obtain ⟨hpk, hlen, hst⟩ := hs1 hsu
    obtain ⟨raw, hraw, hdec⟩ := read_stands hst (fun h => hquad h 0) henc hke
    rw [if_pos (by rfl), ← hlen, hraw]
    refine bind_eq_ok.2 ⟨raw, rfl, ?_⟩
    rw [spec_checksums, hcrc hsu, Bool.false_and, if_neg (by decide), hdec]
    rcases hpk with hpk | ⟨hlt, ⟨hc, method, body, hb, hun⟩ | ⟨_, hi, _⟩⟩
    · have hc : Spec.compressed info.flags = false := by
        cases hx : Spec.compressed info.flags with
        | false => rfl
        | true => exact absurd hpk (hone hsu hx)
      rw [hc, if_neg (by decide), hpk]
      rfl
    · rw [hc, if_pos rfl, hb, if_pos (by simp)]
      rw [hsz] at hun
      exact hu _ _ _ _ hun
    · rw [himp] at hi; cases hi
  | false =>
    rw [himp, Bool.or_false] at hs2 hs3
    cases hcm : Spec.compressed info.flags with
    | true =>
      obtain ⟨table, htl, htab, hp⟩ := hs2 hsu hcm
      rw [if_neg (by decide)]
      unfold readSectoredFile
      rw [hse]
      refine bind_eq_ok.2 ⟨_, rfl, ?_⟩
      have hdc : divCeil info.fileSize ss = .ok ((info.fileSize + ss - 1) / ss) := by
        unfold divCeil
        rw [if_neg (by omega)]
      rw [hdc]
      refine bind_eq_ok.2 ⟨_, rfl, ?_⟩
      obtain ⟨raw, hraw, hdec⟩ := read_stands (key := key - 1) htab (fun _ => by omega) henc (fun h => by
        rw [BitVec.toNat_sub, hke h, Nat.add_comm]
        rfl)
      rw [show ((info.fileSize + ss - 1) / ss + 1) * 4 = table.length from by rw [htl, Nat.mul_comm], hraw]
      refine bind_eq_ok.2 ⟨_, rfl, ?_⟩
      dsimp only
      rw [hdec]
      have hol : (toDwords table).length = (info.fileSize + ss - 1) / ss + 1 := by
        rw [toDwords_length, htl]; omega
      have hget : ∀ i, (Spec.dwords table).getD i 0 = ((toDwords table).getD i 0).toNat := by
        intro i
        rw [dwords_eq, List.getD_eq_getElem?_getD, List.getD_eq_getElem?_getD, List.getElem?_map]
        cases (toDwords table)[i]? <;> rfl
      have hp' : ∀ i, i * ss < info.fileSize → Spec.Packs m info.flags (Spec.piece ss data i) (packed i) ∧
          ((toDwords table).getD (i + 1) 0).toNat = ((toDwords table).getD i 0).toNat + (packed i).length ∧
          ∃ raw, readAt a.file (info.filePos + ((toDwords table).getD i 0).toNat) (packed i).length = .ok raw ∧
            (if info.isEncrypted then decryptFileData raw (key + BitVec.ofNat 32 i) else raw) = packed i := by
        intro i hi
        obtain ⟨h1, h2, h3⟩ := hp i hi
        rw [hget, hget] at h2
        rw [hget] at h3
        exact ⟨h1, h2, read_stands h3 (fun h => hquad h i) henc (fun h => by
          rw [BitVec.toNat_add, BitVec.toNat_ofNat, hke h, Nat.add_mod_mod])⟩
      have hmain := readSectors_pieces (key := key) hu hss0 hsz himp (by rw [spec_compressed, hcm]; rfl) hol hp' _ 0 rfl
        (by intro h0; rw [List.drop_zero] at h0; rw [h0] at hol; simp at hol)
      rw [Nat.zero_mul, Nat.zero_min, List.drop_zero, List.drop_zero] at hmain
      split
      · rename_i hx
        rw [Bool.and_eq_true, decide_eq_true_eq] at hx
        refine bind_eq_ok.2 ⟨slice a.file (info.filePos + table.length) ((info.fileSize + ss - 1) / ss * 4), ?_, hmain⟩
        by_cases h0 : info.fileSize = 0
        · have : (info.fileSize + ss - 1) / ss = 0 := by rw [h0, Nat.zero_add]; exact Nat.div_eq_of_lt (by omega)
          rw [this]
          rfl
        · obtain ⟨h1, h2, raw0, h3, _⟩ := hp' 0 (by omega)
          refine readAt_ok ?_
          have hne : (packed 0).length ≠ 0 := by
            rcases h1 with h1 | ⟨_, ⟨_, _, _, h1, _⟩ | ⟨_, h1, _⟩⟩
            · rw [h1]
              unfold Spec.piece
              rw [Nat.zero_mul, List.drop_zero, List.length_take]
              omega
            · rw [h1]; simp
            · rw [himp] at h1; cases h1
          have hin : info.filePos + ((toDwords table).getD 0 0).toNat + (packed 0).length ≤ a.file.length := by
            unfold readAt at h3
            rw [if_neg hne] at h3
            split at h3
            · assumption
            · cases h3
          have hhd : (toDwords table).headD 0 = (toDwords table).getD 0 0 := by cases toDwords table <;> rfl
          rw [hhd] at hx
          omega
      · exact hmain
    | false =>
      obtain ⟨hcs, hp⟩ := hs3 hsu hcm
      rw [if_pos (by rfl), hcs]
      have hread : ∃ raw, readAt a.file info.filePos info.fileSize = .ok raw ∧
          (if info.isEncrypted then decryptFileData raw key else raw) = data := by
        cases hen : Spec.encrypted info.flags with
        | true =>
          have hle := hsect hen hcm hsu
          by_cases h0 : info.fileSize = 0
          · refine ⟨[], by rw [h0]; rfl, ?_⟩
            rw [List.length_eq_zero_iff.1 (hsz.trans h0)]
            split
            · unfold decryptFileData
              rw [if_pos (Or.inl rfl)]
            · rfl
          · obtain ⟨h1, h2⟩ := hp 0 (by omega)
            have hpd : packed 0 = data := by
              rw [h1]
              unfold Spec.piece
              rw [Nat.zero_mul, List.drop_zero, List.take_of_length_le (by omega)]
            have := read_stands (key := key) h2 (fun h => hquad h 0) henc (fun h => by
              rw [hke h, Nat.add_zero, Nat.mod_eq_of_lt (by rw [← hke h]; exact key.isLt)])
            rw [hpd, hsz, Nat.zero_mul, Nat.add_zero] at this
            exact this
        | false =>
          refine ⟨data, ?_, by rw [henc, hen]; rfl⟩
          rw [← hsz]
          refine readAt_standsAt ?_
          have := pieces_stand (f := a.file) (place := info.filePos) (ss := ss) (data := data) (fun i hi => by
            obtain ⟨h1, h2⟩ := hp i (by omega)
            unfold Spec.Stands at h2
            rw [if_neg (by rw [hen]; exact Bool.false_ne_true), h1] at h2
            exact h2) data.length
          rw [List.take_of_length_le (Nat.le_mul_of_pos_right _ hss0)] at this
          exact this
      obtain ⟨raw, hraw, hdec⟩ := hread
      rw [hraw]
      refine bind_eq_ok.2 ⟨raw, rfl, ?_⟩
      rw [spec_checksums, Bool.and_false, if_neg (by decide), hdec]
      rfl

/-! ## The exceptions -/

/-- The content of a file stored in one unit, without checksum: what is stored, decrypted and decompressed. -/
theorem single_read {e : Env} {a : Archive} {name : List Byte} {info : FileInfo} (hf : a.findFile name = .ok (some info))
    (hsu : Spec.singleUnit info.flags = true) (hcrc : Spec.checksums info.flags = false) {raw : List Byte}
    (hraw : readAt a.file info.filePos info.compressedSize = .ok raw) {plain : List Byte}
    (hp : (if info.isEncrypted then
      decryptFileData raw (readerKey name a.archiveOffset info (BitVec.ofNat 32 info.fileSize)) else raw) = plain) :
    a.readFile e name =
      if info.isCompressed then
        if plain ≠ [] then (do let (m, body) ← splitMethod plain; decompress e.codecs body m info.fileSize)
        else .error .compression
      else .ok plain := by
  rw [readFile_found hf]
  unfold readFileData
  dsimp only
  rw [spec_singleUnit, hsu, if_pos (by rfl), hraw]
  show (if (info.hasSectorCrc && true) = true then _ else _) = _
  rw [spec_checksums, hcrc, Bool.false_and, if_neg (by decide), hp]
  rfl

/-- C81 fails for imploded files: they have no method byte, but their first byte is taken for one. Data imploded in binary mode begin
with 0, which means "not compressed"; so reading succeeds with the bytes behind it, still imploded. -/
theorem C81_imploded_not_expanded (e : Env) (m : Spec.Methods) (a : Archive) (name : List Byte) (info : FileInfo)
    (hf : a.findFile name = .ok (some info)) (ss : Nat) (data : List Byte) (packed : Nat → List Byte)
    (hs : Spec.Stores m ss a.file (a.entryOf name info) data packed)
    (hi : Spec.imploded info.flags = true) (hsu : Spec.singleUnit info.flags = true) (hcrc : Spec.checksums info.flags = false)
    (hen : Spec.encrypted info.flags = false)
    (rest : List Byte) (h0 : packed 0 = 0#8 :: rest) (hr : rest ≠ []) :
    a.readFile e name = .ok rest ∧ rest ≠ data := by
  obtain ⟨hpk, hlen, hst⟩ := (stores_cases hs).1 hsu
  dsimp only [Archive.entryOf] at hpk hlen hst
  have hst' := read_stands (info := info) (key := 0) hst (fun h => by rw [hen] at h; cases h) (spec_encrypted info)
    (fun h => by rw [spec_encrypted, hen] at h; cases h)
  obtain ⟨raw, hraw, hdec⟩ := hst'
  have hraw' : raw = packed 0 := by
    rw [spec_encrypted, hen, if_neg (by decide)] at hdec
    exact hdec
  rw [hlen] at hraw
  refine ⟨?_, ?_⟩
  · rw [single_read hf hsu hcrc hraw (plain := packed 0) (by rw [spec_encrypted, hen, if_neg (by decide)]; exact hraw'),
      spec_compressed, hi, Bool.or_true, if_pos rfl, h0, if_pos (by simp)]
    show decompress e.codecs rest 0#8 info.fileSize = _
    unfold decompress
    rw [if_neg hr, if_pos rfl]
  · have hle : (packed 0).length ≤ data.length := by
      rcases hpk with h | ⟨h, _⟩
      · rw [h]; exact Nat.le_refl _
      · omega
    intro h
    rw [h0, ← h, List.length_cons] at hle
    omega

/-- C81 fails for a unit stored as it is although the flags allow compression (as is done when compression gains nothing): its
first byte is taken for the method. If this is 0 reading succeeds, and the first byte is lost. -/
theorem C81_first_byte_lost (e : Env) (m : Spec.Methods) (a : Archive) (name : List Byte) (info : FileInfo)
    (hf : a.findFile name = .ok (some info)) (ss : Nat) (data : List Byte) (packed : Nat → List Byte)
    (hs : Spec.Stores m ss a.file (a.entryOf name info) data packed)
    (hc : Spec.compressed info.flags = true) (hsu : Spec.singleUnit info.flags = true) (hcrc : Spec.checksums info.flags = false)
    (hen : Spec.encrypted info.flags = false) (hp : packed 0 = data)
    (rest : List Byte) (h0 : data = 0#8 :: rest) (hr : rest ≠ []) : a.readFile e name = .ok rest := by
  obtain ⟨hpk, hlen, hst⟩ := (stores_cases hs).1 hsu
  dsimp only [Archive.entryOf] at hpk hlen hst
  obtain ⟨raw, hraw, hdec⟩ := read_stands (info := info) (key := 0) hst (fun h => by rw [hen] at h; cases h) (spec_encrypted info)
    (fun h => by rw [spec_encrypted, hen] at h; cases h)
  have hraw' : raw = packed 0 := by
    rw [spec_encrypted, hen, if_neg (by decide)] at hdec
    exact hdec
  rw [hlen] at hraw
  rw [single_read hf hsu hcrc hraw (plain := packed 0) (by rw [spec_encrypted, hen, if_neg (by decide)]; exact hraw'),
    spec_compressed, hc, Bool.true_or, if_pos rfl, hp, h0, if_pos (by simp)]
  show decompress e.codecs rest 0#8 info.fileSize = _
  unfold decompress
  rw [if_neg hr, if_pos rfl]

theorem leBytes_take (t n v : Nat) (h : t ≤ n) : (leBytes n v).take t = leBytes t v := by
  induction t generalizing n v with
  | zero => rfl
  | succ t ih =>
    cases n with
    | zero => omega
    | succ n =>
      show BitVec.ofNat 8 v :: (leBytes n (v / 256)).take t = _
      rw [ih n (v / 256) (by omega)]
      rfl

theorem leBytes_inj {t v w : Nat} (h : leBytes t v = leBytes t w) : v % 256 ^ t = w % 256 ^ t := by
  rw [← leNat_leBytes, ← leNat_leBytes, h]

theorem xor_tail (v mask t : Nat) : leBytes t (v ^^^ mask) = leBytes t v ↔ mask % 256 ^ t = 0 := by
  have h256 : 256 ^ t = 2 ^ (8 * t) := by rw [Nat.pow_mul]
  constructor
  · intro h
    have := leBytes_inj h
    rw [h256] at this ⊢
    rw [Nat.xor_mod_two_pow] at this
    have h2 : (v % 2 ^ (8 * t)) ^^^ ((v % 2 ^ (8 * t)) ^^^ (mask % 2 ^ (8 * t))) = (v % 2 ^ (8 * t)) ^^^ (v % 2 ^ (8 * t)) := by
      rw [this]
    rw [← Nat.xor_assoc, Nat.xor_self, Nat.zero_xor] at h2
    exact h2
  · intro h
    have h1 : (v ^^^ mask) % 256 ^ t = v % 256 ^ t := by
      rw [h256] at h ⊢
      rw [Nat.xor_mod_two_pow, h, Nat.xor_zero]
    have key : ∀ x, leBytes t x = leBytes t (x % 256 ^ t) := by
      intro x
      have := leBytes_leNat (leBytes t x)
      rw [leBytes_length, leNat_leBytes] at this
      exact this.symm
    rw [key, h1, ← key]


/-- Decryption leaves the whole dwords right and changes the odd bytes at the end. -/
theorem decrypts_odd (key : U32) (hk : key ≠ 0) (plain cipher : List Byte) (h : Spec.Enciphers key.toNat plain cipher) :
    decryptFileData cipher key = plain.take (plain.length / 4 * 4) ++
      (le32 (decryptDword (padDword (plain.drop (plain.length / 4 * 4))) (key + BitVec.ofNat 32 (plain.length / 4)))).take
        (plain.length % 4) := by
  obtain ⟨hl, hd, h⟩ := h
  have hq : (plain.take (plain.length / 4 * 4)).length = plain.length / 4 * 4 := by rw [List.length_take]; omega
  have hqc : (cipher.take (cipher.length / 4 * 4)).length = cipher.length / 4 * 4 := by rw [List.length_take]; omega
  have htd : ∀ l : List Byte, toDwords (l.take (l.length / 4 * 4)) = toDwords l := by
    intro l
    rw [← ofDwords_toDwords l, toDwords_ofDwords]
  have h' : Spec.Enciphers key.toNat (plain.take (plain.length / 4 * 4)) (cipher.take (cipher.length / 4 * 4)) := by
    refine ⟨by rw [hq, hqc, hl], ?_, ?_⟩
    · rw [List.drop_eq_nil_of_le (by omega), List.drop_eq_nil_of_le (by omega)]
    · rw [dwords_eq, dwords_eq, htd, htd, ← dwords_eq, ← dwords_eq]
      exact h
  have h1 := decrypts key _ _ (by omega) h'
  rw [decryptFileData_eq _ key hk] at h1
  rw [decryptFileData_eq _ key hk, hl, hd]
  rw [hl] at h1 hqc
  rw [hqc, Nat.mul_div_cancel _ (by decide), Nat.mul_mod_left, List.take_zero, List.append_nil, List.take_take, Nat.min_self] at h1
  rw [h1]

theorem odd_right (key : U32) (n : Nat) (tail : List Byte) (ht : tail.length ≤ 4) :
    (le32 (decryptDword (padDword tail) (key + BitVec.ofNat 32 n))).take tail.length = tail ↔
      ((key.toNat + n) % 2 ^ 32 = 0 ∨ (Spec.Stream.start ((key.toNat + n) % 2 ^ 32)).mask % 256 ^ tail.length = 0) := by
  have hk : (key + BitVec.ofNat 32 n).toNat = (key.toNat + n) % 2 ^ 32 := by
    rw [BitVec.toNat_add, BitVec.toNat_ofNat]; omega
  rw [← hk]
  generalize key + BitVec.ofNat 32 n = k
  have hpad : leBytes tail.length (padDword tail).toNat = tail := by
    have := congrArg (List.take tail.length) (padDword_le32 tail ht)
    unfold le32 at this
    rw [leBytes_take _ _ _ ht, List.take_left' rfl] at this
    exact this
  unfold decryptDword
  by_cases h0 : k = 0
  · rw [if_pos h0]
    unfold le32
    rw [leBytes_take _ _ _ ht, hpad]
    exact ⟨fun _ => Or.inl (by rw [h0]; rfl), fun _ => rfl⟩
  · rw [if_neg h0]
    unfold le32
    rw [leBytes_take _ _ _ ht, BitVec.toNat_xor, mask_toNat]
    have h1 : k.toNat ≠ 0 := fun h => h0 (BitVec.eq_of_toNat_eq h)
    have h2 := xor_tail (padDword tail).toNat (Spec.Stream.mask ⟨k.toNat, (0xEEEEEEEE : U32).toNat⟩) tail.length
    rw [hpad] at h2
    rw [h2]
    exact ⟨Or.inr, fun h => h.resolve_left h1⟩

/-- C81 fails for encrypted files with odd bytes at the end: the format leaves the last one to three bytes as they are, here they are
decrypted too. A file stored in one unit and not compressed is read with the right length, and right up to these bytes; it is
right as a whole exactly if the mask for the odd bytes happens to be zero there. -/
theorem C81_odd_bytes (e : Env) (m : Spec.Methods) (a : Archive) (name : List Byte) (info : FileInfo)
    (hf : a.findFile name = .ok (some info)) (ss : Nat) (data : List Byte) (packed : Nat → List Byte)
    (hs : Spec.Stores m ss a.file (a.entryOf name info) data packed)
    (hsu : Spec.singleUnit info.flags = true) (hcrc : Spec.checksums info.flags = false)
    (hen : Spec.encrypted info.flags = true) (hc : Spec.compressed info.flags = false) (hi : Spec.imploded info.flags = false) :
    ∃ got, a.readFile e name = .ok got ∧ got.length = data.length ∧
      got.take (data.length / 4 * 4) = data.take (data.length / 4 * 4) ∧
      (got = data ↔
        let key := (a.entryOf name info).key
        let last := (key + data.length / 4) % 2 ^ 32
        key = 0 ∨ last = 0 ∨ (Spec.Stream.start last).mask % 256 ^ (data.length % 4) = 0) := by
  obtain ⟨hpk, hlen, hst⟩ := (stores_cases hs).1 hsu
  have hke := spec_key name a.archiveOffset info
  dsimp only [Archive.entryOf] at hpk hlen hst ⊢
  generalize Spec.fileKey name info.flags (info.filePos - a.archiveOffset) info.fileSize = k at hst hke ⊢
  have hp0 : packed 0 = data := by
    rcases hpk with h | ⟨_, ⟨h, _⟩ | ⟨_, h, _⟩⟩
    · exact h
    · rw [hc] at h; cases h
    · rw [hi] at h; cases h
  unfold Spec.Stands at hst
  rw [if_pos hen, hp0] at hst
  rw [hp0] at hlen
  obtain ⟨cipher, hci, hat⟩ := hst
  have hraw := readAt_standsAt hat
  rw [hci.1, hlen] at hraw
  have hk := hke (by rw [spec_encrypted]; exact hen)
  generalize hkd : readerKey name a.archiveOffset info (BitVec.ofNat 32 info.fileSize) = key at hk
  rw [single_read hf hsu hcrc hraw rfl, spec_compressed, hc, hi, spec_encrypted, hen, hkd]
  refine ⟨decryptFileData cipher key, by simp, ?_⟩
  rw [← hk] at hci ⊢
  by_cases h0 : key = 0
  · have : decryptFileData cipher key = data := by
      unfold decryptFileData
      rw [if_pos (Or.inr h0)]
      obtain ⟨h1, h2, h3⟩ := hci
      rw [if_pos (by rw [h0]; rfl), dwords_eq, dwords_eq] at h3
      have h4 : toDwords cipher = toDwords data := List.map_inj_right (fun _ _ h => BitVec.eq_of_toNat_eq h) |>.1 h3
      have h5 := ofDwords_toDwords cipher
      rw [h4, ofDwords_toDwords, h1] at h5
      rw [← List.take_append_drop (data.length / 4 * 4) cipher, ← h5, h2, List.take_append_drop]
    rw [this]
    exact ⟨rfl, rfl, fun _ => Or.inl (by rw [h0]; rfl), fun _ => rfl⟩
  · have hn0 : key.toNat ≠ 0 := fun h => h0 (BitVec.eq_of_toNat_eq h)
    have htl : (data.drop (data.length / 4 * 4)).length = data.length % 4 := by rw [List.length_drop]; omega
    have hhl : (data.take (data.length / 4 * 4)).length = data.length / 4 * 4 := by rw [List.length_take]; omega
    rw [decrypts_odd key h0 data cipher hci]
    refine ⟨?_, ?_, ?_⟩
    · rw [List.length_append, hhl, List.length_take, show (le32 _).length = 4 from leBytes_length _ _]
      omega
    · rw [List.take_left' hhl]
    · have h1 := odd_right key (data.length / 4) (data.drop (data.length / 4 * 4)) (by omega)
      rw [htl] at h1
      constructor
      · intro h
        refine Or.inr (h1.1 ?_)
        have h2 := congrArg (List.drop (data.length / 4 * 4)) h
        rw [List.drop_left' hhl] at h2
        exact h2
      · intro h
        rw [h1.2 (h.resolve_left hn0), List.take_append_drop]


theorem encrypts_take {s : Spec.Stream} {p c : List Nat} (h : Spec.Encrypts s p c) (n : Nat) :
    Spec.Encrypts s (p.take n) (c.take n) := by
  induction h generalizing n with
  | nil s => rw [List.take_nil]; exact .nil s
  | cons s p ps cs _ ih =>
    cases n with
    | zero => exact .nil s
    | succ n => exact .cons s p _ _ (ih n)

theorem encrypts_drop {s : Spec.Stream} {p c : List Nat} (h : Spec.Encrypts s p c) (n : Nat) :
    Spec.Encrypts ((p.take n).foldl Spec.Stream.next s) (p.drop n) (c.drop n) := by
  induction h generalizing n with
  | nil s => rw [List.take_nil, List.drop_nil]; exact .nil s
  | cons s p ps cs h ih =>
    cases n with
    | zero => exact .cons s p _ _ h
    | succ n => exact ih n

theorem encrypts_plain_unique {s : Spec.Stream} {p p' c : List Nat} (h : Spec.Encrypts s p c) (h' : Spec.Encrypts s p' c) : p = p' := by
  induction h generalizing p' with
  | nil s => cases h'; rfl
  | cons s p ps cs h ih =>
    generalize hc : (p ^^^ s.mask) :: cs = cc at h'
    cases h' with
    | nil => cases hc
    | cons _ q qs ds h' =>
      obtain ⟨h1, h2⟩ := List.cons.inj hc
      have : p = q := by
        have := congrArg (· ^^^ s.mask) h1
        simpa [Nat.xor_assoc] using this
      subst this h2
      rw [ih h']

theorem dwords_take (n : Nat) (l : List Byte) : Spec.dwords (l.take (4 * n)) = (Spec.dwords l).take n := by
  induction n generalizing l with
  | zero => rw [List.take_zero]; rfl
  | succ n ih =>
    match l with
    | a :: b :: c :: d :: rest =>
      show Spec.dwords ((a :: b :: c :: d :: rest).take (4 * n + 4)) = _
      simp only [List.take_succ_cons, Spec.dwords, ih]
    | [] => rfl
    | [a] => rfl
    | [a, b] => rfl
    | [a, b, c] => rfl

theorem dwords_drop (n : Nat) (l : List Byte) : Spec.dwords (l.drop (4 * n)) = (Spec.dwords l).drop n := by
  induction n generalizing l with
  | zero => rfl
  | succ n ih =>
    match l with
    | a :: b :: c :: d :: rest =>
      show Spec.dwords ((a :: b :: c :: d :: rest).drop (4 * n + 4)) = _
      simp only [List.drop_succ_cons, Spec.dwords, ih]
    | [] => rw [List.drop_nil]; rfl
    | [a] => rw [List.drop_eq_nil_of_le (by simp; omega)]; rfl
    | [a, b] => rw [List.drop_eq_nil_of_le (by simp; omega)]; rfl
    | [a, b, c] => rw [List.drop_eq_nil_of_le (by simp; omega)]; rfl

theorem dwords_length (l : List Byte) : (Spec.dwords l).length = l.length / 4 := by
  rw [dwords_eq, List.length_map, toDwords_length]

/-- C81 fails for encrypted, uncompressed files of several sectors: the format gives each sector its own key, here the file is
decrypted from beginning to end with the key of its first sector. The length and the first sector are right. The whole is right
only if the key stream, carried on after the first sector, happens to meet that of the second. -/
theorem C81_sectors_not_decrypted (e : Env) (m : Spec.Methods) (a : Archive) (name : List Byte) (info : FileInfo)
    (hf : a.findFile name = .ok (some info)) (n : Nat) (hn : 0 < n) (data : List Byte) (packed : Nat → List Byte)
    (hs : Spec.Stores m (4 * n) a.file (a.entryOf name info) data packed)
    (hsu : Spec.singleUnit info.flags = false) (hcrc : Spec.checksums info.flags = false)
    (hen : Spec.encrypted info.flags = true) (hc : Spec.compressed info.flags = false) (hi : Spec.imploded info.flags = false)
    (hlong : 4 * n + 4 ≤ data.length)
    (hk0 : (a.entryOf name info).key ≠ 0) (hk1 : ((a.entryOf name info).key + 1) % 2 ^ 32 ≠ 0) :
    ∃ got, a.readFile e name = .ok got ∧ got.length = data.length ∧ got.take (4 * n) = data.take (4 * n) ∧
      (got = data →
        ((Spec.dwords (data.take (4 * n))).foldl Spec.Stream.next (Spec.Stream.start (a.entryOf name info).key)).mask =
          (Spec.Stream.start (((a.entryOf name info).key + 1) % 2 ^ 32)).mask) := by
  have hsz : data.length = info.fileSize := hs.1
  obtain ⟨hcs, hp⟩ := (stores_cases hs).2.2 hsu (by dsimp only [Archive.entryOf]; rw [hc, hi]; rfl)
  have hke := spec_key name a.archiveOffset info
  dsimp only [Archive.entryOf] at hcs hp hk0 hk1 ⊢
  generalize Spec.fileKey name info.flags (info.filePos - a.archiveOffset) info.fileSize = k at *
  have hk := hke (by rw [spec_encrypted]; exact hen)
  generalize hkd : readerKey name a.archiveOffset info (BitVec.ofNat 32 info.fileSize) = key at hk
  have hkey : key ≠ 0 := fun h => hk0 (by rw [← hk, h]; rfl)
  have hpiece : ∀ i, i * (4 * n) < info.fileSize → ∃ cipher, Spec.Enciphers ((k + i) % 2 ^ 32) (Spec.piece (4 * n) data i) cipher ∧
      Spec.StandsAt a.file (info.filePos + i * (4 * n)) cipher := by
    intro i hi
    obtain ⟨h1, h2⟩ := hp i hi
    unfold Spec.Stands at h2
    rw [if_pos hen, h1] at h2
    exact h2
  have hplen : ∀ i, (Spec.piece (4 * n) data i).length = min (4 * n) (info.fileSize - i * (4 * n)) := by
    intro i
    unfold Spec.piece
    rw [List.length_take, List.length_drop, hsz]
  have hlast : info.filePos + info.fileSize ≤ a.file.length := by
    have hq := Nat.div_add_mod (info.fileSize - 1) (4 * n)
    have hr := Nat.mod_lt (info.fileSize - 1) (show 0 < 4 * n by omega)
    rw [Nat.mul_comm] at hq
    generalize (info.fileSize - 1) / (4 * n) = j at hq
    obtain ⟨cipher, h1, h2⟩ := hpiece j (by omega)
    have h3 := h1.1
    rw [hplen] at h3
    have h4 := congrArg List.length h2
    rw [List.length_take, List.length_drop] at h4
    omega
  have hraw : readAt a.file info.filePos info.compressedSize = .ok ((a.file.drop info.filePos).take info.fileSize) := by
    rw [hcs]
    exact readAt_ok hlast
  generalize hrd : (a.file.drop info.filePos).take info.fileSize = raw at hraw
  have hrl : raw.length = info.fileSize := by rw [← hrd, List.length_take, List.length_drop]; omega
  have hread : a.readFile e name = .ok (decryptFileData raw key) := by
    rw [readFile_found hf]
    unfold readFileData
    dsimp only
    rw [spec_compressed, hc, hi, spec_encrypted, hen, spec_checksums, hcrc, hraw, hkd]
    simp [pure, Except.pure, bind, Except.bind]
  have hback : encryptData (decryptFileData raw key) key = raw := encryptData_decryptFileData raw key
  have hgl : (decryptFileData raw key).length = raw.length := decryptFileData_length raw key
  refine ⟨_, hread, ?_⟩
  generalize decryptFileData raw key = got at *
  have hen1 := C03_byte_cipher key hkey got
  rw [hback, ← dwords_eq, ← dwords_eq, hk] at hen1
  obtain ⟨c0, h01, h02⟩ := hpiece 0 (by omega)
  obtain ⟨c1, h11, h12⟩ := hpiece 1 (by omega)
  have hl0 := h01.1
  have hl1 := h11.1
  rw [hplen] at hl0 hl1
  have hc0 : raw.take (4 * n) = c0 := by
    rw [← hrd, List.take_take, ← h02, Nat.zero_mul, Nat.add_zero]
    congr 1
    omega
  have hc1 : (raw.drop (4 * n)).take c1.length = c1 := by
    rw [← hrd, List.drop_take, List.drop_drop, List.take_take]
    have := h12
    unfold Spec.StandsAt at this
    rw [Nat.one_mul] at this
    rw [Nat.min_eq_left (by omega)]
    exact this
  have hkm : k % 2 ^ 32 = k := Nat.mod_eq_of_lt (by rw [← hk]; exact key.isLt)
  have e0 := h01.2.2
  rw [Nat.add_zero, hkm, if_neg hk0] at e0
  have hp0 : Spec.piece (4 * n) data 0 = data.take (4 * n) := by
    unfold Spec.piece
    rw [Nat.zero_mul, List.drop_zero]
  refine ⟨by omega, ?_, ?_⟩
  · have e1 := encrypts_take hen1 n
    rw [← dwords_take, ← dwords_take, hc0] at e1
    rw [hp0] at e0
    have e2 := encrypts_plain_unique e1 e0
    rw [dwords_eq, dwords_eq] at e2
    have e3 : toDwords (got.take (4 * n)) = toDwords (data.take (4 * n)) := List.map_inj_right (fun _ _ h => BitVec.eq_of_toNat_eq h) |>.1 e2
    exact toDwords_inj (by rw [List.length_take]; omega) (by rw [List.length_take]; omega) e3
  · intro hgd
    subst hgd
    have e1 := encrypts_drop hen1 n
    have e2 := h11.2.2
    rw [if_neg hk1] at e2
    have hp1 : Spec.piece (4 * n) got 1 = (got.drop (4 * n)).take (4 * n) := by
      unfold Spec.piece
      rw [Nat.one_mul]
    rw [hp1, dwords_take, dwords_drop] at e2
    have hcd : (Spec.dwords raw).drop n = (Spec.dwords c1).take 1 ++ ((Spec.dwords raw).drop n).drop 1 := by
      rw [← hc1, ← dwords_take, List.take_take, Nat.min_eq_left (by omega), show (4 : Nat) = 4 * 1 from rfl, dwords_take, dwords_drop,
        List.take_append_drop]
    have hl : ((Spec.dwords got).drop n).length ≠ 0 := by rw [List.length_drop, dwords_length]; omega
    have hl' : (Spec.dwords c1).length ≠ 0 := by rw [dwords_length]; omega
    rw [← dwords_take] at e1
    generalize (Spec.dwords got).drop n = g at *
    generalize Spec.dwords c1 = c at *
    generalize ((Spec.dwords raw).drop n) = r at *
    match g, c, hl, hl' with
    | x :: g, y :: c, _, _ =>
      rw [show n = n - 1 + 1 from by omega, List.take_succ_cons] at e2
      rw [hcd] at e1
      have m1 := encrypts_head e1
      have m2 := encrypts_head e2
      have m3 := congrArg (x ^^^ ·) (m1.symm.trans m2)
      simpa [← Nat.xor_assoc] using m3

/-- … and there are such files: of two files with the same key that differ in the last four bytes of the first sector, and not
before, at least one is read wrong, however they are stored. -/
theorem C81_sectors_at_most_one (e e' : Env) (m m' : Spec.Methods) (a a' : Archive) (name name' : List Byte) (info info' : FileInfo)
    (hf : a.findFile name = .ok (some info)) (hf' : a'.findFile name' = .ok (some info'))
    (n : Nat) (hn : 0 < n) (data data' : List Byte) (packed packed' : Nat → List Byte)
    (hs : Spec.Stores m (4 * n) a.file (a.entryOf name info) data packed)
    (hs' : Spec.Stores m' (4 * n) a'.file (a'.entryOf name' info') data' packed')
    (hfl : info'.flags = info.flags) (hsu : Spec.singleUnit info.flags = false) (hcrc : Spec.checksums info.flags = false)
    (hen : Spec.encrypted info.flags = true) (hc : Spec.compressed info.flags = false) (hi : Spec.imploded info.flags = false)
    (hlong : 4 * n + 4 ≤ data.length) (hlong' : 4 * n + 4 ≤ data'.length)
    (hk : (a'.entryOf name' info').key = (a.entryOf name info).key)
    (hk0 : (a.entryOf name info).key ≠ 0) (hk1 : ((a.entryOf name info).key + 1) % 2 ^ 32 ≠ 0)
    (hsame : data'.take (4 * (n - 1)) = data.take (4 * (n - 1))) (hdiff : data'.take (4 * n) ≠ data.take (4 * n)) :
    ¬(a.readFile e name = .ok data ∧ a'.readFile e' name' = .ok data') := by
  rintro ⟨hr, hr'⟩
  obtain ⟨got, hg, _, _, h⟩ := C81_sectors_not_decrypted e m a name info hf n hn data packed hs hsu hcrc hen hc hi hlong hk0 hk1
  obtain ⟨got', hg', _, _, h'⟩ := C81_sectors_not_decrypted e' m' a' name' info' hf' n hn data' packed' hs' (by rw [hfl]; exact hsu)
    (by rw [hfl]; exact hcrc) (by rw [hfl]; exact hen) (by rw [hfl]; exact hc) (by rw [hfl]; exact hi) hlong' (by rw [hk]; exact hk0)
    (by rw [hk]; exact hk1)
  rw [hr] at hg
  rw [hr'] at hg'
  have h1 := h' (Except.ok.inj hg').symm
  rw [hk, ← h (Except.ok.inj hg).symm] at h1
  apply hdiff
  have split : ∀ d : List Byte, 4 * n + 4 ≤ d.length → ∃ v : U32, toDwords (d.take (4 * n)) = toDwords (d.take (4 * (n - 1))) ++ [v] := by
    intro d hd
    have hl : (toDwords (d.take (4 * n))).length = n := by rw [toDwords_length, List.length_take]; omega
    have ht : toDwords (d.take (4 * (n - 1))) = (toDwords (d.take (4 * n))).take (n - 1) := by
      have := dwords_take (n - 1) (d.take (4 * n))
      rw [List.take_take, Nat.min_eq_left (by omega), dwords_eq, dwords_eq, ← List.map_take] at this
      exact List.map_inj_right (fun _ _ h => BitVec.eq_of_toNat_eq h) |>.1 this
    rw [ht]
    generalize toDwords (d.take (4 * n)) = l at hl
    refine ⟨l[n - 1]'(by omega), ?_⟩
    have h2 := List.take_append_getElem (l := l) (i := n - 1) (by omega)
    rw [h2, show n - 1 + 1 = l.length from by omega, List.take_length]
  obtain ⟨v, hv⟩ := split data hlong
  obtain ⟨w, hw⟩ := split data' hlong'
  rw [hsame] at hw
  have : v = w := by
    rw [dwords_eq, dwords_eq, hv, hw, List.map_append, List.map_append, List.foldl_append, List.foldl_append] at h1
    generalize List.foldl Spec.Stream.next (Spec.Stream.start _) _ = s at h1
    have hvl := v.isLt
    have hwl := w.isLt
    apply BitVec.eq_of_toNat_eq
    dsimp only [List.map, List.foldl, Spec.Stream.next, Spec.Stream.mask, Spec.Stream.mixed, Spec.M32] at h1
    omega
  refine toDwords_inj (by rw [List.length_take]; omega) (by rw [List.length_take]; omega) ?_
  rw [hv, hw, this]


/-! ## Cases -/

/-- An archive of sectors of 512 bytes with one file at its beginning, whose name has the hash values `k1` and `k2`. -/
def storedOne (k1 k2 : U32) (f : List Byte) (storedSize size flags : U32) : Archive where
  file := f
  archiveOffset := 0
  userData := none
  header := parsedHeader .v1 0 ⟨0, 0, 0, 0, 0, none, none, none, none⟩
  hashTable := some [⟨k1, k2, 0, 0, 0⟩]
  blockTable := some [⟨0, storedSize, size, flags⟩]
  hiBlockTable := none
  hetTable := none
  betTable := none
  attributes := none

theorem storedOne_find {k1 k2 : U32} {name : List Byte} (h1 : hashString name htNameA = k1) (h2 : hashString name htNameB = k2)
    (f : List Byte) (storedSize size flags : U32) :
    (storedOne k1 k2 f storedSize size flags).findFile name = .ok (some ⟨0, 0, 0, storedSize.toNat, size.toNat, flags, 0⟩) := by
  have := findFileHash_one ⟨k1, k2, 0, 0, 0⟩ name
  rw [h1, h2, if_pos (by simp [HashEntry.isHit, HashEntry.isValid])] at this
  show (storedOne k1 k2 f storedSize size flags).findFileClassic name = _
  unfold Archive.findFileClassic
  dsimp only [storedOne]
  rw [this]
  rfl

/-- Whole dwords are encrypted by the model as published. -/
theorem enciphers_encryptData (key : U32) (plain : List Byte) (hq : plain.length % 4 = 0) :
    Spec.Enciphers key.toNat plain (encryptData plain key) := by
  refine ⟨encryptData_length .., ?_, ?_⟩
  · rw [List.drop_eq_nil_of_le (by rw [encryptData_length]; omega), List.drop_eq_nil_of_le (by omega)]
  · by_cases hk : key = 0
    · rw [if_pos (by rw [hk]; rfl)]
      unfold encryptData
      rw [if_pos (Or.inr hk)]
    · rw [if_neg (show ¬ key.toNat = 0 from fun h => hk (BitVec.eq_of_toNat_eq h)), dwords_eq, dwords_eq]
      exact C03_byte_cipher key hk plain

theorem key_base (name : List Byte) : (hashString name htFileKey).toNat = Spec.nameHash 3 (name.map BitVec.toNat) :=
  hashString_spec 3 (by decide) name

/-- Compression as the decompressor of the model understands it, and some imploding. -/
def toyMethods : Spec.Methods where
  unpack k b n := (decompress toyEnv.codecs b k n).toOption
  explode _ n := some (List.replicate n 7#8)

theorem toyMethods_agree (k : Byte) (b : List Byte) (n : Nat) (d : List Byte) (h : toyMethods.unpack k b n = some d) :
    decompress toyEnv.codecs b k n = .ok d := by
  unfold toyMethods at h
  dsimp only at h
  cases hd : decompress toyEnv.codecs b k n with
  | ok x => rw [hd] at h; exact congrArg _ (Option.some.inj h)
  | error x => rw [hd] at h; cases h

/-- An encrypted file of one compressed sector, with its table, whatever its name is. -/
theorem format_sector_case (name : List Byte) :
    ∃ (a : Archive) (info : FileInfo) (packed : Nat → List Byte), a.findFile name = .ok (some info) ∧ Spec.encrypted info.flags = true ∧ Spec.compressed info.flags = true ∧
      Spec.Stores toyMethods (512 * 2 ^ a.header.blockSize.toNat) a.file (a.entryOf name info) (List.replicate 40 7#8) packed ∧
      a.readFile toyEnv name = .ok (List.replicate 40 7#8) := by
  have hb := key_base name
  generalize hashString name htFileKey = key at hb
  obtain ⟨k1, e1⟩ : ∃ k, hashString name htNameA = k := ⟨_, rfl⟩
  obtain ⟨k2, e2⟩ : ∃ k, hashString name htNameB = k := ⟨_, rfl⟩
  obtain ⟨table, ht⟩ : ∃ t : List Byte, t = [8, 0, 0, 0, 12, 0, 0, 0] := ⟨_, rfl⟩
  obtain ⟨piece, hp⟩ : ∃ t : List Byte, t = [2, 1, 7, 40] := ⟨_, rfl⟩
  have htl : table.length = 8 := by rw [ht]; rfl
  have hpl : piece.length = 4 := by rw [hp]; rfl
  obtain ⟨a, ha⟩ : ∃ a, a = storedOne k1 k2 (encryptData table (key - 1) ++ encryptData piece key) 12 40 0x80010200 := ⟨_, rfl⟩
  have hf := storedOne_find e1 e2 (encryptData table (key - 1) ++ encryptData piece key) 12 40 0x80010200
  have hs : Spec.Stores toyMethods 512 a.file (a.entryOf name ⟨0, 0, 0, 12, 40, 0x80010200, 0⟩) (List.replicate 40 7#8)
      (fun _ => piece) := by
    have hfile : a.file = encryptData table (key - 1) ++ encryptData piece key := by rw [ha]; rfl
    have hkey : (a.entryOf name ⟨0, 0, 0, 12, 40, 0x80010200, 0⟩).key = key.toNat := by
      rw [hb]
      rfl
    have hl1 : (encryptData table (key - 1)).length = 8 := by rw [encryptData_length, htl]
    have hl2 : (encryptData piece key).length = 4 := by rw [encryptData_length, hpl]
    rw [hfile]
    refine ⟨rfl, ?_⟩
    rw [if_neg (by show ¬ Spec.singleUnit 0x80010200 = true; decide),
      if_pos (by show (Spec.compressed 0x80010200 || Spec.imploded 0x80010200) = true; decide), hkey]
    refine ⟨table, by rw [htl]; show 8 = 4 * ((40 + 512 - 1) / 512 + 1); decide, ?_, ?_⟩
    · unfold Spec.Stands
      rw [if_pos (by show Spec.encrypted 0x80010200 = true; decide)]
      refine ⟨encryptData table (key - 1), ?_, ?_⟩
      · have := enciphers_encryptData (key - 1) table (by omega)
        rw [BitVec.toNat_sub, Nat.add_comm] at this
        exact this
      · show ((encryptData table (key - 1) ++ encryptData piece key).drop 0).take _ = _
        rw [List.drop_zero, List.take_left' rfl]
    · intro i hi
      have hi' : i * 512 < 40 := hi
      have h0 : i = 0 := by omega
      subst h0
      refine ⟨Or.inr ⟨?_, Or.inl ⟨by show Spec.compressed 0x80010200 = true; decide, 2, [1, 7, 40], hp, ?_⟩⟩, ?_, ?_⟩
      · show piece.length < _
        rw [hpl]
        decide
      · decide +kernel
      · show _ = _ + piece.length
        rw [hpl, ht]
        decide
      · unfold Spec.Stands
        rw [if_pos (by show Spec.encrypted 0x80010200 = true; decide)]
        refine ⟨encryptData piece key, ?_, ?_⟩
        · have := enciphers_encryptData key piece (by omega)
          rw [Nat.add_zero, Nat.mod_eq_of_lt key.isLt]
          exact this
        · have h8 : (Spec.dwords table).getD 0 0 = 8 := by rw [ht]; decide
          rw [h8]
          show ((encryptData table (key - 1) ++ encryptData piece key).drop 8).take _ = _
          rw [List.drop_left' hl1, List.take_length]
  rw [← ha] at hf
  have hbs : a.header.blockSize.toNat = 0 := by rw [ha]; rfl
  refine ⟨a, _, _, hf, by show Spec.encrypted 0x80010200 = true; decide, by show Spec.compressed 0x80010200 = true; decide, by rw [hbs]; exact hs, ?_⟩
  exact C81_reads_what_is_stored_partial toyEnv toyMethods toyMethods_agree a name _ hf (by rw [hbs]; decide) _ _
    (by rw [hbs]; exact hs) (by show Spec.imploded 0x80010200 = false; decide) (fun _ _ => by rw [hpl])
    (fun _ h _ => by revert h; show Spec.compressed 0x80010200 = false → _; intro h; exact absurd h (by decide))
    (fun h => by revert h; show Spec.singleUnit 0x80010200 = true → _; intro h; exact absurd h (by decide))
    (fun h => by revert h; show Spec.singleUnit 0x80010200 = true → _; intro h; exact absurd h (by decide))

/-- Imploded data that come out as the bytes behind their first. -/
example (name : List Byte) : ∃ (a : Archive) (info : FileInfo) (packed : Nat → List Byte),
    Spec.Stores toyMethods 512 a.file (a.entryOf name info) (List.replicate 40 7#8) packed ∧
      a.findFile name = .ok (some info) ∧ a.readFile toyEnv name = .ok [6, 1, 2] := by
  obtain ⟨k1, e1⟩ : ∃ k, hashString name htNameA = k := ⟨_, rfl⟩
  obtain ⟨k2, e2⟩ : ∃ k, hashString name htNameB = k := ⟨_, rfl⟩
  have hf := storedOne_find e1 e2 [0, 6, 1, 2] 4 40 0x81000100
  have hs : Spec.Stores toyMethods 512 (storedOne k1 k2 [0, 6, 1, 2] 4 40 0x81000100).file
      ((storedOne k1 k2 [0, 6, 1, 2] 4 40 0x81000100).entryOf name ⟨0, 0, 0, 4, 40, 0x81000100, 0⟩) (List.replicate 40 7#8)
      (fun _ => [0, 6, 1, 2]) := by
    refine ⟨rfl, ?_⟩
    rw [if_pos (by show Spec.singleUnit 0x81000100 = true; decide)]
    refine ⟨Or.inr ⟨by decide, Or.inr ⟨by show Spec.compressed 0x81000100 = false; decide, by show Spec.imploded 0x81000100 = true; decide, rfl⟩⟩, rfl, ?_⟩
    unfold Spec.Stands
    rw [if_neg (by show ¬ Spec.encrypted 0x81000100 = true; decide)]
    rfl
  exact ⟨_, _, _, hs, hf, (C81_imploded_not_expanded toyEnv toyMethods _ name _ hf 512 _ _ hs (by show Spec.imploded 0x81000100 = true; decide)
    (by show Spec.singleUnit 0x81000100 = true; decide) (by show Spec.checksums 0x81000100 = false; decide)
    (by show Spec.encrypted 0x81000100 = false; decide) _ rfl (by decide)).1⟩

/-- A file of three bytes of which two are read. -/
example (name : List Byte) : ∃ (a : Archive) (info : FileInfo) (packed : Nat → List Byte),
    Spec.Stores toyMethods 512 a.file (a.entryOf name info) [0, 1, 2] packed ∧
      a.findFile name = .ok (some info) ∧ a.readFile toyEnv name = .ok [1, 2] := by
  obtain ⟨k1, e1⟩ : ∃ k, hashString name htNameA = k := ⟨_, rfl⟩
  obtain ⟨k2, e2⟩ : ∃ k, hashString name htNameB = k := ⟨_, rfl⟩
  have hf := storedOne_find e1 e2 [0, 1, 2] 3 3 0x81000200
  have hs : Spec.Stores toyMethods 512 (storedOne k1 k2 [0, 1, 2] 3 3 0x81000200).file
      ((storedOne k1 k2 [0, 1, 2] 3 3 0x81000200).entryOf name ⟨0, 0, 0, 3, 3, 0x81000200, 0⟩) [0, 1, 2]
      (fun _ => [0, 1, 2]) := by
    refine ⟨rfl, ?_⟩
    rw [if_pos (by show Spec.singleUnit 0x81000200 = true; decide)]
    refine ⟨Or.inl rfl, rfl, ?_⟩
    unfold Spec.Stands
    rw [if_neg (by show ¬ Spec.encrypted 0x81000200 = true; decide)]
    rfl
  exact ⟨_, _, _, hs, hf, C81_first_byte_lost toyEnv toyMethods _ name _ hf 512 _ _ hs (by show Spec.compressed 0x81000200 = true; decide)
    (by show Spec.singleUnit 0x81000200 = true; decide) (by show Spec.checksums 0x81000200 = false; decide)
    (by show Spec.encrypted 0x81000200 = false; decide) rfl _ rfl (by decide)⟩

theorem mask_lit (key : Nat) : (Spec.Stream.start key).mask = (key + (0xEEEEEEEE + entryLit (0x400 + key % 256)) % 2 ^ 32) % 2 ^ 32 := by
  unfold Spec.Stream.start Spec.Stream.mask Spec.Stream.mixed Spec.M32
  dsimp only
  rw [← entryLit_eq _ (by omega)]

/-- An encrypted file of five bytes, of which four are read as they were stored and the last is not. -/
example : ∃ (a : Archive) (info : FileInfo) (packed : Nat → List Byte) (got : List Byte),
    Spec.Stores toyMethods 512 a.file (a.entryOf (ascii "a.txt") info) [1, 2, 3, 4, 5] packed ∧
      a.findFile (ascii "a.txt") = .ok (some info) ∧ a.readFile toyEnv (ascii "a.txt") = .ok got ∧ got.take 4 = [1, 2, 3, 4] ∧
      got.length = 5 ∧ got ≠ [1, 2, 3, 4, 5] := by
  have hb := key_base (ascii "a.txt")
  have hlit : hashString (ascii "a.txt") htFileKey = BitVec.ofNat 32 (hashLit 3 0x7FED7FED 0xEEEEEEEE ((ascii "a.txt").map BitVec.toNat)) :=
    hashString_lit 3 (by decide) _
  have hk : ∃ k : U32, k = BitVec.ofNat 32 (hashLit 3 0x7FED7FED 0xEEEEEEEE ((ascii "a.txt").map BitVec.toNat)) ∧ k.toNat ≠ 0 ∧
      (k.toNat + 1) % 2 ^ 32 ≠ 0 ∧
      ((k.toNat + 1) % 2 ^ 32 + (0xEEEEEEEE + entryLit (0x400 + (k.toNat + 1) % 2 ^ 32 % 256)) % 2 ^ 32) % 2 ^ 32 % 256 ≠ 0 :=
    ⟨_, rfl, by decide +kernel⟩
  obtain ⟨key, hk, hk0, hk1, hm⟩ := hk
  rw [← hk] at hlit
  rw [hlit] at hb
  generalize ascii "a.txt" = name at *
  obtain ⟨k1, e1⟩ : ∃ k, hashString name htNameA = k := ⟨_, rfl⟩
  obtain ⟨k2, e2⟩ : ∃ k, hashString name htNameB = k := ⟨_, rfl⟩
  obtain ⟨f, hfd⟩ : ∃ f, f = encryptData [1, 2, 3, 4] key ++ [5] := ⟨_, rfl⟩
  have hl : (encryptData [1, 2, 3, 4] key).length = 4 := by rw [encryptData_length]; rfl
  have hf := storedOne_find e1 e2 f 5 5 0x81010000
  have hs : Spec.Stores toyMethods 512 (storedOne k1 k2 f 5 5 0x81010000).file
      ((storedOne k1 k2 f 5 5 0x81010000).entryOf name ⟨0, 0, 0, 5, 5, 0x81010000, 0⟩) [1, 2, 3, 4, 5]
      (fun _ => [1, 2, 3, 4, 5]) := by
    refine ⟨rfl, ?_⟩
    rw [if_pos (by show Spec.singleUnit 0x81010000 = true; decide)]
    refine ⟨Or.inl rfl, rfl, ?_⟩
    unfold Spec.Stands
    rw [if_pos (by show Spec.encrypted 0x81010000 = true; decide)]
    refine ⟨f, ⟨?_, ?_, ?_⟩, ?_⟩
    · rw [hfd, List.length_append, hl]; rfl
    · show f.drop 4 = [5]
      rw [hfd, List.drop_left' hl]
    · have h1 := (enciphers_encryptData key [1, 2, 3, 4] rfl).2.2
      have h2 : Spec.dwords f = Spec.dwords (encryptData [1, 2, 3, 4] key) := by
        have h3 := dwords_take 1 f
        rw [show 4 * 1 = 4 from rfl, hfd, List.take_left' hl] at h3
        rw [hfd, h3, List.take_of_length_le]
        rw [dwords_length, List.length_append, hl]
        decide
      rw [h2]
      rw [hb] at h1
      exact h1
    · show (f.drop 0).take f.length = f
      rw [List.drop_zero, List.take_length]
  obtain ⟨got, hg, hgl, hgt, hiff⟩ := C81_odd_bytes toyEnv toyMethods _ name _ hf 512 _ _ hs
    (by show Spec.singleUnit 0x81010000 = true; decide) (by show Spec.checksums 0x81010000 = false; decide)
    (by show Spec.encrypted 0x81010000 = true; decide) (by show Spec.compressed 0x81010000 = false; decide)
    (by show Spec.imploded 0x81010000 = false; decide)
  refine ⟨_, _, _, got, hs, hf, hg, hgt, hgl, fun h => ?_⟩
  have h3 := hiff.1 h
  have hkey : ((storedOne k1 k2 f 5 5 0x81010000).entryOf name
      ⟨0, 0, 0, (5 : U32).toNat, (5 : U32).toNat, 0x81010000, 0⟩).key = key.toNat := by
    rw [hb]
    rfl
  dsimp only at h3
  rw [hkey] at h3
  rcases h3 with h3 | h3 | h3
  · exact hk0 h3
  · exact hk1 h3
  · rw [mask_lit] at h3
    exact hm h3

/-- There are two archives of which at least one is read wrong, whatever the name of the file: as C81 demands, each stores a file
of 516 bytes in two encrypted sectors. -/
theorem C81_sectors_read_wrong (e : Env) (name : List Byte) (hk0 : Spec.nameHash 3 (name.map BitVec.toNat) ≠ 0)
    (hk1 : (Spec.nameHash 3 (name.map BitVec.toNat) + 1) % 2 ^ 32 ≠ 0) :
    ∃ (a : Archive) (info : FileInfo) (data : List Byte) (packed : Nat → List Byte),
      Spec.Stores toyMethods 512 a.file (a.entryOf name info) data packed ∧ a.findFile name = .ok (some info) ∧
      data.length = 516 ∧ ∃ got, a.readFile e name = .ok got ∧ got ≠ data := by
  have hb := key_base name
  generalize hashString name htFileKey = key at hb
  obtain ⟨k1, e1⟩ : ∃ k, hashString name htNameA = k := ⟨_, rfl⟩
  obtain ⟨k2, e2⟩ : ∃ k, hashString name htNameB = k := ⟨_, rfl⟩
  let file (d : List Byte) := encryptData (d.take 512) key ++ encryptData (d.drop 512) (key + 1)
  let arch (d : List Byte) := storedOne k1 k2 (file d) 516 516 0x80010000
  let info : FileInfo := ⟨0, 0, 0, 516, 516, 0x80010000, 0⟩
  have hkey : ∀ d, ((arch d).entryOf name info).key = key.toNat := by 
    intro d
    rw [hb]
    dsimp only [Archive.entryOf, info]
    unfold Spec.fileKey
    rw [if_neg (by decide)]
  have hs : ∀ d : List Byte, d.length = 516 → Spec.Stores toyMethods 512 (arch d).file ((arch d).entryOf name info) d (Spec.piece 512 d) := by
    intro d hd
    have hl1 : (encryptData (d.take 512) key).length = 512 := by rw [encryptData_length, List.length_take]; omega
    have hl2 : (encryptData (d.drop 512) (key + 1)).length = 4 := by rw [encryptData_length, List.length_drop]; omega
    refine ⟨hd, ?_⟩
    rw [if_neg (by show ¬ Spec.singleUnit 0x80010000 = true; decide),
      if_neg (by show ¬ (Spec.compressed 0x80010000 || Spec.imploded 0x80010000) = true; decide), hkey]
    refine ⟨rfl, ?_⟩
    intro i hi
    have hi' : i * 512 < 516 := hi
    refine ⟨rfl, ?_⟩
    unfold Spec.Stands
    rw [if_pos (by show Spec.encrypted 0x80010000 = true; decide)]
    rcases (show i = 0 ∨ i = 1 by omega) with rfl | rfl
    · refine ⟨encryptData (d.take 512) key, ?_, ?_⟩
      · rw [Nat.add_zero, Nat.mod_eq_of_lt key.isLt]
        exact enciphers_encryptData key (d.take 512) (by rw [List.length_take]; omega)
      · show ((file d).drop 0).take _ = _
        rw [List.drop_zero, List.take_left' rfl]
    · refine ⟨encryptData (d.drop 512) (key + 1), ?_, ?_⟩
      · have := enciphers_encryptData (key + 1) (d.drop 512) (by rw [List.length_drop]; omega)
        rw [BitVec.toNat_add] at this
        have hp : Spec.piece 512 d 1 = d.drop 512 := by
          unfold Spec.piece
          rw [List.take_of_length_le (by rw [List.length_drop]; omega)]
        rw [hp]
        exact this
      · show ((file d).drop 512).take _ = _
        rw [List.drop_left' hl1, List.take_length]
  have hf : ∀ d, (arch d).findFile name = .ok (some info) := fun d => storedOne_find e1 e2 _ _ _ _
  let d1 : List Byte := List.replicate 508 0#8 ++ List.replicate 4 0#8 ++ List.replicate 4 0#8
  let d2 : List Byte := List.replicate 508 0#8 ++ List.replicate 4 1#8 ++ List.replicate 4 0#8
  have hl1 : d1.length = 516 := by decide +kernel
  have hl2 : d2.length = 516 := by decide +kernel
  have h := C81_sectors_at_most_one e e toyMethods toyMethods (arch d1) (arch d2) name name info info (hf d1) (hf d2) 128 (by decide) d1 d2
    _ _ (hs d1 hl1) (hs d2 hl2) rfl (by show Spec.singleUnit 0x80010000 = false; decide)
    (by show Spec.checksums 0x80010000 = false; decide) (by show Spec.encrypted 0x80010000 = true; decide)
    (by show Spec.compressed 0x80010000 = false; decide) (by show Spec.imploded 0x80010000 = false; decide)
    (by rw [hl1]; decide) (by rw [hl2]; decide) (by rw [hkey, hkey]) (by rw [hkey, hb]; exact hk0) (by rw [hkey, hb]; exact hk1)
    (by decide +kernel) (by decide +kernel)
  have hr : ∀ d, d.length = 516 → ∃ got, (arch d).readFile e name = .ok got := by
    intro d hd
    obtain ⟨got, hg, _⟩ := C81_sectors_not_decrypted e toyMethods (arch d) name info (hf d) 128 (by decide) d _ (hs d hd)
      (by show Spec.singleUnit 0x80010000 = false; decide)
      (by show Spec.checksums 0x80010000 = false; decide) (by show Spec.encrypted 0x80010000 = true; decide)
      (by show Spec.compressed 0x80010000 = false; decide) (by show Spec.imploded 0x80010000 = false; decide)
      (by rw [hd]; decide) (by rw [hkey, hb]; exact hk0) (by rw [hkey, hb]; exact hk1)
    exact ⟨got, hg⟩
  obtain ⟨g1, hg1⟩ := hr d1 hl1
  obtain ⟨g2, hg2⟩ := hr d2 hl2
  by_cases hx : g1 = d1
  · refine ⟨_, _, d2, _, hs d2 hl2, hf d2, hl2, g2, hg2, fun h2 => h ⟨by rw [hg1, hx], by rw [hg2, h2]⟩⟩
  · exact ⟨_, _, d1, _, hs d1 hl1, hf d1, hl1, g1, hg1, hx⟩

end Mopaq
