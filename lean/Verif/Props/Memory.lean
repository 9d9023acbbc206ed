import Verif.Model.Memory
import Verif.Props.OpenTotal
import Verif.Props.Truncated
import Verif.Props.Layout

/-! # Memory in proportion to the file (C80) -/

namespace Mopaq

theorem asked_after {α : Type} {r : Res α} {next : α → List Nat} {n : Nat} (h : n ∈ Res.after r next) :
    ∃ x, r = .ok x ∧ n ∈ next x := by
  cases r with
  | ok x => exact ⟨x, rfl, h⟩
  | error err => cases h

theorem openArchive_eq (e : Env) (f : List Byte) (off : Nat) (ud : Option UserDataHeader) (h : MpqHeader)
    (hh : findHeader f = .ok (off, ud, h)) :
    openArchive e f = ((if h.formatVersion.ge .v3 then loadHet e f off h else pure none) >>= fun het =>
      (if h.formatVersion.ge .v3 then loadBet e f off h else pure none) >>= fun bet =>
      loadClassic f off h (usableHetBet het bet).isSome >>= fun classic =>
      loadHiBlock f off h >>= fun hi =>
      (openedFrom f off ud h het bet classic hi none).loadAttributes e >>= fun attributes =>
      pure (openedFrom f off ud h het bet classic hi attributes)) := by
  unfold openArchive
  rw [hh]
  show (Archive.loadTables e _) = _
  unfold Archive.loadTables
  dsimp only
  cases h.formatVersion.ge .v3 <;> rfl

/-- C80: in versions 1 and 2 a request for more memory than the file has bytes is always the last one: opening then fails,
because the table it was meant for is not there. So no archive that opens has asked for more than its length at a time. -/
theorem C80_classic_requests_partial (e : Env) (f : List Byte) (off : Nat) (ud : Option UserDataHeader) (h : MpqHeader)
    (hh : findHeader f = .ok (off, ud, h)) (hv : h.formatVersion = .v1 ∨ h.formatVersion = .v2)
    (n : Nat) (hn : n ∈ openAsked e f) (hlt : f.length < n) : openArchive e f = .error .io := by
  have hge : h.formatVersion.ge .v3 = false := by rcases hv with h | h <;> rw [h] <;> rfl
  unfold openAsked at hn
  rw [hh] at hn
  simp only [Res.after, hge, Bool.false_eq_true, if_false, List.nil_append, pure, Except.pure] at hn
  have hu : usableHetBet none none = none := rfl
  rw [hu] at hn
  have ho := openArchive_eq e f off ud h hh
  simp only [hge, Bool.false_eq_true, if_false, pure, Except.pure] at ho
  rw [ho]
  simp only [bind, Except.bind]
  rw [hu]
  rw [List.mem_append] at hn
  rcases hn with hn | hn
  · unfold classicAsked at hn
    simp only [Option.isSome_none, Bool.not_false, Bool.true_or, if_true] at hn
    obtain ⟨o, ho1, hn⟩ := asked_after hn
    split at hn
    · cases hn
    · rename_i hp
      unfold loadClassic
      simp only [Option.isSome_none, Bool.not_false, Bool.true_or, if_true]
      rw [ho1]
      simp only [bind, Except.bind]
      rcases List.mem_cons.1 hn with rfl | hn
      · have : readHashTable f o h.hashTableSize = .error .io := by
          unfold readHashTable
          rw [if_neg hp]
          unfold readAt
          rw [if_neg (by omega), if_neg (by omega)]
        rw [this]
      · obtain ⟨t, ht, hn⟩ := asked_after hn
        obtain ⟨o2, ho2, hn⟩ := asked_after hn
        rw [List.mem_singleton] at hn
        rw [ht]
        dsimp only
        rw [ho2]
        dsimp only
        have : readBlockTable f o2 h.blockTableSize = .error .io := by
          unfold readBlockTable readAt
          rw [if_neg (by omega), if_neg (by omega)]
        rw [this]
  · -- the hi-block table is only asked for when the block table has been read, which is larger
    split at hn
    rotate_left
    · cases hn
    rename_i c hc
    exfalso
    have hb : h.blockTableSize.toNat * 16 ≤ f.length := by
      unfold loadClassic at hc
      simp only [Option.isSome_none, Bool.not_false, Bool.true_or, if_true] at hc
      obtain ⟨o, _, hc⟩ := bind_eq_ok.1 hc
      obtain ⟨t, _, hc⟩ := bind_eq_ok.1 hc
      obtain ⟨o2, _, hc⟩ := bind_eq_ok.1 hc
      obtain ⟨bt, hbt, _⟩ := bind_eq_ok.1 hc
      unfold readBlockTable readAt at hbt
      split at hbt
      · cases hbt
      · rename_i hr
        split at hr
        · omega
        · split at hr
          · omega
          · cases hr
    unfold hiBlockAsked at hn
    split at hn
    · cases hn
    · split at hn
      · cases hn
      · obtain ⟨_, _, hn⟩ := asked_after hn
        rw [List.mem_singleton] at hn
        omega

theorem rd32s_held : ∀ (n : Nat) (r : List Byte) (x : List U32 × List Byte), rd32s n r = .ok x → x.1.length = n
  | 0, _, x, h => by cases h; rfl
  | n + 1, r, x, h => by
    unfold rd32s at h
    obtain ⟨⟨v, r1⟩, _, h⟩ := bind_eq_ok.1 h
    obtain ⟨⟨vs, r2⟩, h2, h⟩ := bind_eq_ok.1 h
    cases h
    exact congrArg (· + 1) (rd32s_held n _ _ h2)

theorem rd64s_held : ∀ (n : Nat) (r : List Byte) (x : List U64 × List Byte), rd64s n r = .ok x → x.1.length = n
  | 0, _, x, h => by cases h; rfl
  | n + 1, r, x, h => by
    unfold rd64s at h
    obtain ⟨⟨v, r1⟩, _, h⟩ := bind_eq_ok.1 h
    obtain ⟨⟨vs, r2⟩, h2, h⟩ := bind_eq_ok.1 h
    cases h
    exact congrArg (· + 1) (rd64s_held n _ _ h2)

theorem readHiBlockTable_held (f : List Byte) : ∀ (n offset : Nat) (t : List U16), readHiBlockTable f offset n = .ok t →
    t.length = n
  | 0, _, t, h => by cases h; rfl
  | n + 1, offset, t, h => by
    unfold readHiBlockTable at h
    split at h
    · cases h
    · split at h
      · cases h
      · rename_i h2
        cases h
        exact congrArg (· + 1) (readHiBlockTable_held f n _ _ h2)

/-- The memory the tables of an archive take, in bytes: 16 for an entry of the hash table and of the block table, 2 for one of the
hi-block table; of the BET table the flags with 4 each, the records, and the hashes with 8 each. -/
def _root_.Spec.heldBy (a : Archive) : List Nat :=
  (a.betTable.toList.flatMap fun t => [4 * t.fileFlags.length, t.fileTable.length, 8 * t.betHashes.length]) ++
  (a.hashTable.toList.map fun t => 16 * t.length) ++ (a.blockTable.toList.map fun t => 16 * t.length) ++
  a.hiBlockTable.toList.map fun t => 2 * t.length

/-- The hash table and the block table, likewise. -/
def classicHeld (c : Option (HashTable × List BlockEntry)) : List Nat :=
  c.toList.flatMap fun c => [16 * c.1.length, 16 * c.2.length]

theorem classic_held (f : List Byte) (off : Nat) (h : MpqHeader) (usable : Bool) (c : Option (HashTable × List BlockEntry))
    (hc : loadClassic f off h usable = .ok c) :
    classicAsked f off h usable = classicHeld c := by
  unfold loadClassic at hc
  unfold classicAsked
  split at hc
  · rename_i hu
    rw [if_pos hu]
    obtain ⟨o, h1, hc⟩ := bind_eq_ok.1 hc
    obtain ⟨t, h2, hc⟩ := bind_eq_ok.1 hc
    obtain ⟨o2, h3, hc⟩ := bind_eq_ok.1 hc
    obtain ⟨b, h4, hc⟩ := bind_eq_ok.1 hc
    cases hc
    have ht : t.length = h.hashTableSize.toNat ∧ ¬ (!isPowerOfTwo h.hashTableSize) = true := by
      unfold readHashTable at h2
      split at h2
      · cases h2
      · rename_i hp
        split at h2
        · cases h2
        · exact ⟨parseEntries_length h2, hp⟩
    have hb : b.length = h.blockTableSize.toNat := by
      unfold readBlockTable at h4
      split at h4
      · cases h4
      · exact parseEntries_length h4
    rw [h1]
    simp only [Res.after]
    rw [if_neg ht.2, h2]
    simp only [h3]
    show _ = [16 * t.length, 16 * b.length]
    rw [ht.1, hb, Nat.mul_comm, Nat.mul_comm h.blockTableSize.toNat]
  · rename_i hu
    rw [if_neg hu]
    cases hc
    rfl

theorem hi_held (f : List Byte) (off : Nat) (h : MpqHeader) (hi : Option (List U16)) (hh : loadHiBlock f off h = .ok hi) :
    hiBlockAsked off h = (hi.toList.map fun t => 2 * t.length) := by
  unfold loadHiBlock at hh
  unfold hiBlockAsked
  split at hh
  · rename_i hp
    rw [hp]
    cases hh
    rfl
  · rename_i pos hp
    rw [hp]
    dsimp only
    split at hh
    · rename_i h0
      rw [if_pos h0]
      cases hh
      rfl
    · rename_i h0
      rw [if_neg h0]
      obtain ⟨o, h1, hh⟩ := bind_eq_ok.1 hh
      obtain ⟨t, h2, hh⟩ := bind_eq_ok.1 hh
      cases hh
      rw [h1]
      simp only [Res.after]
      show _ = [2 * t.length]
      rw [readHiBlockTable_held f _ _ _ h2, Nat.mul_comm]

theorem bet_held (e : Env) (f : List Byte) (off : Nat) (h : MpqHeader) (t : BetTable) (ht : loadBet e f off h = .ok (some t)) :
    ∃ whole, betAsked e f off h = whole ++ [4 * t.fileFlags.length, t.fileTable.length, 8 * t.betHashes.length] := by
  unfold loadBet at ht
  unfold betAsked
  split at ht
  · cases ht
  · rename_i pos hp
    rw [hp]
    dsimp only
    split at ht
    · cases ht
    · rename_i h0
      rw [if_neg h0]
      dsimp only at ht
      rw [e1_res] at ht
      obtain ⟨size, h1, ht⟩ := bind_eq_ok.1 ht
      rw [h1]
      simp only [Res.after]
      split at ht
      · cases ht
      · rename_i hs
        rw [if_neg hs]
        obtain ⟨o, h2, ht⟩ := bind_eq_ok.1 ht
        rw [h2]
        dsimp only
        have hr : readBetTable e.codecs f o size.toNat blockTableKey = .ok t := by
          unfold tolerate at ht
          split at ht <;> cases ht
          assumption
        unfold readBetTable at hr
        obtain ⟨body, hb, hr⟩ := bind_eq_ok.1 hr
        obtain ⟨header, hhd, hr⟩ := bind_eq_ok.1 hr
        obtain ⟨⟨flags, r1⟩, h3, hr⟩ := bind_eq_ok.1 hr
        obtain ⟨⟨table, r2⟩, h4, hr⟩ := bind_eq_ok.1 hr
        obtain ⟨⟨hashes, r3⟩, h5, hr⟩ := bind_eq_ok.1 hr
        cases hr
        unfold betTableAsked
        rw [hb]
        simp only [Res.after]
        rw [hhd]
        dsimp only
        rw [h3]
        dsimp only
        rw [h4]
        dsimp only
        have e1 := rd32s_held _ _ _ h3
        have e2 := rd64s_held _ _ _ h5
        have e3 := (rdBytes_ok_iff _ _ _).1 h4
        refine ⟨extTableAsked o size.toNat, ?_⟩
        dsimp only at e1 e2
        obtain ⟨e3, e4⟩ := e3
        cases e4
        rw [e1, e2, List.length_take, Nat.min_eq_left e3, Nat.mul_comm 4, Nat.mul_comm 8]

/-- C80: what opening asks for is what the archive holds afterwards. For every table of an archive that opens, memory of just its
size has been asked for; and in versions 1 and 2 nothing else has. -/
theorem C80_held_was_asked (e : Env) (f : List Byte) (a : Archive) (ho : openArchive e f = .ok a) :
    (Spec.heldBy a).Sublist (openAsked e f) ∧
    (a.header.formatVersion = .v1 ∨ a.header.formatVersion = .v2 → openAsked e f = Spec.heldBy a) := by
  cases hh : findHeader f with
  | error err =>
    unfold openArchive at ho
    rw [hh] at ho
    cases ho
  | ok x =>
  obtain ⟨off, ud, h⟩ := x
  rw [openArchive_eq e f off ud h hh] at ho
  obtain ⟨het, h1, ho⟩ := bind_eq_ok.1 ho
  obtain ⟨bet, h2, ho⟩ := bind_eq_ok.1 ho
  obtain ⟨classic, h3, ho⟩ := bind_eq_ok.1 ho
  obtain ⟨hi, h4, ho⟩ := bind_eq_ok.1 ho
  obtain ⟨attributes, _, ho⟩ := bind_eq_ok.1 ho
  cases ho
  have hask : openAsked e f = (if h.formatVersion.ge .v3 then hetAsked off h else []) ++
      ((if h.formatVersion.ge .v3 then betAsked e f off h else []) ++
      (classicHeld classic ++
      (hi.toList.map fun t => 2 * t.length))) := by
    unfold openAsked
    rw [hh]
    simp only [Res.after, h1, h2, h3]
    rw [classic_held f off h _ classic h3, hi_held f off h hi h4]
  have hheld : Spec.heldBy (openedFrom f off ud h het bet classic hi attributes) =
      (bet.toList.flatMap fun t => [4 * t.fileFlags.length, t.fileTable.length, 8 * t.betHashes.length]) ++
      (classicHeld classic ++
      (hi.toList.map fun t => 2 * t.length)) := by
    unfold Spec.heldBy openedFrom
    cases classic with
    | none => cases bet <;> cases hi <;> rfl
    | some c => cases bet <;> cases hi <;> rfl
  rw [hask, hheld]
  refine ⟨?_, fun hv => ?_⟩
  · refine (List.Sublist.append ?_ (List.Sublist.refl _)).trans (List.sublist_append_right _ _)
    cases bet with
    | none => exact List.nil_sublist _
    | some t =>
      cases hg : h.formatVersion.ge .v3 with
      | false => rw [hg] at h2; cases h2
      | true =>
        rw [hg] at h2
        rw [if_pos rfl]
        obtain ⟨size, hs⟩ := bet_held e f off h t h2
        rw [hs]
        exact List.sublist_append_right _ _
  · have hge : h.formatVersion.ge .v3 = false := by
      have hv : h.formatVersion = .v1 ∨ h.formatVersion = .v2 := hv
      rcases hv with h | h <;> rw [h] <;> rfl
    rw [hge] at h2
    cases h2
    rw [hge]
    rfl

/-- A header of version 4 that states a HET table of `n` bytes, and nothing else. -/
def hugeHetParams (n : U64) : HeaderParams :=
  { archiveSize := 208, hashTablePos := 208, blockTablePos := 208, hashTableSize := 1, blockTableSize := 0,
    hiBlockTablePos := none, hetTablePos := some 208, betTablePos := none,
    v4Data := some
      { hashTableSize64 := 16, blockTableSize64 := 0, hiBlockTableSize64 := 0, hetTableSize64 := n, betTableSize64 := 0,
        rawChunkSize := 0x4000, md5BlockTable := List.replicate 16 0, md5HashTable := List.replicate 16 0,
        md5HiBlockTable := List.replicate 16 0, md5BetTable := List.replicate 16 0, md5HetTable := List.replicate 16 0,
        md5MpqHeader := List.replicate 16 0 } }

theorem header_found (version : FormatVersion) (p : HeaderParams) (hs : ∀ v, p.v4Data = some v → v.Sized) (bytes rest : List Byte)
    (hw : writeHeader version 3 p = .ok bytes) : findHeader (bytes ++ rest) = .ok (0, none, parsedHeader version 3 p) := by
  obtain ⟨hdr, h1, h2⟩ := C13_embedded_archive_found [] rest bytes version 3 p rfl hs hw (by intro o ho; cases ho)
  have := readHeader_written version 3 p bytes [] hs hw
  rw [List.append_nil, h2] at this
  cases this
  exact h1

/-- C80: but a file of 224 bytes can make opening ask for any amount of memory below 2^63 bytes, and still be an archive that
opens. -/
theorem C80_any_amount (e : Env) (n : Nat) (h0 : 0 < n) (hn : n < 2 ^ 63) : ∃ f : List Byte, f.length = 224 ∧
    n ∈ openAsked e f ∧ (225 ≤ n → ∃ a, openArchive e f = .ok a) := by
  have h63 : (2 : Nat) ^ 63 = 9223372036854775808 := rfl
  have h64 : (2 : Nat) ^ 64 = 18446744073709551616 := rfl
  have hsz : ∀ v, (hugeHetParams (BitVec.ofNat 64 n)).v4Data = some v → v.Sized := by
    intro v hv; cases hv; exact ⟨rfl, rfl, rfl, rfl, rfl, rfl⟩
  obtain ⟨bytes, hw⟩ : ∃ bytes, writeHeader .v4 3 (hugeHetParams (BitVec.ofNat 64 n)) = .ok bytes := ⟨_, rfl⟩
  have hlen : bytes.length = 208 := writeHeader_length .v4 3 _ bytes hsz hw
  have hnat : (BitVec.ofNat 64 n : U64).toNat = n := by rw [BitVec.toNat_ofNat, Nat.mod_eq_of_lt (by omega)]
  have hne : (BitVec.ofNat 64 n : U64) ≠ 0#64 := by
    intro h
    have := congrArg BitVec.toNat h
    rw [hnat] at this
    have h00 : (0#64).toNat = 0 := rfl
    omega
  have key : ∀ (en : HashEntry), (∀ x y, en.isHit x y 0 = false) →
      n ∈ openAsked e (bytes ++ hashTableBytes [en]) ∧
        (17 ≤ n → ∃ a, openArchive e (bytes ++ hashTableBytes [en]) = .ok a) := by
    intro en hen
    have hf := header_found .v4 _ hsz bytes (hashTableBytes [en]) hw
    have hhet : hetAsked 0 (parsedHeader .v4 3 (hugeHetParams (BitVec.ofNat 64 n))) = [n] := by
      unfold hetAsked
      show (if (208#64) = 0#64 then [] else _) = _
      rw [if_neg (by decide)]
      show Res.after (if (decide (BitVec.ofNat 64 n = 0#64) && _) = true then _ else pure (BitVec.ofNat 64 n)) _ = _
      rw [decide_eq_false hne, Bool.false_and, if_neg (by decide)]
      show (if BitVec.ofNat 64 n = 0#64 then [] else _) = _
      rw [if_neg hne]
      show extTableAsked 208 (BitVec.ofNat 64 n).toNat = _
      unfold extTableAsked
      rw [hnat, if_pos ⟨by omega, hn⟩]
    have hlenf : (bytes ++ hashTableBytes [en]).length = 224 := by
      rw [List.length_append, hashTableBytes_length, hlen]; rfl
    refine ⟨?_, fun h17 => ?_⟩
    · unfold openAsked
      rw [hf]
      show n ∈ (if true = true then hetAsked 0 _ else []) ++ _
      rw [if_pos rfl, hhet]
      exact List.mem_append_left _ (List.mem_singleton.2 rfl)
    · rw [openArchive_eq e _ _ _ _ hf]
      have g1 : loadHet e (bytes ++ hashTableBytes [en]) 0 (parsedHeader .v4 3 (hugeHetParams (BitVec.ofNat 64 n))) = .ok none := by
        have hr : readHetTable e.codecs (bytes ++ hashTableBytes [en]) 208 n hashTableKey = .error .io := by
          unfold readHetTable readExtTable readVec readAt
          rw [if_neg (by omega), if_neg (by omega), if_neg (by omega)]
          rfl
        unfold loadHet
        show (if (208#64) = 0#64 then _ else _) = _
        rw [if_neg (by decide)]
        dsimp only
        rw [show (Option.map (fun x => x.hetTableSize64)
            (parsedHeader .v4 3 (hugeHetParams (BitVec.ofNat 64 n))).v4Data).getD 0#64 = BitVec.ofNat 64 n from rfl]
        rw [decide_eq_false hne, Bool.false_and, if_neg (by decide)]
        show (if BitVec.ofNat 64 n = 0#64 then _ else _) = _
        rw [if_neg hne]
        show tolerate (readHetTable e.codecs _ 208 (BitVec.ofNat 64 n).toNat hashTableKey) = _
        rw [hnat, hr]
        rfl
      have g2 : loadBet e (bytes ++ hashTableBytes [en]) 0 (parsedHeader .v4 3 (hugeHetParams (BitVec.ofNat 64 n))) = .ok none := rfl
      have g3 : loadClassic (bytes ++ hashTableBytes [en]) 0 (parsedHeader .v4 3 (hugeHetParams (BitVec.ofNat 64 n))) false =
          .ok (some ([en], [])) := by
        have hr := readHashTable_written bytes [] [en] (show 1 < 2 ^ 32 by omega)
          (show isPowerOfTwo (BitVec.ofNat 32 1) = true by decide)
        rw [List.append_nil, hlen] at hr
        unfold loadClassic
        rw [if_pos (by rfl)]
        have hq : addPos 0 208#64 = .ok 208 := by decide
        have hq1 : (parsedHeader .v4 3 (hugeHetParams (BitVec.ofNat 64 n))).getHashTablePos = 208#64 := by
          show (_ ||| _ : U64) = _
          dsimp only [parsedHeader, hugeHetParams, Option.getD]
          decide
        have hq2 : (parsedHeader .v4 3 (hugeHetParams (BitVec.ofNat 64 n))).getBlockTablePos = 208#64 := by
          show (_ ||| _ : U64) = _
          dsimp only [parsedHeader, hugeHetParams, Option.getD]
          decide
        rw [hq1, hq2, hq]
        refine bind_eq_ok.2 ⟨_, rfl, bind_eq_ok.2 ⟨_, hr, bind_eq_ok.2 ⟨_, rfl, bind_eq_ok.2 ⟨[], ?_, rfl⟩⟩⟩⟩
        unfold readBlockTable
        rfl
      have g4 : loadHiBlock (bytes ++ hashTableBytes [en]) 0 (parsedHeader .v4 3 (hugeHetParams (BitVec.ofNat 64 n))) = .ok none := rfl
      rw [if_pos (by rfl), g1, if_pos (by rfl), g2]
      have g5 : (openedFrom (bytes ++ hashTableBytes [en]) 0 none (parsedHeader .v4 3 (hugeHetParams (BitVec.ofNat 64 n))) none
          none (some ([en], [])) none none).loadAttributes e = .ok none := by
        refine loadAttributes_none ?_ rfl
        unfold Archive.findFile
        rw [show usableHetBet (openedFrom (bytes ++ hashTableBytes [en]) 0 none
          (parsedHeader .v4 3 (hugeHetParams (BitVec.ofNat 64 n))) none none (some ([en], [])) none none).hetTable
          (openedFrom (bytes ++ hashTableBytes [en]) 0 none
          (parsedHeader .v4 3 (hugeHetParams (BitVec.ofNat 64 n))) none none (some ([en], [])) none none).betTable = none from rfl]
        dsimp only
        unfold Archive.findFileClassic
        dsimp only [openedFrom, Option.map]
        rw [findFileHash_one, hen]
        rfl
      refine ⟨_, bind_eq_ok.2 ⟨_, rfl, bind_eq_ok.2 ⟨_, rfl, bind_eq_ok.2 ⟨_, g3, bind_eq_ok.2 ⟨_, g4,
        bind_eq_ok.2 ⟨_, g5, rfl⟩⟩⟩⟩⟩⟩
  obtain ⟨k1, k2⟩ := key HashEntry.empty (by intro x y; simp [HashEntry.isHit, HashEntry.isValid, HashEntry.empty])
  refine ⟨_, ?_, k1, fun h => k2 (by omega)⟩
  rw [List.length_append, hashTableBytes_length, hlen]
  rfl

/-- A header of version 1 that states a hash table with 2^k entries, and nothing else. -/
def hugeHashParams (k : Nat) : HeaderParams :=
  { archiveSize := 32, hashTablePos := 32, blockTablePos := 32, hashTableSize := BitVec.ofNat 32 (2 ^ k), blockTableSize := 0,
    hiBlockTablePos := none, hetTablePos := none, betTablePos := none, v4Data := none }

/-- C80: a file of 32 bytes makes opening ask for as much as 32 GiB, before it fails. -/
theorem C80_small_file_asks (e : Env) (k : Nat) (hk : k < 32) : ∃ f : List Byte, f.length = 32 ∧
    2 ^ k * 16 ∈ openAsked e f ∧ openArchive e f = .error .io := by
  have hlt : 2 ^ k < 2 ^ 32 := Nat.pow_lt_pow_right (by decide) hk
  have hs : ∀ v, (hugeHashParams k).v4Data = some v → v.Sized := by intro v hv; cases hv
  obtain ⟨bytes, hw⟩ : ∃ bytes, writeHeader .v1 3 (hugeHashParams k) = .ok bytes := ⟨_, rfl⟩
  have hlen : bytes.length = 32 := writeHeader_length .v1 3 _ bytes hs hw
  have hf := header_found .v1 _ hs bytes [] hw
  rw [List.append_nil] at hf
  have hnat : (BitVec.ofNat 32 (2 ^ k) : U32).toNat = 2 ^ k := by rw [BitVec.toNat_ofNat, Nat.mod_eq_of_lt hlt]
  have hpos : 0 < 2 ^ k := Nat.pow_pos (by decide)
  have hp := isPowerOfTwo_of_two_pow k hk
  refine ⟨bytes, hlen, ?_, ?_⟩
  · unfold openAsked
    rw [hf]
    show _ ∈ [] ++ ([] ++ (classicAsked bytes 0 _ false ++ _))
    refine List.mem_append_right _ (List.mem_append_right _ (List.mem_append_left _ ?_))
    unfold classicAsked
    rw [if_pos (by rfl)]
    show _ ∈ (if (!isPowerOfTwo (BitVec.ofNat 32 (2 ^ k))) = true then [] else (BitVec.ofNat 32 (2 ^ k)).toNat * 16 :: _)
    rw [hp, hnat]
    exact List.mem_cons_self ..
  · rw [openArchive_eq e _ _ _ _ hf]
    have g : loadClassic bytes 0 (parsedHeader .v1 3 (hugeHashParams k)) false = .error .io := by
      unfold loadClassic
      rw [if_pos (by rfl)]
      have hr : readHashTable bytes 32 (BitVec.ofNat 32 (2 ^ k)) = .error .io := by
        unfold readHashTable readAt
        rw [hp, hnat, if_neg (by decide), if_neg (by omega), if_neg (by omega)]
      have ha : addPos 0 (parsedHeader .v1 3 (hugeHashParams k)).getHashTablePos = .ok 32 := by
        show addPos 0 (BitVec.setWidth 64 (BitVec.setWidth 32 (32 : U64))) = _
        decide
      rw [ha]
      show (readHashTable bytes 32 (BitVec.ofNat 32 (2 ^ k)) >>= _) = _
      rw [hr]
      rfl
    show (loadClassic bytes 0 (parsedHeader .v1 3 (hugeHashParams k)) false >>= _) = _
    rw [g]
    rfl

/-- The hypotheses of `C80_classic_requests_partial` can be met: the file above, for a hash table of four entries. -/
example (e : Env) : ∃ f off ud h, findHeader f = .ok (off, ud, h) ∧ h.formatVersion = .v1 ∧ ∃ n ∈ openAsked e f, f.length < n := by
  have hs : ∀ v, (hugeHashParams 2).v4Data = some v → v.Sized := by intro v hv; cases hv
  obtain ⟨bytes, hw⟩ : ∃ bytes, writeHeader .v1 3 (hugeHashParams 2) = .ok bytes := ⟨_, rfl⟩
  have hf := header_found .v1 _ hs bytes [] hw
  rw [List.append_nil] at hf
  refine ⟨bytes, 0, none, _, hf, rfl, 64, ?_, ?_⟩
  · unfold openAsked
    rw [hf]
    exact List.mem_cons_self ..
  · rw [writeHeader_length .v1 3 _ bytes hs hw]
    decide

/-- Opening the sample archive, which has three files, asks for 48 bytes: its block table. -/
example (v : FormatVersion) (hv : v ≠ .v1) : ∃ f a, openArchive toyEnv f = .ok a ∧ 48 ∈ openAsked toyEnv f := by
  obtain ⟨f, a, hf, hlt, ho, _⟩ := sample_reads v hv
  have ho' : openArchive toyEnv ([] ++ f ++ []) = .ok a := by rw [List.nil_append, List.append_nil]; exact ho
  have e48 : (2 : Nat) ^ 48 = 281474976710656 := rfl
  have e64 : (2 : Nat) ^ 64 = 18446744073709551616 := rfl
  obtain ⟨_, h2, _, _⟩ := C29_archive_divided toyEnv zeroMd5 (fun _ => List.length_replicate) (sampleBuilder v) f hf
    samplePending (samplePending_eq v) [] [] rfl (by intro o ho; cases ho)
    (by unfold addressable; rw [if_neg (show ¬ (sampleBuilder v).version = .v1 from hv)]; exact hlt)
    (by simp only [List.length_nil]; omega) (by decide) sample_sizes a ho'
  have h2 : (a.blockTable.getD []).length = 3 := h2
  refine ⟨f, a, ho, (C80_held_was_asked toyEnv f a ho).1.subset ?_⟩
  cases hb : a.blockTable with
  | none => rw [hb] at h2; exact absurd h2 (by decide)
  | some t =>
    rw [hb] at h2
    have h3 : t.length = 3 := h2
    unfold Spec.heldBy
    refine List.mem_append_left _ (List.mem_append_right _ (List.mem_map.2 ⟨t, ?_, by rw [h3]⟩))
    rw [hb]
    exact List.mem_singleton.2 rfl

end Mopaq
