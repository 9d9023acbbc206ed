import Verif.Lemmas.Report
import Verif.Props.CliList
import Verif.Props.CliVerify
import Verif.Props.Analyze

/-! # C73: reports in JSON and CSV -/

namespace Mopaq

open _root_.Spec (Json JsonNumber JsonDigits JsonText)

/-- Reading the output as JSON gives this value and no other. -/
def Spec.JsonIs (out : List Byte) (doc : Json) : Prop := ∀ v, JsonText out v ↔ v = doc

/-- A number in decimal. -/
def Spec.SaysNumber (v : Option Json) (n : Nat) : Prop :=
  ∃ digits, v = some (.num digits) ∧ JsonDigits digits ∧ Spec.number digits = n

/-- A number, or `null`. -/
def Spec.SaysOption (v : Option Json) : Option Nat → Prop
  | some n => Spec.SaysNumber v n
  | none => v = some .null

/-- C73: a JSON text denotes one value. -/
theorem C73_one_reading (text : List Byte) (v u : Json) (hv : JsonText text v) (hu : JsonText text u) : v = u :=
  jsonText_unique hv hu

/-- C73: the JSON printer prints values so that they are read back, whatever characters the strings in them have. -/
theorem C73_printed (v : Json) (h : jsonNumbers v) : Spec.JsonIs (printJson v) v := fun _ =>
  ⟨fun hu => jsonText_unique hu (printJson_text v h), fun he => he ▸ printJson_text v h⟩

theorem saysNumber_nat (n : Nat) : Spec.SaysNumber (some (jsonNat n)) n := by
  refine ⟨decimal n, rfl, ⟨?_, decimal_digits n⟩, decimal_number n⟩
  unfold decimal
  intro h
  exact Nat.toDigits_ne_nil (List.map_eq_nil_iff.1 h)

theorem saysOption_map {w : Nat} (x : Option (BitVec w)) :
    Spec.SaysOption (some (jsonOption (fun y => jsonNat y.toNat) x)) (x.map (·.toNat)) := by
  cases x with
  | none => rfl
  | some y => exact saysNumber_nat y.toNat

/-! ## Lists of files -/

/-- C73: the list of names in JSON is an array of exactly the names, in their order. Unlike in text and CSV (C65) this holds
for every name, with line feeds, commas and quotation marks. -/
theorem C73_list (e : Env) (a : Archive) (all : Bool) (pattern : Option Matcher) (entries : List HashedEntry)
    (h : cliList e a all false pattern = .ok entries) :
    ∃ out, cliListJson e a all false pattern = .ok out ∧
      Spec.JsonIs out (.arr (entries.map fun x => .str x.1.name)) := by
  unfold cliListJson
  rw [h]
  refine ⟨_, rfl, ?_⟩
  have := C73_printed (listJson (entries.map (·.1.name))) (jsonArr_numbers fun v hv => by
    obtain ⟨n, _, rfl⟩ := List.mem_map.1 hv
    exact jsonStr_numbers n)
  unfold listJson at this
  rw [List.map_map] at this
  show Spec.JsonIs (printJson (listJson (entries.map (·.1.name)))) _
  unfold listJson
  rw [List.map_map]
  exact this

/-- What is said about an entry. -/
def Spec.SaysEntry (item : Json) (name : List Byte) (hashes : Option (Nat × Nat)) : Prop :=
  item.member (ascii "name") = some (.str name) ∧
  item.member (ascii "hash1") = hashes.map (fun h => .str (Spec.hexWord h.1)) ∧
  item.member (ascii "hash2") = hashes.map (fun h => .str (Spec.hexWord h.2))

/-- C73: with hashes, the array has an object for each entry, with the name and the two hashes. -/
theorem C73_list_hashes (e : Env) (a : Archive) (all : Bool) (pattern : Option Matcher) (entries : List HashedEntry)
    (h : cliList e a all true pattern = .ok entries) :
    ∃ out items, cliListJson e a all true pattern = .ok out ∧ Spec.JsonIs out (.arr items) ∧
      items.length = entries.length ∧
      ∀ (i : Nat) (item : Json) (x : HashedEntry), items[i]? = some item → entries[i]? = some x →
        Spec.SaysEntry item x.1.name x.pair := by
  unfold cliListJson
  rw [h]
  refine ⟨_, _, rfl, C73_printed (hashesJson entries) (jsonArr_numbers fun v hv => ?_), List.length_map _, ?_⟩
  · obtain ⟨x, _, rfl⟩ := List.mem_map.1 hv
    split
    · refine jsonObject_numbers fun m hm => ?_
      simp only [List.mem_cons, List.not_mem_nil, or_false] at hm
      rcases hm with rfl | rfl | rfl <;> exact jsonStr_numbers _
    · refine jsonObject_numbers fun m hm => ?_
      rw [List.mem_singleton.1 hm]
      exact jsonStr_numbers _
  · intro i item x hi hx
    rw [List.getElem?_map, hx] at hi
    cases Option.some.inj hi
    obtain ⟨f, o⟩ := x
    cases o with
    | none =>
      refine ⟨jsonObject_member (v := .str f.name) ?_ ?_, ?_, ?_⟩
      · show [word "name"].Nodup
        decide
      · exact List.mem_singleton.2 rfl
      · exact jsonObject_none fun m hm => by rw [List.mem_singleton.1 hm]; show word "name" ≠ _; decide
      · exact jsonObject_none fun m hm => by rw [List.mem_singleton.1 hm]; show word "name" ≠ _; decide
    | some p =>
      obtain ⟨h1, h2⟩ := p
      have hn : ([(word "name", Json.str f.name), (word "hash1", Json.str (hex8 h1)), (word "hash2", Json.str (hex8 h2))].map
          (·.1)).Nodup := by
        show [word "name", word "hash1", word "hash2"].Nodup
        decide
      refine ⟨?_, ?_, ?_⟩
      · exact jsonObject_member hn (v := .str f.name) (.head _)
      · show _ = some (Json.str (Spec.hexWord h1.toNat))
        rw [← hex8_spec]
        exact jsonObject_member hn (.tail _ (.head _))
      · show _ = some (Json.str (Spec.hexWord h2.toNat))
        rw [← hex8_spec]
        exact jsonObject_member hn (.tail _ (.tail _ (.head _)))

/-- C73: the information on a file in JSON is an object with its name, as given, and its size. -/
theorem C73_file_info (e : Env) (a : Archive) (name data : List Byte) (h : a.readFile e name = .ok data) :
    ∃ out doc, fileInfoJson e a name = .ok out ∧ Spec.JsonIs out doc ∧ doc.member (ascii "filename") = some (.str name) ∧
      Spec.SaysNumber (doc.member (ascii "size")) data.length := by
  unfold fileInfoJson fileInfoSize
  rw [h]
  refine ⟨_, _, rfl, C73_printed _ (jsonObject_numbers fun m hm => ?_), ?_, ?_⟩
  · simp only [List.mem_cons, List.not_mem_nil, or_false] at hm
    rcases hm with rfl | rfl
    · exact jsonStr_numbers _
    · exact jsonNat_numbers _
  · refine jsonObject_member (v := .str name) ?_ (.head _)
    show [word "filename", word "size"].Nodup
    decide
  · have : (jsonObject [(word "filename", Json.str name), (word "size", jsonNat data.length)]).member (ascii "size") =
        some (jsonNat data.length) := by
      refine jsonObject_member ?_ (.tail _ (.head _))
      show [word "filename", word "size"].Nodup
      decide
    rw [show (jsonObject [(word "filename", Json.str name), (word "size", jsonNat data.length)]).member (ascii "size") =
      some (jsonNat data.length) from this]
    exact saysNumber_nat _

/-! ## Finding -/

theorem not_json_of_first {c : Byte} {rest : List Byte} (hb : ¬ blank c) (hs : ¬ startsValue c) (v : Json) :
    ¬ JsonText (c :: rest) v := by
  intro h
  obtain ⟨w, d, rest', hw, hd, he⟩ := jsonText_first h
  cases w with
  | nil => exact hs ((List.cons.inj he).1 ▸ hd)
  | cons x w => exact hb ((List.cons.inj he).1 ▸ hw x List.mem_cons_self)

/-- The characters a JSON text may begin with. -/
def Spec.jsonStart : List Byte := ascii "\"[{-0123456789ntf \t\n\r"

/-- C73: `file find` prints lines whatever output is asked for. When nothing matches this is a sentence and not JSON, for
every pattern; otherwise it is not JSON when the first name found begins with a letter other than `n`, `t` and `f`, or any
other character that JSON texts do not begin with. -/
theorem C73_find_not_json (e : Env) (a : Archive) (verbose : Bool) (text : List Byte) (pattern : Matcher)
    (fold : List Byte → List Byte) (names : List (List Byte)) (h : cliFind e a pattern fold = .ok names)
    (hf : ∀ c rest ns, names = (c :: rest) :: ns → c ∉ Spec.jsonStart) (hne : ∀ ns, names ≠ [] :: ns) :
    ∃ out, cliFindOutput e a false verbose text pattern fold = .ok out ∧ ∀ v, ¬ JsonText out v := by
  unfold cliFindOutput
  rw [h]
  cases names with
  | nil => exact ⟨_, rfl, fun v => not_json_of_first (c := 0x4E#8) (by unfold blank; decide) (by unfold startsValue; decide) v⟩
  | cons n ns =>
    cases n with
    | nil => exact absurd rfl (hne ns)
    | cons c rest =>
      refine ⟨_, rfl, fun v => ?_⟩
      have hc := hf c rest ns rfl
      refine not_json_of_first (c := c) ?_ ?_ v
      · intro hb
        refine hc ?_
        unfold blank at hb
        simp only [List.mem_cons, List.not_mem_nil, or_false] at hb
        rcases hb with rfl | rfl | rfl | rfl <;> decide
      · intro hs
        refine hc ?_
        unfold startsValue at hs
        rcases hs with rfl | rfl | rfl | rfl | rfl | rfl | rfl | ⟨h1, h2⟩
        · decide
        · decide
        · decide
        · decide
        · decide
        · decide
        · decide
        · have : c = BitVec.ofNat 8 c.toNat := by simp
          have hd : c.toNat = 48 ∨ c.toNat = 49 ∨ c.toNat = 50 ∨ c.toNat = 51 ∨ c.toNat = 52 ∨ c.toNat = 53 ∨ c.toNat = 54 ∨
            c.toNat = 55 ∨ c.toNat = 56 ∨ c.toNat = 57 := by omega
          rw [this]
          rcases hd with h | h | h | h | h | h | h | h | h | h <;> rw [h] <;> decide

/-! ## The description of an archive -/

/-- What is said about a table. -/
def Spec.SaysTable (v : Option Json) (t : TableInfo) : Prop :=
  ∃ o, v = some o ∧ Spec.SaysOption (o.member (ascii "size")) (t.size.map (·.toNat)) ∧
    Spec.SaysNumber (o.member (ascii "offset")) t.offset.toNat ∧
    Spec.SaysOption (o.member (ascii "compressed_size")) (t.compressedSize.map (·.toNat)) ∧
    o.member (ascii "failed_to_load") = some (.bool t.failedToLoad)

/-- What is said about a table that may not be there. -/
def Spec.SaysTableOption (v : Option Json) : Option TableInfo → Prop
  | some t => Spec.SaysTable v t
  | none => v = some .null

/-- What is said about the MD5 digests. -/
def Spec.SaysMd5 (v : Option Json) : Option Md5Status → Prop
  | some m => ∃ o, v = some o ∧ o.member (ascii "header_valid") = some (.bool m.headerValid) ∧
      o.member (ascii "hash_table_valid") = some (.bool m.hashTableValid) ∧
      o.member (ascii "block_table_valid") = some (.bool m.blockTableValid) ∧
      o.member (ascii "hi_block_table_valid") = some (.bool m.hiBlockTableValid) ∧
      o.member (ascii "het_table_valid") = some (.bool m.hetTableValid) ∧
      o.member (ascii "bet_table_valid") = some (.bool m.betTableValid)
  | none => v = some .null

/-- The words for the states of a signature. -/
def Spec.signatureWord : SignatureStatus → List Byte
  | .none => ascii "None"
  | .weakValid => ascii "WeakValid"
  | .weakInvalid => ascii "WeakInvalid"
  | .strongValid => ascii "StrongValid"
  | .strongInvalid => ascii "StrongInvalid"
  | .strongNoKey => ascii "StrongNoKey"

theorem debug_word (s : SignatureStatus) : s.debug = Spec.signatureWord s := by cases s <;> rfl

/-- The number of a format version. -/
def Spec.versionOf : FormatVersion → Nat
  | .v1 => 1
  | .v2 => 2
  | .v3 => 3
  | .v4 => 4

theorem versionNumber_spec (v : FormatVersion) : versionNumber v = Spec.versionOf v := by cases v <;> rfl

theorem word_ascii (s : String) : word s = ascii s := rfl

theorem number_at {ms : List (List Byte × Json)} {k : List Byte} {n : Nat} (hn : (ms.map (·.1)).Nodup)
    (h : (k, jsonNat n) ∈ ms) : Spec.SaysNumber ((jsonObject ms).member k) n := by
  rw [jsonObject_member hn h]; exact saysNumber_nat n

theorem option_at {ms : List (List Byte × Json)} {k : List Byte} {w : Nat} {x : Option (BitVec w)} (hn : (ms.map (·.1)).Nodup)
    (h : (k, jsonOption (fun y => jsonNat y.toNat) x) ∈ ms) :
    Spec.SaysOption ((jsonObject ms).member k) (x.map (·.toNat)) := by
  rw [jsonObject_member hn h]; exact saysOption_map x

/-- Looks up a member of an object with these keys. -/
macro "lookup " l:term ", " keys:term : tactic =>
  `(tactic| (refine $l (by exact $keys) ?_; simp only [word_ascii, List.mem_cons, true_or, or_true]))

theorem tableKeys : [word "size", word "offset", word "compressed_size", word "failed_to_load"].Nodup := by decide

theorem saysTable_json (t : TableInfo) : Spec.SaysTable (some (tableJson t)) t := by
  refine ⟨_, rfl, ?_⟩
  unfold tableJson
  refine ⟨?_, ?_, ?_, ?_⟩
  · lookup option_at, tableKeys
  · lookup number_at, tableKeys
  · lookup option_at, tableKeys
  · lookup jsonObject_member, tableKeys

theorem saysTable_option (t : Option TableInfo) : Spec.SaysTableOption (some (jsonOption tableJson t)) t := by
  cases t with
  | none => rfl
  | some t => exact saysTable_json t

theorem md5Keys : [word "header_valid", word "hash_table_valid", word "block_table_valid", word "hi_block_table_valid",
    word "het_table_valid", word "bet_table_valid"].Nodup := by decide

theorem saysMd5_json (m : Option Md5Status) : Spec.SaysMd5 (some (jsonOption md5Json m)) m := by
  cases m with
  | none => rfl
  | some m =>
    refine ⟨_, rfl, ?_⟩
    unfold md5Json
    refine ⟨?_, ?_, ?_, ?_, ?_, ?_⟩ <;> lookup jsonObject_member, md5Keys

theorem tableJson_numbers (t : TableInfo) : jsonNumbers (tableJson t) := by
  refine jsonObject_numbers fun m hm => ?_
  simp only [List.mem_cons, List.not_mem_nil, or_false] at hm
  rcases hm with rfl | rfl | rfl | rfl
  · exact jsonOption_numbers _ (fun _ => jsonNat_numbers _) _
  · exact jsonNat_numbers _
  · exact jsonOption_numbers _ (fun _ => jsonNat_numbers _) _
  · exact jsonBool_numbers _

theorem md5Json_numbers (t : Md5Status) : jsonNumbers (md5Json t) := by
  refine jsonObject_numbers fun m hm => ?_
  simp only [List.mem_cons, List.not_mem_nil, or_false] at hm
  rcases hm with rfl | rfl | rfl | rfl | rfl | rfl <;> exact jsonBool_numbers _

/-- What is said about an archive at a path. -/
structure Spec.SaysArchive (doc : Json) (path : List Byte) (info : ArchiveInfo) : Prop where
  path : doc.member (ascii "path") = some (.str path)
  fileSize : Spec.SaysNumber (doc.member (ascii "file_size")) info.fileSize
  archiveOffset : Spec.SaysNumber (doc.member (ascii "archive_offset")) info.archiveOffset
  formatVersion : Spec.SaysNumber (doc.member (ascii "format_version")) (Spec.versionOf info.formatVersion)
  fileCount : Spec.SaysNumber (doc.member (ascii "file_count")) info.fileCount
  maxFileCount : Spec.SaysNumber (doc.member (ascii "max_file_count")) info.maxFileCount.toNat
  sectorSize : Spec.SaysNumber (doc.member (ascii "sector_size")) info.sectorSize
  isEncrypted : doc.member (ascii "is_encrypted") = some (.bool info.isEncrypted)
  hasSignature : doc.member (ascii "has_signature") = some (.bool info.hasSignature)
  signatureStatus : doc.member (ascii "signature_status") = some (.str (Spec.signatureWord info.signatureStatus))
  tables : ∃ tables, doc.member (ascii "tables") = some tables ∧
    Spec.SaysTable (tables.member (ascii "hash_table")) info.hashTableInfo ∧
    Spec.SaysTable (tables.member (ascii "block_table")) info.blockTableInfo ∧
    Spec.SaysTableOption (tables.member (ascii "het_table")) info.hetTableInfo ∧
    Spec.SaysTableOption (tables.member (ascii "bet_table")) info.betTableInfo ∧
    Spec.SaysTableOption (tables.member (ascii "hi_block_table")) info.hiBlockTableInfo
  specialFiles : ∃ special, doc.member (ascii "special_files") = some special ∧
    special.member (ascii "has_attributes") = some (.bool info.hasAttributes) ∧
    special.member (ascii "has_listfile") = some (.bool info.hasListfile)
  userData : match info.userDataInfo with
    | some (header, data) => ∃ user, doc.member (ascii "user_data") = some user ∧
        Spec.SaysNumber (user.member (ascii "header_size")) header.toNat ∧
        Spec.SaysNumber (user.member (ascii "data_size")) data.toNat
    | none => doc.member (ascii "user_data") = some .null
  md5Status : Spec.SaysMd5 (doc.member (ascii "md5_status")) info.md5Status

theorem infoKeys : [word "path", word "file_size", word "archive_offset", word "format_version", word "file_count",
    word "max_file_count", word "sector_size", word "is_encrypted", word "has_signature", word "signature_status", word "tables",
    word "special_files", word "user_data", word "md5_status"].Nodup := by decide

theorem tablesKeys : [word "hash_table", word "block_table", word "het_table", word "bet_table", word "hi_block_table"].Nodup := by
  decide

theorem specialKeys : [word "has_attributes", word "has_listfile"].Nodup := by decide

theorem userKeys : [word "header_size", word "data_size"].Nodup := by decide

theorem table_at {ms : List (List Byte × Json)} {k : List Byte} {t : TableInfo} (hn : (ms.map (·.1)).Nodup)
    (h : (k, tableJson t) ∈ ms) : Spec.SaysTable ((jsonObject ms).member k) t := by
  rw [jsonObject_member hn h]; exact saysTable_json t

theorem tableOption_at {ms : List (List Byte × Json)} {k : List Byte} {t : Option TableInfo} (hn : (ms.map (·.1)).Nodup)
    (h : (k, jsonOption tableJson t) ∈ ms) : Spec.SaysTableOption ((jsonObject ms).member k) t := by
  rw [jsonObject_member hn h]; exact saysTable_option t

theorem md5_at {ms : List (List Byte × Json)} {k : List Byte} {t : Option Md5Status} (hn : (ms.map (·.1)).Nodup)
    (h : (k, jsonOption md5Json t) ∈ ms) : Spec.SaysMd5 ((jsonObject ms).member k) t := by
  rw [jsonObject_member hn h]; exact saysMd5_json t

theorem archiveInfoJson_says (path : List Byte) (info : ArchiveInfo) : Spec.SaysArchive (archiveInfoJson path info) path info := by
  unfold archiveInfoJson
  constructor
  · lookup jsonObject_member, infoKeys
  · lookup number_at, infoKeys
  · lookup number_at, infoKeys
  · rw [← versionNumber_spec]; lookup number_at, infoKeys
  · lookup number_at, infoKeys
  · lookup number_at, infoKeys
  · lookup number_at, infoKeys
  · lookup jsonObject_member, infoKeys
  · lookup jsonObject_member, infoKeys
  · rw [← debug_word]; lookup jsonObject_member, infoKeys
  · refine ⟨jsonObject [(word "hash_table", tableJson info.hashTableInfo), (word "block_table", tableJson info.blockTableInfo),
      (word "het_table", jsonOption tableJson info.hetTableInfo), (word "bet_table", jsonOption tableJson info.betTableInfo),
      (word "hi_block_table", jsonOption tableJson info.hiBlockTableInfo)], ?_, ?_, ?_, ?_, ?_, ?_⟩
    · lookup jsonObject_member, infoKeys
    · lookup table_at, tablesKeys
    · lookup table_at, tablesKeys
    · lookup tableOption_at, tablesKeys
    · lookup tableOption_at, tablesKeys
    · lookup tableOption_at, tablesKeys
  · refine ⟨jsonObject [(word "has_attributes", .bool info.hasAttributes), (word "has_listfile", .bool info.hasListfile)], ?_, ?_, ?_⟩
    · lookup jsonObject_member, infoKeys
    · lookup jsonObject_member, specialKeys
    · lookup jsonObject_member, specialKeys
  · cases hu : info.userDataInfo with
    | none =>
      show _ = some (jsonOption (fun u : U32 × U32 => jsonObject [(word "header_size", jsonNat u.1.toNat), (word "data_size", jsonNat u.2.toNat)]) none)
      lookup jsonObject_member, infoKeys
    | some u =>
      obtain ⟨h, d⟩ := u
      refine ⟨jsonOption (fun u : U32 × U32 => jsonObject [(word "header_size", jsonNat u.1.toNat), (word "data_size", jsonNat u.2.toNat)])
        (some (h, d)), ?_, ?_, ?_⟩
      · lookup jsonObject_member, infoKeys
      · show Spec.SaysNumber ((jsonObject _).member _) _
        lookup number_at, userKeys
      · show Spec.SaysNumber ((jsonObject _).member _) _
        lookup number_at, userKeys
  · lookup md5_at, infoKeys

theorem archiveInfoJson_numbers (path : List Byte) (info : ArchiveInfo) : jsonNumbers (archiveInfoJson path info) := by
  refine jsonObject_numbers fun m hm => ?_
  simp only [List.mem_cons, List.not_mem_nil, or_false] at hm
  rcases hm with rfl | rfl | rfl | rfl | rfl | rfl | rfl | rfl | rfl | rfl | rfl | rfl | rfl | rfl
  · exact jsonStr_numbers _
  · exact jsonNat_numbers _
  · exact jsonNat_numbers _
  · exact jsonNat_numbers _
  · exact jsonNat_numbers _
  · exact jsonNat_numbers _
  · exact jsonNat_numbers _
  · exact jsonBool_numbers _
  · exact jsonBool_numbers _
  · exact jsonStr_numbers _
  · refine jsonObject_numbers fun m hm => ?_
    simp only [List.mem_cons, List.not_mem_nil, or_false] at hm
    rcases hm with rfl | rfl | rfl | rfl | rfl
    · exact tableJson_numbers _
    · exact tableJson_numbers _
    · exact jsonOption_numbers _ tableJson_numbers _
    · exact jsonOption_numbers _ tableJson_numbers _
    · exact jsonOption_numbers _ tableJson_numbers _
  · refine jsonObject_numbers fun m hm => ?_
    simp only [List.mem_cons, List.not_mem_nil, or_false] at hm
    rcases hm with rfl | rfl <;> exact jsonBool_numbers _
  · refine jsonOption_numbers _ (fun u => jsonObject_numbers fun m hm => ?_) _
    simp only [List.mem_cons, List.not_mem_nil, or_false] at hm
    rcases hm with rfl | rfl <;> exact jsonNat_numbers _
  · exact jsonOption_numbers _ md5Json_numbers _

/-- C73: `archive info` in JSON is an object that says everything the description of the archive says, and the path as given. -/
theorem C73_archive_info (e : Env) (s : SigEnv) (path f : List Byte) (a : Archive) (info : ArchiveInfo)
    (ho : openArchive e f = .ok a) (hi : a.getInfo e s = .ok info) :
    ∃ out doc, cliInfo e s false path f = .ok out ∧ Spec.JsonIs out doc ∧ Spec.SaysArchive doc path info := by
  unfold cliInfo
  rw [ho]
  refine ⟨_, _, ?_, C73_printed _ (archiveInfoJson_numbers path info), archiveInfoJson_says path info⟩
  show (a.getInfo e s >>= _) = _
  rw [hi]
  rfl

/-! ## CSV -/

/-- The rows of a table of names and values. -/
def Spec.csvRows (out : List Byte) : List (List (List Byte)) := ((Spec.lines out).dropLast).map Spec.fields

theorem csvRows_pairs (ps : List (List Byte × List Byte))
    (h : ∀ p ∈ ps, (0x0A#8 ∉ p.1 ∧ 0x2C#8 ∉ p.1) ∧ 0x0A#8 ∉ p.2) :
    Spec.csvRows (ps.flatMap fun p => csvLine p.1 p.2) = ps.map fun p => p.1 :: Spec.fields p.2 := by
  have hl := lines_flatMap (ps.map fun p => p.1 ++ [0x2C#8] ++ p.2) (by
    intro n hn
    obtain ⟨p, hp, rfl⟩ := List.mem_map.1 hn
    simp only [List.mem_append, not_or]
    exact ⟨⟨(h p hp).1.1, by decide⟩, (h p hp).2⟩) []
  rw [List.append_nil, List.flatMap_map] at hl
  unfold Spec.csvRows
  rw [show (ps.flatMap fun p => csvLine p.1 p.2) = ps.flatMap fun p => outLine (p.1 ++ [0x2C#8] ++ p.2) from rfl, hl,
    show Spec.lines [] = [[]] from rfl, List.dropLast_concat, List.map_map]
  refine List.map_congr_left fun p hp => ?_
  show Spec.fields (p.1 ++ [0x2C#8] ++ p.2) = _
  unfold Spec.fields
  rw [List.append_assoc, List.singleton_append, List.splitOn_append_cons_self_of_not_mem (h p hp).1.2]

theorem fields_single {l : List Byte} (h : 0x2C#8 ∉ l) : Spec.fields l = [l] := List.splitOn_eq_singleton h

theorem decimal_plain (n : Nat) : 0x0A#8 ∉ decimal n ∧ 0x2C#8 ∉ decimal n := by
  refine ⟨decimal_noLf n, fun h => ?_⟩
  have := decimal_digits n _ h
  revert this
  decide

theorem boolWord_plain (b : Bool) : 0x0A#8 ∉ boolWord b ∧ 0x2C#8 ∉ boolWord b := by cases b <;> decide

theorem debug_plain (s : SignatureStatus) : 0x0A#8 ∉ s.debug ∧ 0x2C#8 ∉ s.debug := by cases s <;> decide

/-- `true` or `false`. -/
def Spec.boolText (b : Bool) : List Byte := if b then ascii "true" else ascii "false"

theorem boolWord_spec (b : Bool) : boolWord b = Spec.boolText b := by cases b <;> rfl

/-- A number in decimal, as a field. -/
def Spec.IsNumber (n : Nat) (field : List Byte) : Prop := JsonDigits field ∧ Spec.number field = n

theorem isNumber_decimal (n : Nat) : Spec.IsNumber n (decimal n) := by
  refine ⟨⟨?_, decimal_digits n⟩, decimal_number n⟩
  unfold decimal
  intro h
  exact Nat.toDigits_ne_nil (List.map_eq_nil_iff.1 h)

/-- C73: `archive info` in CSV has a row for the path and eleven for facts of the description. What the description says
about tables, user data and MD5 digests is missing. The path is not quoted: its row has two columns only when the path has
no comma. -/
theorem C73_info_csv_partial (e : Env) (s : SigEnv) (path f : List Byte) (a : Archive) (info : ArchiveInfo)
    (ho : openArchive e f = .ok a) (hi : a.getInfo e s = .ok info) (hp : 0x0A#8 ∉ path) :
    ∃ out size offset version count max sector, cliInfo e s true path f = .ok out ∧
      Spec.IsNumber info.fileSize size ∧ Spec.IsNumber info.archiveOffset offset ∧
      Spec.IsNumber (Spec.versionOf info.formatVersion) version ∧ Spec.IsNumber info.fileCount count ∧
      Spec.IsNumber info.maxFileCount.toNat max ∧ Spec.IsNumber info.sectorSize sector ∧
      Spec.csvRows out = [[ascii "property", ascii "value"], ascii "path" :: Spec.fields path,
        [ascii "file_size", size], [ascii "archive_offset", offset], [ascii "format_version", version],
        [ascii "file_count", count], [ascii "max_file_count", max], [ascii "sector_size", sector],
        [ascii "is_encrypted", Spec.boolText info.isEncrypted], [ascii "has_signature", Spec.boolText info.hasSignature],
        [ascii "signature_status", Spec.signatureWord info.signatureStatus],
        [ascii "has_attributes", Spec.boolText info.hasAttributes], [ascii "has_listfile", Spec.boolText info.hasListfile]] ∧
      ((Spec.fields path).length = 1 ↔ 0x2C#8 ∉ path) := by
  unfold cliInfo
  rw [ho]
  refine ⟨archiveInfoCsv path info, _, _, _, _, _, _, ?_, isNumber_decimal _, isNumber_decimal _, isNumber_decimal _, isNumber_decimal _,
    isNumber_decimal _, isNumber_decimal _, ?_, ?_⟩
  · show (a.getInfo e s >>= _) = _
    rw [hi]
    rfl
  · have hw : ∀ p ∈ [(word "property", word "value"), (word "path", path), (word "file_size", decimal info.fileSize),
        (word "archive_offset", decimal info.archiveOffset), (word "format_version", decimal (versionNumber info.formatVersion)),
        (word "file_count", decimal info.fileCount), (word "max_file_count", decimal info.maxFileCount.toNat),
        (word "sector_size", decimal info.sectorSize), (word "is_encrypted", boolWord info.isEncrypted),
        (word "has_signature", boolWord info.hasSignature), (word "signature_status", info.signatureStatus.debug),
        (word "has_attributes", boolWord info.hasAttributes), (word "has_listfile", boolWord info.hasListfile)],
        (0x0A#8 ∉ p.1 ∧ 0x2C#8 ∉ p.1) ∧ 0x0A#8 ∉ p.2 := by
      intro p hm
      simp only [List.mem_cons, List.not_mem_nil, or_false] at hm
      rcases hm with rfl | rfl | rfl | rfl | rfl | rfl | rfl | rfl | rfl | rfl | rfl | rfl | rfl
      · exact ⟨(by decide : _ ∉ word "property" ∧ _ ∉ word "property"), (by decide : _ ∉ word "value")⟩
      · exact ⟨(by decide : _ ∉ word "path" ∧ _ ∉ word "path"), hp⟩
      · exact ⟨(by decide : _ ∉ word "file_size" ∧ _ ∉ word "file_size"), (decimal_plain _).1⟩
      · exact ⟨(by decide : _ ∉ word "archive_offset" ∧ _ ∉ word "archive_offset"), (decimal_plain _).1⟩
      · exact ⟨(by decide : _ ∉ word "format_version" ∧ _ ∉ word "format_version"), (decimal_plain _).1⟩
      · exact ⟨(by decide : _ ∉ word "file_count" ∧ _ ∉ word "file_count"), (decimal_plain _).1⟩
      · exact ⟨(by decide : _ ∉ word "max_file_count" ∧ _ ∉ word "max_file_count"), (decimal_plain _).1⟩
      · exact ⟨(by decide : _ ∉ word "sector_size" ∧ _ ∉ word "sector_size"), (decimal_plain _).1⟩
      · exact ⟨(by decide : _ ∉ word "is_encrypted" ∧ _ ∉ word "is_encrypted"), (boolWord_plain _).1⟩
      · exact ⟨(by decide : _ ∉ word "has_signature" ∧ _ ∉ word "has_signature"), (boolWord_plain _).1⟩
      · exact ⟨(by decide : _ ∉ word "signature_status" ∧ _ ∉ word "signature_status"), (debug_plain _).1⟩
      · exact ⟨(by decide : _ ∉ word "has_attributes" ∧ _ ∉ word "has_attributes"), (boolWord_plain _).1⟩
      · exact ⟨(by decide : _ ∉ word "has_listfile" ∧ _ ∉ word "has_listfile"), (boolWord_plain _).1⟩
    have := csvRows_pairs _ hw
    simp only [List.flatMap_cons, List.flatMap_nil, List.append_nil, List.map_cons, List.map_nil] at this
    unfold archiveInfoCsv
    simp only [List.append_assoc]
    rw [this, fields_single (decimal_plain info.fileSize).2, fields_single (decimal_plain info.archiveOffset).2,
      fields_single (decimal_plain (versionNumber info.formatVersion)).2, fields_single (decimal_plain info.fileCount).2,
      fields_single (decimal_plain info.maxFileCount.toNat).2, fields_single (decimal_plain info.sectorSize).2,
      fields_single (boolWord_plain info.isEncrypted).2, fields_single (boolWord_plain info.hasSignature).2,
      fields_single (debug_plain info.signatureStatus).2, fields_single (boolWord_plain info.hasAttributes).2,
      fields_single (boolWord_plain info.hasListfile).2, boolWord_spec, boolWord_spec, boolWord_spec, boolWord_spec, debug_word,
      versionNumber_spec, fields_single (show 0x2C#8 ∉ word "value" by decide)]
    rfl
  · unfold Spec.fields
    rw [splitOn_length, ← List.count_eq_zero]
    omega

/-! ## Verification -/

/-- What is said about a verification. `errors` are the names of the files with errors. -/
structure Spec.SaysVerified (doc : Json) (path : List Byte) (r : VerifyReport) : Prop where
  archive : doc.member (ascii "archive") = some (.str path)
  formatVersion : Spec.SaysNumber (doc.member (ascii "format_version")) (Spec.versionOf r.info.formatVersion)
  totalFiles : Spec.SaysNumber (doc.member (ascii "total_files")) r.totalFiles
  verifiedFiles : Spec.SaysNumber (doc.member (ascii "verified_files")) r.verifiedFiles
  tables : ∃ tables, doc.member (ascii "table_checks") = some tables ∧
    tables.member (ascii "hash_table_loaded") = some (.bool !r.info.hashTableInfo.failedToLoad) ∧
    tables.member (ascii "block_table_loaded") = some (.bool !r.info.blockTableInfo.failedToLoad) ∧
    tables.member (ascii "het_table_loaded") =
      some (match r.info.hetTableInfo with | some t => .bool !t.failedToLoad | none => .null) ∧
    tables.member (ascii "bet_table_loaded") =
      some (match r.info.betTableInfo with | some t => .bool !t.failedToLoad | none => .null) ∧
    Spec.SaysMd5 (tables.member (ascii "md5_checksums")) r.info.md5Status
  files : ∃ files, doc.member (ascii "file_checks") = some files ∧
    Spec.SaysNumber (files.member (ascii "files_found")) r.filesFound ∧
    Spec.SaysNumber (files.member (ascii "files_readable")) r.filesReadable ∧
    Spec.SaysNumber (files.member (ascii "files_missing")) r.filesMissing ∧
    Spec.SaysNumber (files.member (ascii "files_corrupted")) r.filesCorrupted
  warnings : ∃ warnings, doc.member (ascii "warnings") = some (.arr warnings) ∧ warnings.length = r.warnings.length
  errors : ∃ errors, doc.member (ascii "errors") = some (.arr errors) ∧
    errors.map (fun x => x.member (ascii "file")) = r.errors.map fun n => some (.str n)
  passed : doc.member (ascii "passed") = some (.bool (r.errors = []))

theorem verifyKeys : [word "archive", word "format_version", word "total_files", word "verified_files", word "header_checks",
    word "table_checks", word "file_checks", word "warnings", word "errors", word "passed"].Nodup := by decide

theorem headerKeys : [word "signature_valid", word "version_supported", word "signature_status"].Nodup := by decide

theorem checksKeys : [word "hash_table_loaded", word "block_table_loaded", word "het_table_loaded", word "bet_table_loaded",
    word "md5_checksums"].Nodup := by decide

theorem filesKeys : [word "files_found", word "files_readable", word "files_missing", word "files_corrupted"].Nodup := by decide

theorem errorKeys : [word "file", word "error"].Nodup := by decide

theorem verifyJson_says (message : List Byte → List Byte) (path : List Byte) (r : VerifyReport) :
    Spec.SaysVerified (verifyJson message path r) path r := by
  unfold verifyJson
  constructor
  · lookup jsonObject_member, verifyKeys
  · rw [← versionNumber_spec]; lookup number_at, verifyKeys
  · lookup number_at, verifyKeys
  · lookup number_at, verifyKeys
  · refine ⟨jsonObject [(word "hash_table_loaded", .bool !r.info.hashTableInfo.failedToLoad),
      (word "block_table_loaded", .bool !r.info.blockTableInfo.failedToLoad),
      (word "het_table_loaded", jsonOption (fun t => .bool !t.failedToLoad) r.info.hetTableInfo),
      (word "bet_table_loaded", jsonOption (fun t => .bool !t.failedToLoad) r.info.betTableInfo),
      (word "md5_checksums", jsonOption md5Json r.info.md5Status)], ?_, ?_, ?_, ?_, ?_, ?_⟩
    · lookup jsonObject_member, verifyKeys
    · lookup jsonObject_member, checksKeys
    · lookup jsonObject_member, checksKeys
    · rw [show (match r.info.hetTableInfo with | some t => Json.bool !t.failedToLoad | none => .null) =
        jsonOption (fun t => .bool !t.failedToLoad) r.info.hetTableInfo by cases r.info.hetTableInfo <;> rfl]
      lookup jsonObject_member, checksKeys
    · rw [show (match r.info.betTableInfo with | some t => Json.bool !t.failedToLoad | none => .null) =
        jsonOption (fun t => .bool !t.failedToLoad) r.info.betTableInfo by cases r.info.betTableInfo <;> rfl]
      lookup jsonObject_member, checksKeys
    · lookup md5_at, checksKeys
  · refine ⟨jsonObject [(word "files_found", jsonNat r.filesFound), (word "files_readable", jsonNat r.filesReadable),
      (word "files_missing", jsonNat r.filesMissing), (word "files_corrupted", jsonNat r.filesCorrupted)], ?_, ?_, ?_, ?_, ?_⟩
    · lookup jsonObject_member, verifyKeys
    · lookup number_at, filesKeys
    · lookup number_at, filesKeys
    · lookup number_at, filesKeys
    · lookup number_at, filesKeys
  · refine ⟨r.warnings.map fun n => .str (crcWarning n), ?_, List.length_map _⟩
    lookup jsonObject_member, verifyKeys
  · refine ⟨r.errors.map fun n => jsonObject [(word "file", .str n), (word "error", .str (message n))], ?_, ?_⟩
    · lookup jsonObject_member, verifyKeys
    · rw [List.map_map]
      refine List.map_congr_left fun n _ => ?_
      rw [Function.comp_apply]
      lookup jsonObject_member, errorKeys
  · rw [show decide (r.errors = []) = r.errors.isEmpty by cases r.errors <;> rfl]
    lookup jsonObject_member, verifyKeys

theorem verifyJson_numbers (message : List Byte → List Byte) (path : List Byte) (r : VerifyReport) :
    jsonNumbers (verifyJson message path r) := by
  refine jsonObject_numbers fun m hm => ?_
  simp only [List.mem_cons, List.not_mem_nil, or_false] at hm
  rcases hm with rfl | rfl | rfl | rfl | rfl | rfl | rfl | rfl | rfl | rfl
  · exact jsonStr_numbers _
  · exact jsonNat_numbers _
  · exact jsonNat_numbers _
  · exact jsonNat_numbers _
  · refine jsonObject_numbers fun m hm => ?_
    simp only [List.mem_cons, List.not_mem_nil, or_false] at hm
    rcases hm with rfl | rfl | rfl
    · exact jsonBool_numbers _
    · exact jsonBool_numbers _
    · exact jsonStr_numbers _
  · refine jsonObject_numbers fun m hm => ?_
    simp only [List.mem_cons, List.not_mem_nil, or_false] at hm
    rcases hm with rfl | rfl | rfl | rfl | rfl
    · exact jsonBool_numbers _
    · exact jsonBool_numbers _
    · exact jsonOption_numbers _ (fun _ => jsonBool_numbers _) _
    · exact jsonOption_numbers _ (fun _ => jsonBool_numbers _) _
    · exact jsonOption_numbers _ md5Json_numbers _
  · refine jsonObject_numbers fun m hm => ?_
    simp only [List.mem_cons, List.not_mem_nil, or_false] at hm
    rcases hm with rfl | rfl | rfl | rfl <;> exact jsonNat_numbers _
  · refine jsonArr_numbers fun v hv => ?_
    obtain ⟨n, _, rfl⟩ := List.mem_map.1 hv
    exact jsonStr_numbers _
  · refine jsonArr_numbers fun v hv => ?_
    obtain ⟨n, _, rfl⟩ := List.mem_map.1 hv
    refine jsonObject_numbers fun m hm => ?_
    simp only [List.mem_cons, List.not_mem_nil, or_false] at hm
    rcases hm with rfl | rfl <;> exact jsonStr_numbers _
  · exact jsonBool_numbers _

/-- C73: `archive verify` in JSON is an object that says what the report says. It says `passed` if and only if the command
succeeds. -/
theorem C73_verify (e : Env) (s : SigEnv) (message : List Byte → List Byte) (path f : List Byte) (crc contents : Bool)
    (r : VerifyReport) (h : cliVerifyReport e s f crc contents = .ok r) :
    ∃ doc, Spec.JsonIs (cliVerifyRun e s message false false path f crc contents).1 doc ∧ Spec.SaysVerified doc path r ∧
      (doc.member (ascii "passed") = some (.bool true) ↔
        (cliVerifyRun e s message false false path f crc contents).2 = .ok ()) := by
  unfold cliVerifyRun
  rw [h]
  refine ⟨_, C73_printed _ (verifyJson_numbers message path r), verifyJson_says message path r, ?_⟩
  rw [(verifyJson_says message path r).passed]
  by_cases hr : r.errors = []
  · simp [hr]
  · simp [hr]

/-- C73: in both formats the command ends as `cliVerify` does. When there is no report, or with `--quiet`, nothing is printed. -/
theorem C73_verify_quiet (e : Env) (s : SigEnv) (message : List Byte → List Byte) (csv quiet : Bool) (path f : List Byte)
    (crc contents : Bool) :
    (cliVerifyRun e s message csv quiet path f crc contents).2 = cliVerify e s f crc contents ∧
    ((cliVerifyRun e s message csv quiet path f crc contents).1 = [] ↔
      quiet = true ∨ ∃ err, cliVerifyReport e s f crc contents = .error err) := by
  unfold cliVerifyRun cliVerify
  cases h : cliVerifyReport e s f crc contents with
  | error err => exact ⟨rfl, ⟨fun _ => .inr ⟨err, rfl⟩, fun _ => rfl⟩⟩
  | ok r =>
    refine ⟨?_, ?_⟩
    · show (if r.errors = [] then _ else _) = if r.errors = [] then _ else _
      split <;> rfl
    · cases quiet with
      | true => exact ⟨fun _ => .inl rfl, fun _ => rfl⟩
      | false =>
        refine ⟨fun hn => absurd hn ?_, fun hn => ?_⟩
        · cases csv with
          | true =>
            show verifyCsv path r ≠ []
            unfold verifyCsv csvLine outLine
            simp
          | false =>
            show printJson _ ≠ []
            unfold printJson outLine
            simp
        · rcases hn with hn | ⟨_, hn⟩ <;> cases hn

/-- C73: the CSV report of `verify`. -/
theorem C73_verify_csv_partial (e : Env) (s : SigEnv) (message : List Byte → List Byte) (path f : List Byte) (crc contents : Bool)
    (r : VerifyReport) (h : cliVerifyReport e s f crc contents = .ok r) (hp : 0x0A#8 ∉ path) :
    ∃ version total verified errors warnings,
      Spec.IsNumber (Spec.versionOf r.info.formatVersion) version ∧ Spec.IsNumber r.totalFiles total ∧
      Spec.IsNumber r.verifiedFiles verified ∧ Spec.IsNumber r.errors.length errors ∧ Spec.IsNumber r.warnings.length warnings ∧
      Spec.csvRows (cliVerifyRun e s message true false path f crc contents).1 =
        [[ascii "metric", ascii "value"], ascii "archive" :: Spec.fields path, [ascii "format_version", version],
          [ascii "total_files", total], [ascii "verified_files", verified], [ascii "errors", errors],
          [ascii "warnings", warnings],
          [ascii "passed", Spec.boolText ((cliVerifyRun e s message true false path f crc contents).2 matches .ok ())]] := by
  unfold cliVerifyRun
  rw [h]
  refine ⟨_, _, _, _, _, isNumber_decimal _, isNumber_decimal _, isNumber_decimal _, isNumber_decimal _, isNumber_decimal _, ?_⟩
  have hw : ∀ p ∈ [(word "metric", word "value"), (word "archive", path),
      (word "format_version", decimal (versionNumber r.info.formatVersion)), (word "total_files", decimal r.totalFiles),
      (word "verified_files", decimal r.verifiedFiles), (word "errors", decimal r.errors.length),
      (word "warnings", decimal r.warnings.length), (word "passed", boolWord r.errors.isEmpty)],
      (0x0A#8 ∉ p.1 ∧ 0x2C#8 ∉ p.1) ∧ 0x0A#8 ∉ p.2 := by
    intro p hm
    simp only [List.mem_cons, List.not_mem_nil, or_false] at hm
    rcases hm with rfl | rfl | rfl | rfl | rfl | rfl | rfl | rfl
    · exact ⟨(by decide : _ ∉ word "metric" ∧ _ ∉ word "metric"), (by decide : _ ∉ word "value")⟩
    · exact ⟨(by decide : _ ∉ word "archive" ∧ _ ∉ word "archive"), hp⟩
    · exact ⟨(by decide : _ ∉ word "format_version" ∧ _ ∉ word "format_version"), (decimal_plain _).1⟩
    · exact ⟨(by decide : _ ∉ word "total_files" ∧ _ ∉ word "total_files"), (decimal_plain _).1⟩
    · exact ⟨(by decide : _ ∉ word "verified_files" ∧ _ ∉ word "verified_files"), (decimal_plain _).1⟩
    · exact ⟨(by decide : _ ∉ word "errors" ∧ _ ∉ word "errors"), (decimal_plain _).1⟩
    · exact ⟨(by decide : _ ∉ word "warnings" ∧ _ ∉ word "warnings"), (decimal_plain _).1⟩
    · exact ⟨(by decide : _ ∉ word "passed" ∧ _ ∉ word "passed"), (boolWord_plain _).1⟩
  have := csvRows_pairs _ hw
  simp only [List.flatMap_cons, List.flatMap_nil, List.append_nil, List.map_cons, List.map_nil] at this
  show Spec.csvRows (verifyCsv path r) = _
  unfold verifyCsv
  simp only [List.append_assoc]
  rw [this, fields_single (decimal_plain (versionNumber r.info.formatVersion)).2, fields_single (decimal_plain r.totalFiles).2,
    fields_single (decimal_plain r.verifiedFiles).2, fields_single (decimal_plain r.errors.length).2,
    fields_single (decimal_plain r.warnings.length).2, fields_single (boolWord_plain r.errors.isEmpty).2, boolWord_spec,
    versionNumber_spec, fields_single (show 0x2C#8 ∉ word "value" by decide)]
  have hb : Spec.boolText r.errors.isEmpty =
      Spec.boolText ((if r.errors = [] then (.ok () : Res Unit) else .error .invalidFormat) matches .ok ()) := by
    by_cases hr : r.errors = []
    · rw [if_pos hr, hr]; rfl
    · rw [if_neg hr]
      cases hc : r.errors with
      | nil => exact absurd hc hr
      | cons _ _ => rfl
  rw [hb]
  rfl

/-- C73: the two reports spell the state of the signature differently: `archive verify` puts `Some(` and `)` around the word
that `archive info` has. -/
theorem C73_signature_spellings (message : List Byte → List Byte) (path : List Byte) (r : VerifyReport) :
    ∃ checks inVerify, (verifyJson message path r).member (ascii "header_checks") = some checks ∧
      checks.member (ascii "signature_status") = some (.str inVerify) ∧
      (archiveInfoJson path r.info).member (ascii "signature_status") = some (.str (Spec.signatureWord r.info.signatureStatus)) ∧
      inVerify = ascii "Some(" ++ Spec.signatureWord r.info.signatureStatus ++ ascii ")" ∧
      inVerify ≠ Spec.signatureWord r.info.signatureStatus := by
  refine ⟨jsonObject [(word "signature_valid", .bool true), (word "version_supported", .bool true),
      (word "signature_status", .str (word "Some(" ++ r.info.signatureStatus.debug ++ word ")"))], _, ?_, ?_,
      (archiveInfoJson_says path r.info).signatureStatus, rfl, ?_⟩
  · unfold verifyJson
    lookup jsonObject_member, verifyKeys
  · rw [← debug_word]
    lookup jsonObject_member, headerKeys
  · intro h
    have := congrArg List.length h
    simp only [List.length_append] at this
    rw [show (ascii "Some(").length = 5 from rfl] at this
    omega

/-! ## Analysis -/

/-- The words for the methods. -/
def Spec.methodWord : Method → List Byte
  | .none => ascii "None"
  | .huffman => ascii "Huffman"
  | .zlib => ascii "Zlib"
  | .implode => ascii "PKWare Implode"
  | .pkware => ascii "PKWare DCL"
  | .bzip2 => ascii "BZip2"
  | .sparse => ascii "Sparse"
  | .adpcmMono => ascii "ADPCM Mono"
  | .adpcmStereo => ascii "ADPCM Stereo"
  | .lzma => ascii "LZMA"
  | .multiple flags => ascii "Multiple (0x" ++ [(ascii "0123456789ABCDEF").getD (flags.toNat / 16) 0,
      (ascii "0123456789ABCDEF").getD (flags.toNat % 16) 0] ++ ascii ")"

theorem methodName_spec (m : Method) : m.name = Spec.methodWord m := by
  cases m with
  | multiple flags =>
    have h1 := hexDigit_spec (flags.toNat / 16) (by omega)
    have h2 := hexDigit_spec (flags.toNat % 16) (by omega)
    show word "Multiple (0x" ++ [hexDigit (flags.toNat / 16), hexDigit (flags.toNat % 16)] ++ word ")" = _
    rw [h1, h2]
    rfl
  | _ => rfl

theorem hexDigit_value (n : Nat) (h : n < 16) : _root_.Spec.hexDigitValue (hexDigit n) = some n := by
  have : n = 0 ∨ n = 1 ∨ n = 2 ∨ n = 3 ∨ n = 4 ∨ n = 5 ∨ n = 6 ∨ n = 7 ∨ n = 8 ∨ n = 9 ∨ n = 10 ∨ n = 11 ∨ n = 12 ∨ n = 13 ∨
      n = 14 ∨ n = 15 := by omega
  rcases this with rfl | rfl | rfl | rfl | rfl | rfl | rfl | rfl | rfl | rfl | rfl | rfl | rfl | rfl | rfl | rfl <;> decide

/-- C73: different methods have different words, and a word is called supported if and only if its method is. -/
theorem C73_method_words (m n : Method) : (Spec.methodWord m = Spec.methodWord n ↔ m = n) ∧
    (methodNameSupported (Spec.methodWord m) = true ↔ m ∈ Spec.supportedMethods) := by
  have hmult : ∀ flags, (Method.multiple flags).name.take 8 = word "Multiple" := fun _ => rfl
  refine ⟨⟨fun h => ?_, fun h => by rw [h]⟩, ?_⟩
  · rw [← methodName_spec, ← methodName_spec] at h
    cases m with
    | multiple f =>
      cases n with
      | multiple g =>
        have h' : word "Multiple (0x" ++ ([hexDigit (f.toNat / 16), hexDigit (f.toNat % 16)] ++ word ")") =
            word "Multiple (0x" ++ ([hexDigit (g.toNat / 16), hexDigit (g.toNat % 16)] ++ word ")") := by
          rw [← List.append_assoc, ← List.append_assoc]; exact h
        have h' := List.append_cancel_left h'
        simp only [List.cons_append, List.nil_append, List.cons.injEq] at h'
        have h1 := congrArg _root_.Spec.hexDigitValue h'.1
        have h2 := congrArg _root_.Spec.hexDigitValue h'.2.1
        rw [hexDigit_value _ (by omega), hexDigit_value _ (by omega), Option.some.injEq] at h1 h2
        have : f.toNat = g.toNat := by omega
        rw [BitVec.eq_of_toNat_eq this]
      | _ =>
        have := congrArg (List.take 8) h
        rw [hmult] at this
        exact absurd this (by decide)
    | _ =>
      cases n with
      | multiple g =>
        have := congrArg (List.take 8) h
        rw [hmult] at this
        exact absurd this (by decide)
      | _ => first | rfl | exact absurd h (by decide)
  · rw [← methodName_spec]
    cases m with
    | multiple f =>
      refine ⟨fun h => ?_, fun h => ?_⟩
      · unfold methodNameSupported at h
        have h := List.contains_iff_mem.1 h
        have := List.mem_map_of_mem (f := List.take 8) h
        rw [hmult] at this
        exact absurd this (by decide)
      · exact absurd h (by simp [Spec.supportedMethods])
    | _ => decide

theorem mem_allMethods (m : Method) : m ∈ allMethods := by
  unfold allMethods
  cases m with
  | multiple f =>
    refine List.mem_append_right _ (List.mem_map.2 ⟨f.toNat, List.mem_range.2 f.isLt, ?_⟩)
    simp
  | _ => exact List.mem_append_left _ (by decide)

theorem allMethods_nodup : allMethods.Nodup := by
  unfold allMethods
  rw [List.nodup_append]
  refine ⟨by decide, ?_, ?_⟩
  · unfold List.Nodup
    rw [List.pairwise_map]
    refine List.Pairwise.imp_of_mem (R := (· ≠ ·)) ?_ List.nodup_range
    intro a b ha hb hne h
    have h := congrArg BitVec.toNat (Method.multiple.inj h)
    simp only [BitVec.toNat_ofNat] at h
    have ha := List.mem_range.1 ha
    have hb := List.mem_range.1 hb
    omega
  · intro m hm n hn
    obtain ⟨i, _, rfl⟩ := List.mem_map.1 hn
    rintro rfl
    simp at hm

theorem methods_names_nodup (r : Analysis) : (r.methods.map Method.name).Nodup := by
  unfold List.Nodup
  rw [List.pairwise_map]
  refine List.Pairwise.imp (R := (· ≠ ·)) ?_ (allMethods_nodup.filter _)
  intro a b hne h
  rw [methodName_spec, methodName_spec] at h
  exact hne ((C73_method_words a b).1.1 h)

/-- What is said about the methods of an archive. -/
def Spec.SaysMethods (methods : Json) (count : Method → Nat) : Prop :=
  ∀ m, if count m = 0 then methods.member (Spec.methodWord m) = none
    else ∃ o, methods.member (Spec.methodWord m) = some o ∧ Spec.SaysNumber (o.member (ascii "count")) (count m) ∧
      o.member (ascii "supported") = some (.bool (m ∈ Spec.supportedMethods))

theorem analysisKeys : [word "total_files", word "total_compressed_size", word "total_uncompressed_size",
    word "overall_compression_ratio", word "compression_methods", word "by_extension", word "unsupported_files",
    word "unsupported_count"].Nodup := by decide

theorem methodKeys : [word "count", word "percentage", word "supported"].Nodup := by decide

theorem unsupportedKeys : [word "filename", word "compression_method"].Nodup := by decide

/-- C73: `archive analyze` in JSON is an object with the figures of the analysis (C63): the totals, for each method that
occurs how many files have it and whether it is supported, nothing for other methods, and the files with methods that are
not supported. `percent` is how quotients are written in percent; only quotients by positive numbers are needed. -/
theorem C73_analyze (e : Env) (percent : Nat → Nat → List Byte) (hp : ∀ a b, 0 < b → JsonNumber (percent a b)) (a : Archive)
    (r : Analysis) (h : a.analyze e = .ok (some r)) :
    ∃ out doc methods files, cliAnalyze e percent false a = .ok out ∧ Spec.JsonIs out doc ∧
      Spec.SaysNumber (doc.member (ascii "total_files")) r.totalFiles ∧
      Spec.SaysNumber (doc.member (ascii "total_compressed_size")) r.compressed ∧
      Spec.SaysNumber (doc.member (ascii "total_uncompressed_size")) r.uncompressed ∧
      doc.member (ascii "compression_methods") = some methods ∧ Spec.SaysMethods methods r.count ∧
      doc.member (ascii "unsupported_files") = some (.arr files) ∧
      files.map (fun x => (x.member (ascii "filename"), x.member (ascii "compression_method"))) =
        r.unsupported.map (fun x => (some (.str x.1), some (.str (Spec.methodWord x.2)))) ∧
      Spec.SaysNumber (doc.member (ascii "unsupported_count")) r.unsupported.length := by
  have htot : 0 < r.totalFiles := by
    obtain ⟨entries, _, _, hne, _, _, _, ht, _⟩ := C63_figures e a r h
    rw [ht]
    exact List.length_pos_iff.2 hne
  unfold cliAnalyze
  rw [h]
  refine ⟨_, analysisJson percent r, jsonObject (r.methods.map fun m => (m.name,
      jsonObject [(word "count", jsonNat (r.count m)), (word "percentage", .num (percent (r.count m) r.totalFiles)),
        (word "supported", .bool (methodNameSupported m.name))])),
    r.unsupported.map fun x => jsonObject [(word "filename", .str x.1), (word "compression_method", .str x.2.name)], rfl, C73_printed _ ?_, ?_, ?_, ?_, ?_, ?_, ?_, ?_, ?_⟩
  · refine jsonObject_numbers fun m hm => ?_
    simp only [List.mem_cons, List.not_mem_nil, or_false] at hm
    rcases hm with rfl | rfl | rfl | rfl | rfl | rfl | rfl | rfl
    · exact jsonNat_numbers _
    · exact jsonNat_numbers _
    · exact jsonNat_numbers _
    · show jsonNumbers (.num _)
      rw [jsonNumbers]
      split
      · rename_i hu; exact hp _ _ hu
      · exact ⟨[], ascii "100", ascii ".0", [], rfl, .inl rfl, .inr ⟨by unfold JsonDigits; decide, by decide⟩,
          .inr ⟨ascii "0", by unfold JsonDigits; decide, rfl⟩, .inl rfl⟩
    · refine jsonObject_numbers fun m hm => ?_
      obtain ⟨x, _, rfl⟩ := List.mem_map.1 hm
      refine jsonObject_numbers fun m hm => ?_
      simp only [List.mem_cons, List.not_mem_nil, or_false] at hm
      rcases hm with rfl | rfl | rfl
      · exact jsonNat_numbers _
      · show jsonNumbers (.num _)
        rw [jsonNumbers]
        exact hp _ _ htot
      · exact jsonBool_numbers _
    · exact jsonObject_numbers fun m hm => absurd hm List.not_mem_nil
    · refine jsonArr_numbers fun v hv => ?_
      obtain ⟨x, _, rfl⟩ := List.mem_map.1 hv
      refine jsonObject_numbers fun m hm => ?_
      simp only [List.mem_cons, List.not_mem_nil, or_false] at hm
      rcases hm with rfl | rfl <;> exact jsonStr_numbers _
    · exact jsonNat_numbers _
  · unfold analysisJson; lookup number_at, analysisKeys
  · unfold analysisJson; lookup number_at, analysisKeys
  · unfold analysisJson; lookup number_at, analysisKeys
  · unfold analysisJson; lookup jsonObject_member, analysisKeys
  · intro m
    split
    · rename_i h0
      refine jsonObject_none fun x hx => ?_
      obtain ⟨n, hn, rfl⟩ := List.mem_map.1 hx
      intro he
      have he : n.name = Spec.methodWord m := he
      rw [methodName_spec] at he
      rw [(C73_method_words n m).1.1 he] at hn
      have := (List.mem_filter.1 hn).2
      simp [h0] at this
    · rename_i h0
      refine ⟨jsonObject [(word "count", jsonNat (r.count m)), (word "percentage", .num (percent (r.count m) r.totalFiles)),
        (word "supported", .bool (methodNameSupported m.name))], ?_, ?_, ?_⟩
      · rw [← methodName_spec]
        refine jsonObject_member ?_ (List.mem_map.2 ⟨m, List.mem_filter.2 ⟨mem_allMethods m, by simpa using h0⟩, rfl⟩)
        rw [List.map_map]
        exact methods_names_nodup r
      · lookup number_at, methodKeys
      · rw [show decide (m ∈ Spec.supportedMethods) = methodNameSupported m.name by
          rw [methodName_spec]
          exact (Bool.eq_iff_iff.2 (by rw [decide_eq_true_iff]; exact (C73_method_words m m).2.symm))]
        lookup jsonObject_member, methodKeys
  · unfold analysisJson; lookup jsonObject_member, analysisKeys
  · rw [List.map_map]
    refine List.map_congr_left fun x _ => ?_
    rw [Function.comp_apply]
    refine Prod.ext ?_ ?_
    · dsimp only
      lookup jsonObject_member, unsupportedKeys
    · dsimp only
      rw [← methodName_spec]
      lookup jsonObject_member, unsupportedKeys
  · unfold analysisJson; lookup number_at, analysisKeys

theorem methodName_plain (m : Method) : 0x0A#8 ∉ m.name ∧ 0x2C#8 ∉ m.name := by
  cases m with
  | multiple f =>
    have h1 := hexDigit_plain (f.toNat / 16) (by omega)
    have h2 := hexDigit_plain (f.toNat % 16) (by omega)
    have hw : ∀ b ∈ word "Multiple (0x" ++ word ")", b ≠ 0x0A#8 ∧ b ≠ 0x2C#8 := by decide
    have key : ∀ b ∈ (Method.multiple f).name, b ≠ 0x0A#8 ∧ b ≠ 0x2C#8 := by
      intro b hb
      have hb : b ∈ word "Multiple (0x" ++ [hexDigit (f.toNat / 16), hexDigit (f.toNat % 16)] ++ word ")" := hb
      simp only [List.mem_append, List.mem_cons, List.not_mem_nil, or_false] at hb
      rcases hb with (hb | rfl | rfl) | hb
      · exact hw b (List.mem_append_left _ hb)
      · exact ⟨h1.2, h1.1⟩
      · exact ⟨h2.2, h2.1⟩
      · exact hw b (List.mem_append_right _ hb)
    exact ⟨fun h => (key _ h).1 rfl, fun h => (key _ h).2 rfl⟩
  | _ => decide

/-- C73: `archive analyze` in CSV has a row for each method that occurs and no other rows behind the heading. -/
theorem C73_analyze_csv (e : Env) (percent : Nat → Nat → List Byte) (a : Archive) (r : Analysis)
    (h : a.analyze e = .ok (some r)) :
    ∃ out rows, cliAnalyze e percent true a = .ok out ∧
      Spec.csvRows out = [ascii "compression_method", ascii "file_count", ascii "supported"] :: rows ∧ rows.Nodup ∧
      ∀ row, row ∈ rows ↔ ∃ m number, r.count m ≠ 0 ∧ number = decimal (r.count m) ∧ Spec.IsNumber (r.count m) number ∧
        row = [Spec.methodWord m, number, Spec.boolText (m ∈ Spec.supportedMethods)] := by
  unfold cliAnalyze
  rw [h]
  have hsup : ∀ m : Method, boolWord (methodNameSupported m.name) = Spec.boolText (m ∈ Spec.supportedMethods) := by
    intro m
    rw [boolWord_spec, methodName_spec]
    congr 1
    exact Bool.eq_iff_iff.2 (by rw [decide_eq_true_iff]; exact (C73_method_words m m).2)
  refine ⟨analysisCsv r, r.methods.map fun m => [m.name, decimal (r.count m), boolWord (methodNameSupported m.name)], rfl, ?_, ?_, ?_⟩
  · have := csvRows_pairs ((word "compression_method", word "file_count,supported") ::
      r.methods.map fun m => (m.name, decimal (r.count m) ++ [0x2C#8] ++ boolWord (methodNameSupported m.name))) (by
        intro p hp
        rcases List.mem_cons.1 hp with rfl | hp
        · exact ⟨(by decide : _ ∉ word "compression_method" ∧ _ ∉ word "compression_method"),
            (by decide : _ ∉ word "file_count,supported")⟩
        · obtain ⟨m, _, rfl⟩ := List.mem_map.1 hp
          refine ⟨methodName_plain m, ?_⟩
          simp only [List.mem_append, not_or]
          exact ⟨⟨(decimal_plain _).1, by decide⟩, (boolWord_plain _).1⟩)
    rw [List.flatMap_cons, List.flatMap_map, List.map_cons, List.map_map] at this
    unfold analysisCsv
    rw [show outLine (word "compression_method,file_count,supported") =
      csvLine (word "compression_method") (word "file_count,supported") from rfl, this]
    congr 1
    refine List.map_congr_left fun m _ => ?_
    show m.name :: Spec.fields (decimal (r.count m) ++ [0x2C#8] ++ boolWord (methodNameSupported m.name)) = _
    unfold Spec.fields
    rw [List.append_assoc, List.singleton_append, List.splitOn_append_cons_self_of_not_mem (decimal_plain _).2,
      List.splitOn_eq_singleton (boolWord_plain _).2]
  · unfold List.Nodup
    rw [List.pairwise_map]
    have := methods_names_nodup r
    unfold List.Nodup at this
    rw [List.pairwise_map] at this
    exact this.imp fun hne he => hne (List.cons.inj he).1
  · intro row
    rw [List.mem_map]
    constructor
    · rintro ⟨m, hm, rfl⟩
      exact ⟨m, _, by simpa using (List.mem_filter.1 hm).2, rfl, isNumber_decimal _, by rw [methodName_spec, ← hsup, methodName_spec]⟩
    · rintro ⟨m, _, hc, rfl, _, rfl⟩
      exact ⟨m, List.mem_filter.2 ⟨mem_allMethods m, by simpa using hc⟩, by rw [← hsup, methodName_spec]⟩

/-- C73: for an archive without files `archive analyze` prints nothing in JSON, which is not a JSON text. -/
theorem C73_analyze_nothing_not_json (e : Env) (percent : Nat → Nat → List Byte) (csv : Bool) (a : Archive)
    (h : a.list e = .ok []) : cliAnalyze e percent csv a = .ok [] ∧ ∀ v, ¬ JsonText [] v := by
  refine ⟨?_, fun v hv => ?_⟩
  · unfold cliAnalyze
    rw [(C63_nothing_iff e a).2 h]
    rfl
  · obtain ⟨w, c, rest, _, _, he⟩ := jsonText_first hv
    cases w <;> cases he

/-! ## Cases -/

/-- A name with a quotation mark, a comma and a line feed. -/
example : printJson (listJson [ascii "a\"b,\nc", ascii "d\\e"]) = ascii "[\n  \"a\\\"b,\\nc\",\n  \"d\\\\e\"\n]\n" ∧
    printJson (listJson []) = ascii "[]\n" ∧
    printJson (jsonObject [(ascii "size", jsonNat 120), (ascii "filename", .str [0x01#8]), (ascii "x", .obj [])]) =
      ascii "{\n  \"filename\": \"\\u0001\",\n  \"size\": 120,\n  \"x\": {}\n}\n" := by decide +kernel

/-- The sample archive as an array of its names, and as an array with hashes. -/
example : ∃ f a entries entries' out items, buildBytes toyEnv zeroMd5 (sampleBuilder .v2) = .ok f ∧ openArchive toyEnv f = .ok a ∧
    cliList toyEnv a false false none = .ok entries ∧ entries.length = 3 ∧
    cliListJson toyEnv a false false none = .ok out ∧ Spec.JsonIs out (.arr (entries.map fun x => .str x.1.name)) ∧
    cliList toyEnv a false true none = .ok entries' ∧ entries'.length = 3 ∧ items.length = 3 ∧
    ∃ out', cliListJson toyEnv a false true none = .ok out' ∧ Spec.JsonIs out' (.arr items) := by
  obtain ⟨f, a, files, hf, ha, hl, hmap⟩ := sample_lists .v2 (by decide)
  have h3 : files.length = 3 := by
    have := congrArg List.length hmap
    simpa using this
  have hlen : ∀ hashes, ∃ entries, cliList toyEnv a false hashes none = .ok entries ∧ entries.length = 3 := by
    intro hashes
    cases hashes with
    | false =>
      refine ⟨_, by unfold cliList listedEntries; rw [hl]; rfl, ?_⟩
      rw [List.length_mergeSort, List.length_map, h3]
    | true =>
      refine ⟨_, by unfold cliList listedEntries Archive.listWithHashes; rw [hl]; rfl, ?_⟩
      rw [List.length_mergeSort, List.length_map, h3]
  obtain ⟨entries, h1, h2⟩ := hlen false
  obtain ⟨entries', h1', h2'⟩ := hlen true
  obtain ⟨out, ho, hj⟩ := C73_list toyEnv a false none entries h1
  obtain ⟨out', items, ho', hj', hlen', _⟩ := C73_list_hashes toyEnv a false none entries' h1'
  exact ⟨f, a, entries, entries', out, items, hf, ha, h1, h2, ho, hj, h1', h2', by rw [hlen', h2'], out', ho', hj'⟩

/-- Nothing found, and `war.exe` found. -/
example : (∀ c rest ns, ([] : List (List Byte)) = (c :: rest) :: ns → c ∉ Spec.jsonStart) ∧
    (∀ c rest ns, [ascii "war.exe"] = (c :: rest) :: ns → c ∉ Spec.jsonStart) ∧ (∀ ns, [ascii "war.exe"] ≠ [] :: ns) := by
  refine ⟨fun c rest ns h => (nomatch h), fun c rest ns h => ?_, fun ns h => ?_⟩
  · have h := congrArg (fun l => l.head?.bind List.head?) h
    have h : some 0x77#8 = some c := h
    rw [← Option.some.inj h]
    decide
  · exact absurd (List.cons.inj h).1 (by decide)

/-- The description and the verification of the sample archive. -/
example : ∃ f a info r, buildBytes toyEnv zeroMd5 (sampleBuilder .v4) = .ok f ∧ openArchive toyEnv f = .ok a ∧
    a.getInfo toyEnv toySigEnv = .ok info ∧ cliVerifyReport toyEnv toySigEnv f true true = .ok r ∧ r.errors = [] := by
  obtain ⟨f, a, hf, _, _, ha, hok⟩ := sample_verifies .v4 (by decide) true true
  rw [List.nil_append, List.append_nil] at ha hok
  unfold cliVerify at hok
  obtain ⟨r, hr, hok⟩ := bind_eq_ok.1 hok
  have hr' := hr
  unfold cliVerifyReport at hr'
  rw [ha] at hr'
  obtain ⟨info, hi, _⟩ := bind_eq_ok.1 (show (a.getInfo toyEnv toySigEnv >>= _) = _ from hr')
  refine ⟨f, a, info, r, hf, ha, hi, hr, ?_⟩
  by_cases he : r.errors = []
  · exact he
  · rw [if_neg he] at hok; cases hok

/-- An archive that can be analyzed, and a way to write quotients. -/
example : ∃ a r, Archive.analyze toyEnv a = .ok (some r) ∧ r.totalFiles = 1 ∧ r.count .none = 1 ∧
    ∀ x y : Nat, 0 < y → JsonNumber ((fun _ _ => ascii "12.5e-1") x y) := by
  obtain ⟨r, h1, h2, h3, _⟩ := methodArchive_sample _ _ rfl rfl
  exact ⟨_, r, h1, h2, h3, fun _ _ _ => ⟨[], ascii "12", ascii ".5", ascii "e-1", rfl, .inl rfl,
    .inr ⟨by unfold JsonDigits; decide, by decide⟩, .inr ⟨ascii "5", by unfold JsonDigits; decide, rfl⟩,
    .inr ⟨0x65#8, ascii "-", ascii "1", by unfold JsonDigits; decide, .inl rfl, .inr (.inr rfl), rfl⟩⟩⟩

end Mopaq
