import Verif.Model.VerboseList
import Verif.Props.TextAnalysis
import Verif.Props.Figures

/-!
# C96: the verbose table of files as text
-/

namespace Mopaq

/-- The names of the flags that a file has, by the bits of the format. -/
def Spec.flagWords (flags : U32) : List (List Byte) :=
  ([(9, "Compressed"), (16, "Encrypted"), (24, "Single Unit"), (26, "Has CRC"), (17, "Fix Key"), (20, "Patch"), (25, "Deleted")].filter
    fun x => flags.getLsbD x.1).map fun x => ascii x.2

/-- The names of the flags with commas between them, or a dash. -/
def Spec.flagList (flags : U32) : List Byte :=
  match Spec.flagWords flags with
  | [] => ascii "-"
  | w :: ws => w ++ ws.flatMap fun x => ascii ", " ++ x

/-- A column: spaces in front of a text, just as many as fill it. -/
def Spec.Column (width : Nat) (text field : List Byte) : Prop :=
  field.length = max width text.length ∧ ∃ n, field = List.replicate n 0x20#8 ++ text

/-- The row of a file in the table: the name as it is shown in a column of forty characters, the sizes (C89), the percentage, the hashes
if they are shown, the flags. -/
def Spec.TableRow (up : Nat → Bool) (line : List Byte) (text : List Nat) (x : FileEntry) (hashes : Option (U32 × U32)) : Prop :=
  ∃ shown gap size compressed ratio percent columns, Spec.shownName text (Spec.encode shown) ∧ shown.length + gap = 40 ∧ Spec.IsNumber (shownRatio x.compressedSize x.size) ratio ∧
    Spec.Column 12 (formatSize up x.size) size ∧ Spec.Column 12 (formatSize up x.compressedSize) compressed ∧
    Spec.Column 6 ratio percent ∧
    (match hashes with
      | none => columns = []
      | some (h1, h2) => ∃ t1 t2 c1 c2, Spec.IsHex h1.toNat t1 ∧ Spec.IsHex h2.toNat t2 ∧ Spec.Column 10 t1 c1 ∧ Spec.Column 10 t2 c2 ∧
          columns = c1 ++ ascii " " ++ c2 ++ ascii " ") ∧
    line = Spec.encode shown ++ List.replicate gap 0x20#8 ++ ascii " " ++ size ++ ascii " " ++ compressed ++ ascii " " ++ percent ++ ascii "% " ++
      columns ++ Spec.flagList x.flags

/-- The last line of the table. -/
def Spec.TotalRow (up : Nat → Bool) (line : List Byte) (count total compressed : Nat) : Prop :=
  ∃ number gap size packed ratio percent, Spec.IsNumber count number ∧ Spec.IsNumber (shownRatio compressed total) ratio ∧
    Spec.Column 12 (formatSize up total) size ∧ Spec.Column 12 (formatSize up compressed) packed ∧ Spec.Column 6 ratio percent ∧
    line = ascii "Total: " ++ number ++ ascii " files" ++ List.replicate gap 0x20#8 ++ ascii " " ++ size ++ ascii " " ++ packed ++
      ascii " " ++ percent ++ ascii "%"

/-- The share of a part in percent with one decimal, to the nearest; `NaN` for nothing of nothing. -/
def Spec.ShareText (part whole : Nat) (text : List Byte) : Prop :=
  if whole = 0 then text = ascii "NaN"
  else ∃ t a b, Spec.IsNumber (t / 10) a ∧ Spec.IsNumber (t % 10) b ∧ text = a ++ ascii "." ++ b ∧
    2 * (t * whole) ≤ 2 * (1000 * part) + whole ∧ 2 * (1000 * part) ≤ 2 * (t * whole) + whole

/-- How many of the files have a flag, and how many percent these are. -/
def Spec.FlagShare (line label : List Byte) (entries : List HashedEntry) (bit : Nat) : Prop :=
  ∃ number share, Spec.IsNumber (entries.filter fun x => x.1.flags.getLsbD bit).length number ∧
    Spec.ShareText (entries.filter fun x => x.1.flags.getLsbD bit).length entries.length share ∧
    line = label ++ number ++ ascii " (" ++ share ++ ascii "%)"

/-- The statistics under the table. -/
def Spec.ListStatistics (up : Nat → Bool) (lines : List (List Byte)) (entries : List HashedEntry) (total compressed : Nat) : Prop :=
  ∃ l1 l2 l3 saved, lines = [[], ascii "Additional Statistics", List.replicate 50 0x2D#8, l1, l2, l3] ++ saved ∧
    Spec.FlagShare l1 (ascii "Compressed files:  ") entries 9 ∧ Spec.FlagShare l2 (ascii "Encrypted files:   ") entries 16 ∧
    Spec.FlagShare l3 (ascii "Single unit files: ") entries 24 ∧
    if compressed < total then ∃ share, Spec.ShareText (total - compressed) total share ∧
      saved = [ascii "Space saved:       " ++ formatSize up (total - compressed) ++ ascii " (" ++ share ++ ascii "%)"]
    else saved = []

theorem flagText_spec (flags : U32) :
    flagText ([9, 16, 24, 26, 17, 20, 25].map (fun i => flags.getLsbD i)) = Spec.flagList flags := by
  have hjoin : ∀ (w : List Byte) (ws : List (List Byte)),
      (word ", ").intercalate (w :: ws) = w ++ ws.flatMap fun x => ascii ", " ++ x := by
    intro w ws
    induction ws generalizing w with
    | nil => simp [List.intercalate]
    | cons v vs ih =>
      rw [List.intercalate_cons_cons, ih, List.flatMap_cons, word_ascii, List.append_assoc, List.append_assoc]
  have hwords : ((flagNames.zip ([9, 16, 24, 26, 17, 20, 25].map (fun i => flags.getLsbD i))).filterMap
      fun x => if x.2 then some x.1 else none) = Spec.flagWords flags := by
    have hgen : ∀ l : List (Nat × String), (((l.map fun x => word x.2).zip (l.map fun x => flags.getLsbD x.1)).filterMap
        fun x => if x.2 then some x.1 else none) = (l.filter fun x => flags.getLsbD x.1).map fun x => ascii x.2 := by
      intro l
      induction l with
      | nil => rfl
      | cons x l ih =>
        rw [List.map_cons, List.map_cons, List.zip_cons_cons, List.filterMap_cons, ih, List.filter_cons, word_ascii]
        cases flags.getLsbD x.1 <;> rfl
    exact hgen [(9, "Compressed"), (16, "Encrypted"), (24, "Single Unit"), (26, "Has CRC"), (17, "Fix Key"), (20, "Patch"), (25, "Deleted")]
  unfold flagText Spec.flagList
  dsimp only
  rw [hwords]
  cases Spec.flagWords flags with
  | nil => rfl
  | cons w ws =>
    rw [if_neg (by simp), hjoin]

theorem column_padLeft (w : Nat) (t : List Byte) : Spec.Column w t (padLeft w t) :=
  ⟨by unfold padLeft; rw [List.length_append, List.length_replicate]; omega, _, rfl⟩

theorem encode_starts (text : List Nat) (hsc : ∀ c ∈ text, Spec.scalar c) :
    ((Spec.encode text).filter fun b => !isCont b).length = text.length := by
  induction text with
  | nil => rfl
  | cons c text ih =>
    obtain ⟨a, t, hu, hs⟩ := utf8_shape c
    obtain ⟨ha, ht⟩ := hs (hsc c List.mem_cons_self)
    have ht : (t.filter fun b => !isCont b) = [] := by
      rw [List.filter_eq_nil_iff]
      intro b hb
      rw [ht b hb]
      decide
    have he : Spec.encode (c :: text) = Spec.utf8 c ++ Spec.encode text := List.flatMap_cons
    rw [he, hu, List.filter_append, List.filter_cons, ha, ht, List.length_append, ih fun d hd => hsc d (List.mem_cons_of_mem _ hd),
      List.length_cons]
    show 1 + text.length = _
    omega

theorem shownName_field {text : List Nat} (hsc : ∀ c ∈ text, Spec.scalar c) {name : List Byte} (h : Spec.shownName text name) :
    ∃ shown gap, Spec.shownName text (Spec.encode shown) ∧ shown.length + gap = 40 ∧
      padName 40 name = Spec.encode shown ++ List.replicate gap 0x20#8 := by
  have key : ∀ shown : List Nat, (∀ c ∈ shown, Spec.scalar c) → name = Spec.encode shown → name.length ≤ 39 →
      ∃ shown gap, Spec.shownName text (Spec.encode shown) ∧ shown.length + gap = 40 ∧
        padName 40 name = Spec.encode shown ++ List.replicate gap 0x20#8 := by
    intro shown hs he hl
    have hlen := encode_starts shown hs
    have hle := List.length_filter_le (fun b => !isCont b) (Spec.encode shown)
    rw [he] at hl
    refine ⟨shown, 40 - shown.length, he ▸ h, by omega, ?_⟩
    unfold padName
    rw [he, hlen]
  rcases h with ⟨h1, h2⟩ | ⟨_, k, h1, h2⟩
  · exact key text hsc h2 (h2 ▸ h1)
  · refine key (text.take k ++ [0x2E, 0x2E, 0x2E]) ?_ ?_ ?_
    · intro c hc
      rcases List.mem_append.1 hc with hc | hc
      · exact hsc c (List.mem_of_mem_take hc)
      · have : ∀ c ∈ [0x2E, 0x2E, 0x2E], c < 0xD800 := by decide
        exact .inl (this c hc)
    · have happ : Spec.encode (text.take k ++ [0x2E, 0x2E, 0x2E]) = Spec.encode (text.take k) ++ Spec.encode [0x2E, 0x2E, 0x2E] :=
        List.flatMap_append
      rw [h2, happ]
      rfl
    · rw [h2, List.length_append, h1]
      decide

theorem tableLine_spec (up : Nat → Bool) (row : VerboseRow) (x : FileEntry) (h : Spec.rowOf x row) {text : List Nat}
    (hsc : ∀ c ∈ text, Spec.scalar c) (hn : Spec.shownName text row.name) (hashes : Option (U32 × U32)) :
    Spec.TableRow up (tableLine up row hashes) text x hashes := by
  obtain ⟨h1, h2, h3⟩ := h
  obtain ⟨shown, gap, hs, hg, hp⟩ := shownName_field hsc hn
  unfold tableLine
  rw [h1, h2, h3, flagText_spec, hp]
  refine ⟨shown, gap, _, _, _, _, _, hs, hg, isNumber_decimal _, column_padLeft 12 _, column_padLeft 12 _, column_padLeft 6 _, ?_, rfl⟩
  cases hashes with
  | none => rfl
  | some p => exact ⟨_, _, _, _, hexText_spec _, hexText_spec _, column_padLeft 10 _, column_padLeft 10 _, rfl⟩

theorem totalLine_spec (up : Nat → Bool) (count total compressed : Nat) :
    Spec.TotalRow up (totalLine up count total compressed) count total compressed := by
  refine ⟨_, _, _, _, _, _, isNumber_decimal _, isNumber_decimal _, column_padLeft 12 _, column_padLeft 12 _, column_padLeft 6 _, rfl⟩

theorem shareText_spec (up : Nat → Bool) (part whole : Nat) (hw : whole < 2 ^ 40) (hp : part ≤ whole) :
    Spec.ShareText part whole (shareText up part whole) := by
  unfold Spec.ShareText shareText
  by_cases h : whole = 0
  · rw [if_pos h, h, C89_share_of_nothing]
    rfl
  · rw [if_neg h]
    obtain ⟨t, ht, h1, h2⟩ := C89_share_nearest up part whole (by omega) hw hp
    rw [ht]
    exact ⟨t, _, _, isNumber_decimal _, isNumber_decimal _, rfl, h1, h2⟩

theorem flagCount_spec (entries : List HashedEntry) (i : Nat) (hi : i < 32) :
    flagCount entries (1#32 <<< i) = (entries.filter fun x => x.1.flags.getLsbD i).length := by
  unfold flagCount
  exact congrArg List.length (List.filter_congr fun x _ => flag_bit x.1.flags i hi)

theorem listStatistics_spec (up : Nat → Bool) (entries : List HashedEntry) (total compressed : Nat) (hl : entries.length < 2 ^ 40)
    (ht : total < 2 ^ 40) : Spec.ListStatistics up (listStatistics up entries total compressed) entries total compressed := by
  have hflag : ∀ (label : List Byte) (i : Nat), i < 32 → Spec.FlagShare (label ++ (decimal (flagCount entries (1#32 <<< i)) ++ word " (" ++
      shareText up (flagCount entries (1#32 <<< i)) entries.length ++ word "%)")) label entries i := by
    intro label i hi
    rw [flagCount_spec entries i hi]
    refine ⟨_, _, isNumber_decimal _, shareText_spec up _ _ hl (List.length_filter_le _ _), ?_⟩
    simp only [word_ascii, List.append_assoc]
  refine ⟨_, _, _, _, rfl, hflag _ 9 (by decide), hflag _ 16 (by decide), hflag _ 24 (by decide), ?_⟩
  by_cases h : compressed < total
  · rw [if_pos h, if_pos h]
    exact ⟨_, shareText_spec up _ _ ht (Nat.sub_le _ _), rfl⟩
  · rw [if_neg h, if_neg h]

/-- The text of lines, each ended by a line feed. -/
def Spec.textOf (lines : List (List Byte)) : List Byte := lines.flatMap (· ++ [0x0A#8])

/-- What the verbose table says: a head of four lines with the columns of hashes if some file has hashes, a row for every file in the
order of the list, a rule, the totals; from the second level on, the statistics. -/
def Spec.TableSays (up : Nat → Bool) (level : Nat) (lines : List (List Byte)) (texts : List (List Nat)) (entries : List HashedEntry) : Prop :=
  ∃ columns rows rule last statistics, ∃ hashes : Bool, (hashes = true ↔ ∃ x ∈ entries, x.2 ≠ none) ∧
    lines = [ascii "File Listing (Verbose Mode)", List.replicate 120 0x3D#8, columns, rule] ++ rows ++ [rule, last] ++ statistics ∧
    rule = List.replicate (if hashes then 120 else 100) 0x2D#8 ∧
    (∃ space : List (List Byte), (∀ s ∈ space, ∀ b ∈ s, b = 0x20#8) ∧
      columns = (((if hashes then ["Name", "Size", "Compressed", "Ratio", "Hash1", "Hash2", "Flags"]
        else ["Name", "Size", "Compressed", "Ratio", "Flags"]).map ascii).zip space).flatMap fun x => x.1 ++ x.2) ∧
    rows.length = entries.length ∧
    (∀ i (h : i < rows.length) x text, entries[i]? = some x → texts[i]? = some text →
      Spec.TableRow up rows[i] text x.1 (if hashes then some (x.2.getD (0, 0)) else none)) ∧
    Spec.TotalRow up last entries.length (entries.map (·.1.size)).sum (entries.map (·.1.compressedSize)).sum ∧
    if 2 ≤ level then Spec.ListStatistics up statistics entries (entries.map (·.1.size)).sum (entries.map (·.1.compressedSize)).sum
    else statistics = []

/-- C96: the verbose table has a row for every file, in the order of the list, with its name, its sizes, its percentage and the names of
its flags; the totals are the sums; the statistics count the flags and give the shares to the nearest tenth of a percent. It panics
exactly if a long name has no character boundary at byte 36 or a sum overflows. -/
theorem C96_verbose_table (up : Nat → Bool) (level : Nat) (entries : List HashedEntry) (texts : List (List Nat))
    (hnames : entries.map (·.1.name) = texts.map Spec.encode) (hscalar : ∀ n ∈ texts, ∀ c ∈ n, Spec.scalar c)
    (hstat : 2 ≤ level → entries.length < 2 ^ 40 ∧ (entries.map (·.1.size)).sum < 2 ^ 40) :
    (Spec.tableable texts (entries.map (·.1.size)) (entries.map (·.1.compressedSize)) →
      ∃ lines, cliListVerbose up level entries = .ok (Spec.textOf lines) ∧ Spec.TableSays up level lines texts entries) ∧
    (¬ Spec.tableable texts (entries.map (·.1.size)) (entries.map (·.1.compressedSize)) →
      cliListVerbose up level entries = .error .panic) := by
  obtain ⟨hgood, hbad⟩ := C65_verbose_partial entries texts hnames hscalar
  refine ⟨fun h => ?_, fun h => ?_⟩
  · obtain ⟨rows, hr, hlen, hrow, hname⟩ := hgood h
    refine ⟨_, by unfold cliListVerbose; rw [hr]; rfl, _, _, _, _, _, entries.any fun x => x.2.isSome, ?_, rfl, rfl, ?_, ?_, ?_,
      totalLine_spec up _ _ _, ?_⟩
    · rw [List.any_eq_true]
      exact ⟨fun ⟨x, hx, h⟩ => ⟨x, hx, fun hn => by rw [hn] at h; cases h⟩,
        fun ⟨x, hx, h⟩ => ⟨x, hx, Option.isSome_iff_ne_none.2 h⟩⟩
    · cases (entries.any fun x => x.2.isSome)
      · exact ⟨[List.replicate 45 0x20#8, List.replicate 3 0x20#8, List.replicate 3 0x20#8, [0x20#8], []], by decide, by decide⟩
      · exact ⟨[List.replicate 45 0x20#8, List.replicate 3 0x20#8, List.replicate 3 0x20#8, List.replicate 6 0x20#8,
          List.replicate 6 0x20#8, [0x20#8], []], by decide, by decide⟩
    · rw [List.length_map, List.length_zip, hlen, Nat.min_self]
    · intro i hi x text hx ht
      rw [List.getElem_map, List.getElem_zip]
      have hi' : i < rows.length := by
        rw [List.length_map, List.length_zip] at hi
        omega
      obtain ⟨hb, he⟩ := List.getElem?_eq_some_iff.1 hx
      rw [he]
      exact tableLine_spec up _ _ (hrow i hi' x hx) (hscalar text (List.mem_of_getElem? ht)) (hname i hi' text ht) _
    · by_cases hl : 2 ≤ level
      · rw [if_pos hl, if_pos hl]
        exact listStatistics_spec up entries _ _ (hstat hl).1 (hstat hl).2
      · rw [if_neg hl, if_neg hl]
  · unfold cliListVerbose
    rw [hbad h]
    rfl

theorem texts_of_names (names : List (List Byte)) (h : ∀ n ∈ names, ∃ text, n = Spec.encode text ∧ ∀ c ∈ text, Spec.scalar c) :
    ∃ texts : List (List Nat), names = texts.map Spec.encode ∧ ∀ n ∈ texts, ∀ c ∈ n, Spec.scalar c := by
  induction names with
  | nil => exact ⟨[], rfl, fun _ h => absurd h List.not_mem_nil⟩
  | cons n names ih =>
    obtain ⟨texts, h1, h2⟩ := ih fun m hm => h m (List.mem_cons_of_mem _ hm)
    obtain ⟨text, h3, h4⟩ := h n List.mem_cons_self
    refine ⟨text :: texts, by rw [List.map_cons, ← h1, h3], ?_⟩
    intro m hm
    rcases List.mem_cons.1 hm with rfl | hm
    · exact h4
    · exact h2 m hm

/-- C96: whenever `file list -v` of an archive comes to its end, every file listed has a row with its sizes and flags, and the last row
has the number of files and the sums of their sizes. -/
theorem C96_every_file_shown (e : Env) (a : Archive) (all hashes : Bool) (up : Nat → Bool) (files : List FileEntry)
    (h : (if all then a.listAll else a.list e) = .ok files)
    (hnames : ∀ x ∈ files, ∃ text, x.name = Spec.encode text ∧ ∀ c ∈ text, Spec.scalar c) :
    ∃ shown, cliList e a all hashes none = .ok shown ∧ ∀ out, cliListVerbose up 1 shown = .ok out →
      ∃ lines, out = Spec.textOf lines ∧
        (∀ x ∈ files, ∃ text columns, ∃ line ∈ lines, x.name = Spec.encode text ∧ Spec.TableRow up line text x columns) ∧
        ∃ last ∈ lines, Spec.TotalRow up last files.length (files.map (·.size)).sum (files.map (·.compressedSize)).sum := by
  obtain ⟨_, _, _, _, shown, hs, hperm, _⟩ := C65_list_shows e a all hashes (fun _ => true) files h
  refine ⟨shown, hs, fun out hout => ?_⟩
  obtain ⟨texts, ht, hsc⟩ := texts_of_names (shown.map (·.1.name)) (by
    intro n hn
    obtain ⟨x, hx, rfl⟩ := List.mem_map.1 hn
    exact hnames x.1 (hperm.mem_iff.1 (List.mem_map_of_mem hx)))
  obtain ⟨hgood, hbad⟩ := C96_verbose_table up 1 shown texts ht hsc (fun h => absurd h (by decide))
  by_cases htab : Spec.tableable texts (shown.map (·.1.size)) (shown.map (·.1.compressedSize))
  · obtain ⟨lines, ho, columns, rows, rule, last, statistics, hb, _, hl, _, _, hlen, hrow, htot, _⟩ := hgood htab
    refine ⟨lines, Except.ok.inj (hout.symm.trans ho), ?_, last, ?_, ?_⟩
    · intro x hx
      obtain ⟨y, hy, rfl⟩ := List.mem_map.1 (hperm.mem_iff.2 hx)
      obtain ⟨i, hi, hiy⟩ := List.getElem_of_mem hy
      have hti : i < texts.length := by
        have := congrArg List.length ht
        rw [List.length_map, List.length_map] at this
        omega
      have hri : i < rows.length := by omega
      have hget : (shown.map (·.1.name))[i]'(by rw [List.length_map]; exact hi) = (texts.map Spec.encode)[i]'(by
          rw [List.length_map]; exact hti) := List.getElem_of_eq ht _
      rw [List.getElem_map, List.getElem_map, hiy] at hget
      refine ⟨texts[i], _, rows[i], ?_, hget, hrow i hri y texts[i] (hiy ▸ List.getElem?_eq_getElem hi) (List.getElem?_eq_getElem hti)⟩
      rw [hl]
      exact List.mem_append_left _ (List.mem_append_left _ (List.mem_append_right _ (List.getElem_mem hri)))
    · rw [hl]
      exact List.mem_append_left _ (List.mem_append_right _ (List.mem_cons_of_mem _ List.mem_cons_self))
    · have h1 : (shown.map (·.1.size)).sum = (files.map (·.size)).sum := by
        have := (hperm.map (·.size)).sum_nat
        rwa [List.map_map] at this
      have h2 : (shown.map (·.1.compressedSize)).sum = (files.map (·.compressedSize)).sum := by
        have := (hperm.map (·.compressedSize)).sum_nat
        rwa [List.map_map] at this
      have h3 : shown.length = files.length := by
        have := hperm.length_eq
        rwa [List.length_map] at this
      rw [← h1, ← h2, ← h3]
      exact htot
  · rw [hbad htab] at hout
    cases hout

/-- C96: so `file list -v` of a freshly built archive with a generated listfile shows every file added with the length of its content
(restrictions of C27), and in the last row the number of files and the sum of the lengths, the listfile included. -/
theorem C96_built_archive (e : Env) (he : e.codecs.Lawful) (md5 : Md5) (hmd : ∀ x, (md5 x).length = 16)
    (b : Builder) (f : List Byte) (hb : buildBytes e md5 b = .ok f) (hg : b.listfile = .generate) (texts : List (List Nat))
    (hnames : b.pending.map (·.name) = texts.map Spec.encode) (hscalar : ∀ n ∈ texts, ∀ c ∈ n, Spec.scalar c)
    (hlist : ∀ n ∈ texts, Spec.listable n) (pending : List PendingFile)
    (hp : prepareListfile b = .ok pending) (hdist : DistinctNames pending) (hext : ClassicLookup e.codecs b pending)
    (before after : List Byte) (hal : before.length % 512 = 0)
    (hclean : ∀ o < before.length, o % 512 = 0 → ¬ Spec.archiveMark (before ++ f ++ after) o ∧
      ¬ Spec.userDataMark (before ++ f ++ after) o)
    (hlen : f.length < addressable b.version) (hfit : before.length + f.length < 2 ^ 64)
    (hcount : pending.length < 0xFFFFFFFE)
    (hsize : ∀ p ∈ pending, ∀ data, p.source = some data → data.length + data.length / 64 + 12 < 2 ^ 32)
    (hna : ∀ p ∈ pending, ¬ Spec.sameName (attributesName.map BitVec.toNat) (p.name.map BitVec.toNat))
    (ss : Nat) (hss : sectorSizeOf b.blockSize = .ok ss)
    (hm : (listfileText (b.pending.map (·.name))).length ≤ ss ∨
      Spec.LosslessMethod b.defaultCompression (listfileText (b.pending.map (·.name))))
    (hrec : Recoverable e.codecs ss b.defaultCompression (listfileText (b.pending.map (·.name))))
    (hc : NoCollision (attributesName :: pending.map (·.name))) (hashes : Bool) (up : Nat → Bool) :
    ∃ a shown, openArchive e (before ++ f ++ after) = .ok a ∧ cliList e a false hashes none = .ok shown ∧
      ∀ out, cliListVerbose up 1 shown = .ok out → ∃ lines, out = Spec.textOf lines ∧
        (∀ p ∈ b.pending, ∃ text x columns, ∃ line ∈ lines, p.name = Spec.encode text ∧ x.name = p.name ∧ x.size = p.size ∧
          Spec.TableRow up line text x columns) ∧
        ∃ last ∈ lines, ∃ compressed, Spec.TotalRow up last (b.pending.length + 1)
          ((b.pending.map (·.size)).sum + (listfileText (b.pending.map (·.name))).length) compressed := by
  obtain ⟨a, entries, ho, hl, hmap, _⟩ := C27_generated_listing_partial e he md5 hmd b f hb hg texts hnames hscalar hlist
    pending hp hdist hext before after hal hclean hlen hfit hcount hsize hna ss hss hm hrec hc
  have hvalid : ∀ x ∈ entries, ∃ text, x.name = Spec.encode text ∧ ∀ c ∈ text, Spec.scalar c := by
    intro x hx
    have hx := List.mem_map_of_mem (f := fun x : FileEntry => (x.name, x.size)) hx
    rw [hmap, List.mem_append, List.mem_singleton] at hx
    rcases hx with hx | hx
    · obtain ⟨p, hp, he⟩ := List.mem_map.1 hx
      have hn : p.name ∈ texts.map Spec.encode := hnames ▸ List.mem_map_of_mem hp
      obtain ⟨text, ht, hte⟩ := List.mem_map.1 hn
      exact ⟨text, ((Prod.mk.inj he).1.symm.trans hte.symm), hscalar text ht⟩
    · refine ⟨listfileName.map BitVec.toNat, (Prod.mk.inj hx).1.trans (by decide), ?_⟩
      have : ∀ c ∈ listfileName.map BitVec.toNat, c < 0xD800 := by decide
      exact fun c hc => .inl (this c hc)
  obtain ⟨shown, hs, hsay⟩ := C96_every_file_shown e a false hashes up entries hl hvalid
  refine ⟨a, shown, ho, hs, fun out hout => ?_⟩
  obtain ⟨lines, h1, h2, last, h3, h4⟩ := hsay out hout
  refine ⟨lines, h1, ?_, last, h3, (entries.map (·.compressedSize)).sum, ?_⟩
  · intro p hp
    have hx : (p.name, p.size) ∈ entries.map (fun x => (x.name, x.size)) := by
      rw [hmap]
      exact List.mem_append_left _ (List.mem_map_of_mem (f := fun p : PendingFile => (p.name, p.size)) hp)
    obtain ⟨x, hx, he⟩ := List.mem_map.1 hx
    obtain ⟨text, columns, line, hline, hn, hrow⟩ := h2 x hx
    obtain ⟨he1, he2⟩ := Prod.mk.inj he
    exact ⟨text, x, columns, line, hline, he1 ▸ hn, he1, he2, hrow⟩
  · have hc : entries.length = b.pending.length + 1 := by
      have := congrArg List.length hmap
      simpa using this
    have hsum : (entries.map (·.size)).sum = (b.pending.map (·.size)).sum + (listfileText (b.pending.map (·.name))).length := by
      have := congrArg (fun l => (l.map Prod.snd).sum) hmap
      simpa [List.map_map, Function.comp_def] using this
    rw [← hc, ← hsum]
    exact h4

/-- Three files: one encrypted and compressed, one empty with hashes, one with a name of 41 characters. -/
def tableSample : List HashedEntry :=
  [({ name := ascii "a.txt", size := 3000, compressedSize := 1000, flags := 0x80010200#32 }, none),
    ({ name := ascii "b.txt", size := 0, compressedSize := 0, flags := 0x80000000#32 }, some (0xDEADBEEF#32, 7#32)),
    ({ name := List.replicate 41 0x63#8, size := 20, compressedSize := 20, flags := 0x81000000#32 }, none)]

/-- The hypotheses of C96 hold for them. -/
example : ∃ texts, tableSample.map (·.1.name) = texts.map Spec.encode ∧ (∀ n ∈ texts, ∀ c ∈ n, Spec.scalar c) ∧
    tableSample.length < 2 ^ 40 ∧ (tableSample.map (·.1.size)).sum < 2 ^ 40 ∧
    Spec.tableable texts (tableSample.map (·.1.size)) (tableSample.map (·.1.compressedSize)) := by
  refine ⟨[[0x61, 0x2E, 0x74, 0x78, 0x74], [0x62, 0x2E, 0x74, 0x78, 0x74], List.replicate 41 0x63], by decide, ?_, by decide, by decide,
    ?_, by decide, by decide⟩
  · have : ∀ n ∈ [[0x61, 0x2E, 0x74, 0x78, 0x74], [0x62, 0x2E, 0x74, 0x78, 0x74], List.replicate 41 0x63], ∀ c ∈ n, c < 0xD800 := by decide
    exact fun n hn c hc => .inl (this n hn c hc)
  · intro text ht hlong
    simp only [List.mem_cons, List.not_mem_nil, or_false] at ht
    rcases ht with rfl | rfl | rfl
    · exact absurd hlong (by decide)
    · exact absurd hlong (by decide)
    · exact ⟨36, by decide⟩

/-- The row of the second file. -/
example : ((cliListVerbose (fun _ => false) 2 tableSample).map fun t => (Spec.lines t)[5]?) =
    .ok (some (ascii "b.txt                                               0            0    100%   DEADBEEF          7 -")) := by
  decide +kernel

/-- The sample of version 2, listed with hashes: its three files have rows. -/
example : ∃ f a files shown, buildBytes toyEnv zeroMd5 (sampleBuilder .v2) = .ok f ∧ openArchive toyEnv f = .ok a ∧
    a.list toyEnv = .ok files ∧ files.length = 3 ∧ cliList toyEnv a false true none = .ok shown ∧
    ∀ out, cliListVerbose (fun _ => false) 1 shown = .ok out → ∃ lines, out = Spec.textOf lines ∧
      ∃ last ∈ lines, ∃ compressed, Spec.TotalRow (fun _ => false) last 3 75 compressed := by
  obtain ⟨f, a, files, hf, ha, hl, hmap⟩ := sample_lists .v2 (by decide)
  have hlen : files.length = 3 := by simpa using congrArg List.length hmap
  have hsum : (files.map (·.size)).sum = 75 := by
    have := congrArg (fun l => (l.map Prod.snd).sum) hmap
    simpa [List.map_map, Function.comp_def] using this
  obtain ⟨shown, hs, hsay⟩ := C96_every_file_shown toyEnv a false true (fun _ => false) files hl (by
    intro x hx
    have hx := List.mem_map_of_mem (f := fun x : FileEntry => (x.name, x.size)) hx
    rw [hmap] at hx
    have key : ∀ y ∈ [(ascii "Dir\\a.txt", 40), (ascii "b.bin", 5), (listfileName, 30)],
        y.1 = Spec.encode (y.1.map BitVec.toNat) ∧ ∀ c ∈ y.1.map BitVec.toNat, c < 0xD800 := by decide
    exact ⟨_, (key _ hx).1, fun c hc => .inl ((key _ hx).2 c hc)⟩)
  refine ⟨f, a, files, shown, hf, ha, hl, hlen, hs, fun out hout => ?_⟩
  obtain ⟨lines, h1, _, last, h3, h4⟩ := hsay out hout
  rw [hlen, hsum] at h4
  exact ⟨lines, h1, last, h3, _, h4⟩

end Mopaq
