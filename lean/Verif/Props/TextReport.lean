import Verif.Model.TextReport
import Verif.Props.Report
import Verif.Props.Figures

/-! # C91: reports for people -/

namespace Mopaq

/-! ## What a report says -/

/-- The lines below a title, up to an empty line. -/
def Spec.section (out title : List Byte) : List (List Byte) :=
  (((Spec.lines out).dropWhile (· != title)).drop 1).takeWhile (· != [])

/-- Below the title exactly one line begins with the label, and it goes on with the value. -/
def Spec.TextSays (out title label value : List Byte) : Prop :=
  (Spec.section out title).filter label.isPrefixOf = [label ++ value]

/-- Below the title no line begins with the label. -/
def Spec.TextSilent (out title label : List Byte) : Prop := (Spec.section out title).filter label.isPrefixOf = []

/-- A number with a text behind it. -/
def Spec.TextNumber (out title label : List Byte) (n : Nat) (rest : List Byte) : Prop :=
  ∃ t, Spec.IsNumber n t ∧ Spec.TextSays out title label (t ++ rest)

/-- The value of a hexadecimal digit. -/
def Spec.upperHexValue (b : Byte) : Nat := if 65 ≤ b.toNat then b.toNat - 55 else b.toNat - 48

/-- A number in hexadecimal. -/
def Spec.IsHex (n : Nat) (t : List Byte) : Prop :=
  t ≠ [] ∧ (∀ b ∈ t, (48 ≤ b.toNat ∧ b.toNat ≤ 57) ∨ (65 ≤ b.toNat ∧ b.toNat ≤ 70)) ∧
    t.foldl (fun k b => 16 * k + Spec.upperHexValue b) 0 = n

/-- The text for one of two cases. -/
def Spec.choice (b : Bool) (yes no : String) : List Byte := if b then ascii yes else ascii no

/-- What is said about a table: whether it was loaded or how many entries it has, where it is, and its size if known. -/
def Spec.TableTextSays (t : TableInfo) (text : List Byte) : Prop :=
  ∃ place packed, Spec.IsHex t.offset.toNat place ∧
    (match t.compressedSize with
      | none => packed = []
      | some n => ∃ k, Spec.IsNumber n.toNat k ∧ packed = ascii " (compressed: " ++ k ++ ascii " bytes)") ∧
    match t.failedToLoad, t.size with
    | true, _ => text = ascii "Failed to load" ++ packed ++ ascii " @ 0x" ++ place
    | false, some n => ∃ k, Spec.IsNumber n.toNat k ∧ text = k ++ ascii " entries @ 0x" ++ place ++ packed
    | false, none => text = ascii "Unknown size @ 0x" ++ place ++ packed

/-- A table that need not be there. -/
def Spec.TextTable (out title label : List Byte) : Option TableInfo → Prop
  | none => Spec.TextSilent out title label
  | some t => ∃ text, Spec.TableTextSays t text ∧ Spec.TextSays out title label text

/-- What each kind of signature is called. -/
def Spec.signatureText : SignatureStatus → List Byte
  | .none => ascii "No signature"
  | .weakValid => ascii "Weak signature (Valid)"
  | .weakInvalid => ascii "Weak signature (Invalid)"
  | .strongValid => ascii "Strong signature (Valid)"
  | .strongInvalid => ascii "Strong signature (Invalid)"
  | .strongNoKey => ascii "Strong signature (No public key)"

/-- A report tells everything that is known about an archive. -/
structure Spec.InfoTextSays (out path : List Byte) (info : ArchiveInfo) : Prop where
  path : Spec.TextSays out (ascii "Archive Information") (ascii "Archive path: ") path
  size : ∃ t, Spec.TextSays out (ascii "Archive Information") (ascii "Archive size: ") (t ++ ascii " bytes") ∧
    (info.fileSize < 1024 → Spec.IsNumber info.fileSize t) ∧
    (1024 ≤ info.fileSize → info.fileSize < 2 ^ 53 → ∃ h u, Spec.SaysSize t h u ∧ 1 ≤ u ∧ 1024 ^ u ≤ info.fileSize ∧
      2 * (h * 1024 ^ u) ≤ 2 * (100 * info.fileSize) + 1024 ^ u ∧ 2 * (100 * info.fileSize) ≤ 2 * (h * 1024 ^ u) + 1024 ^ u)
  offset : ∃ t, Spec.IsHex info.archiveOffset t ∧
    Spec.TextSays out (ascii "Archive Information") (ascii "Archive offset: ") (ascii "0x" ++ t)
  version : ∃ t, Spec.IsNumber (Spec.versionOf info.formatVersion) t ∧
    Spec.TextSays out (ascii "Archive Information") (ascii "Format version: ") (ascii "v" ++ t)
  files : Spec.TextNumber out (ascii "File Statistics") (ascii "Number of files: ") info.fileCount []
  capacity : Spec.TextNumber out (ascii "File Statistics") (ascii "Maximum file capacity: ") info.maxFileCount.toNat []
  sector : Spec.TextNumber out (ascii "File Statistics") (ascii "Sector size: ") info.sectorSize (ascii " bytes")
  encrypted : Spec.TextSays out (ascii "Security Information") (ascii "Encrypted: ") (Spec.choice info.isEncrypted "Yes" "No")
  signature : Spec.TextSays out (ascii "Security Information") (ascii "Digital signature: ") (Spec.signatureText info.signatureStatus)
  hash : Spec.TextTable out (ascii "Table Information") (ascii "Hash table: ") (some info.hashTableInfo)
  block : Spec.TextTable out (ascii "Table Information") (ascii "Block table: ") (some info.blockTableInfo)
  het : Spec.TextTable out (ascii "Table Information") (ascii "HET table: ") info.hetTableInfo
  bet : Spec.TextTable out (ascii "Table Information") (ascii "BET table: ") info.betTableInfo
  hiBlock : Spec.TextTable out (ascii "Table Information") (ascii "Hi-block table: ") info.hiBlockTableInfo
  attributes : Spec.TextSays out (ascii "Special Files") (ascii "(attributes) file: ") (Spec.choice info.hasAttributes "Present" "Not present")
  listfile : Spec.TextSays out (ascii "Special Files") (ascii "(listfile) file: ") (Spec.choice info.hasListfile "Present" "Not present")
  userData : match info.userDataInfo with
    | none => Spec.section out (ascii "User Data") = []
    | some u => Spec.TextNumber out (ascii "User Data") (ascii "Header size: ") u.1.toNat (ascii " bytes") ∧
        Spec.TextNumber out (ascii "User Data") (ascii "Data size: ") u.2.toNat (ascii " bytes")
  md5 : match info.md5Status with
    | none => Spec.section out (ascii "MD5 Checksums (v4)") = []
    | some m => ∀ l b, (l, b) ∈ [("MPQ header: ", m.headerValid), ("Hash table: ", m.hashTableValid),
        ("Block table: ", m.blockTableValid), ("Hi-block table: ", m.hiBlockTableValid), ("HET table: ", m.hetTableValid),
        ("BET table: ", m.betTableValid)] →
        Spec.TextSays out (ascii "MD5 Checksums (v4)") (ascii l) (Spec.choice b "Valid" "Invalid")

/-! ## Blocks and sections -/

/-- The lines of a block as printed. -/
def joinedLines (b : List TextLine) : List (List Byte) := b.map fun l => l.1 ++ l.2

/-- The first parts of the lines of blocks. -/
def labelsOf (bs : List (List TextLine)) : List (List Byte) := bs.flatMap fun b => b.map Prod.fst

/-- No line has a line feed. -/
def CleanBlocks (bs : List (List TextLine)) : Prop := ∀ b ∈ bs, ∀ l ∈ b, 0x0A#8 ∉ l.1 ∧ 0x0A#8 ∉ l.2

theorem blockLines_clean {bs : List (List TextLine)} (h : CleanBlocks bs) : ∀ l ∈ blockLines bs, 0x0A#8 ∉ l := by
  have hj : ∀ b ∈ bs, ∀ l ∈ joinedLines b, 0x0A#8 ∉ l := by
    intro b hb l hl
    obtain ⟨x, hx, rfl⟩ := List.mem_map.1 hl
    intro hm
    rcases List.mem_append.1 hm with hm | hm
    · exact (h b hb x hx).1 hm
    · exact (h b hb x hx).2 hm
  cases bs with
  | nil => intro l hl; cases hl
  | cons b bs =>
    intro l hl
    rcases List.mem_append.1 hl with hl | hl
    · exact hj b List.mem_cons_self l hl
    · obtain ⟨c, hc, hl⟩ := List.mem_flatMap.1 hl
      rcases List.mem_cons.1 hl with rfl | hl
      · exact List.not_mem_nil
      · exact hj c (List.mem_cons_of_mem _ hc) l hl

theorem lines_blocks {bs : List (List TextLine)} (h : CleanBlocks bs) :
    Spec.lines (printLines (blockLines bs)) = blockLines bs ++ [[]] := by
  have := lines_flatMap _ (blockLines_clean h) []
  rwa [List.append_nil] at this

theorem join_ne {l : TextLine} {t : List Byte} (h : l.1.isPrefixOf t = false) : l.1 ++ l.2 ≠ t := by
  intro he
  rw [← he, List.isPrefixOf_iff_prefix.2 (List.prefix_append ..)] at h
  cases h

theorem dropWhile_skip {p : List Byte → Bool} (a b : List (List Byte)) (h : ∀ x ∈ a, p x = true) :
    (a ++ b).dropWhile p = b.dropWhile p := by
  induction a with
  | nil => rfl
  | cons x a ih =>
    rw [List.cons_append, List.dropWhile_cons, if_pos (h x List.mem_cons_self)]
    exact ih fun y hy => h y (List.mem_cons_of_mem _ hy)

theorem takeWhile_all {p : List Byte → Bool} (a b : List (List Byte)) (h : ∀ x ∈ a, p x = true) (x : List Byte) (hx : p x = false) :
    (a ++ x :: b).takeWhile p = a := by
  induction a with
  | nil => rw [List.nil_append, List.takeWhile_cons, hx]; rfl
  | cons y a ih =>
    rw [List.cons_append, List.takeWhile_cons, if_pos (h y List.mem_cons_self)]
    exact congrArg (y :: ·) (ih fun z hz => h z (List.mem_cons_of_mem _ hz))

/-- The lines of blocks, an empty line in front of each. -/
def spacedLines (bs : List (List TextLine)) : List (List Byte) := bs.flatMap fun b => [] :: joinedLines b

theorem spaced_eq {bs : List (List TextLine)} (h : bs ≠ []) : spacedLines bs = [] :: blockLines bs := by
  cases bs with
  | nil => exact absurd rfl h
  | cons b bs => rfl

theorem spaced_ne {bs : List (List TextLine)} {t : List Byte} (ht : t ≠ []) (h : ∀ l ∈ labelsOf bs, l.isPrefixOf t = false) :
    ∀ x ∈ spacedLines bs, (x != t) = true := by
  intro x hx
  obtain ⟨b, hb, hx⟩ := List.mem_flatMap.1 hx
  rcases List.mem_cons.1 hx with rfl | hx
  · exact bne_iff_ne.2 (Ne.symm ht)
  · obtain ⟨l, hl, rfl⟩ := List.mem_map.1 hx
    exact bne_iff_ne.2 (join_ne (h _ (List.mem_flatMap.2 ⟨b, hb, List.mem_map.2 ⟨l, hl, rfl⟩⟩)))

/-- The section below a title that is the first line of a block. -/
theorem section_at (pre post : List (List TextLine)) (t : List Byte) (body : List TextLine) (ht : t ≠ [])
    (hc : CleanBlocks (pre ++ ((t, []) :: body) :: post)) (hpre : ∀ l ∈ labelsOf pre, l.isPrefixOf t = false)
    (hbody : ∀ l ∈ body, l.1 ≠ []) :
    Spec.section (printLines (blockLines (pre ++ ((t, []) :: body) :: post))) t = joinedLines body := by
  unfold Spec.section
  rw [lines_blocks hc]
  have h0 : (blockLines (pre ++ ((t, []) :: body) :: post) ++ [[]]).dropWhile (· != t) =
      (spacedLines (pre ++ ((t, []) :: body) :: post) ++ [[]]).dropWhile (· != t) := by
    rw [spaced_eq (by simp), List.cons_append, List.dropWhile_cons, if_pos (bne_iff_ne.2 (Ne.symm ht))]
  have h1 : spacedLines (pre ++ ((t, []) :: body) :: post) ++ [[]] =
      (spacedLines pre ++ [[]]) ++ t :: (joinedLines body ++ (spacedLines post ++ [[]])) := by
    unfold spacedLines
    rw [List.flatMap_append, List.flatMap_cons]
    show _ ++ (([] :: (t ++ []) :: joinedLines body) ++ _) ++ _ = _
    rw [List.append_nil]
    simp only [List.append_assoc, List.cons_append, List.nil_append]
  rw [h0, h1, dropWhile_skip _ _ (by
    intro x hx
    rcases List.mem_append.1 hx with hx | hx
    · exact spaced_ne ht hpre x hx
    · rw [List.mem_singleton.1 hx]; exact bne_iff_ne.2 (Ne.symm ht)), List.dropWhile_cons, if_neg (by simp)]
  show List.takeWhile _ (joinedLines body ++ (spacedLines post ++ [[]])) = _
  have h2 : ∃ rest, spacedLines post ++ [[]] = [] :: rest := by
    cases post with
    | nil => exact ⟨[], rfl⟩
    | cons b bs => exact ⟨_, rfl⟩
  obtain ⟨rest, h2⟩ := h2
  rw [h2]
  refine takeWhile_all _ _ (fun x hx => ?_) _ rfl
  obtain ⟨l, hl, rfl⟩ := List.mem_map.1 hx
  refine bne_iff_ne.2 fun he => hbody l hl (List.append_eq_nil_iff.1 he).1

/-- A title that no line can be has nothing below it. -/
theorem section_none (bs : List (List TextLine)) (t : List Byte) (ht : t ≠ []) (hc : CleanBlocks bs)
    (h : ∀ l ∈ labelsOf bs, l.isPrefixOf t = false) : Spec.section (printLines (blockLines bs)) t = [] := by
  unfold Spec.section
  rw [lines_blocks hc]
  have : ∀ x ∈ blockLines bs ++ [[]], (x != t) = true := by
    intro x hx
    rcases List.mem_append.1 hx with hx | hx
    · cases bs with
      | nil => cases hx
      | cons b bs =>
        refine spaced_ne ht h x ?_
        rw [spaced_eq (by simp)]
        exact List.mem_cons_of_mem _ hx
    · rw [List.mem_singleton.1 hx]
      exact bne_iff_ne.2 (Ne.symm ht)
  have := dropWhile_skip _ [] this
  rw [List.append_nil] at this
  rw [this]
  rfl

/-- Neither text begins with the other. -/
def textsApart (a b : List Byte) : Bool := !a.isPrefixOf b && !b.isPrefixOf a

theorem prefix_join {l : TextLine} {label : List Byte} (h : textsApart label l.1 = true) : label.isPrefixOf (l.1 ++ l.2) = false := by
  unfold textsApart at h
  simp only [Bool.and_eq_true, Bool.not_eq_true'] at h
  cases hp : label.isPrefixOf (l.1 ++ l.2) with
  | false => rfl
  | true =>
    have hp := List.isPrefixOf_iff_prefix.1 hp
    rcases List.prefix_or_prefix_of_prefix hp (List.prefix_append l.1 l.2) with h' | h'
    · rw [List.isPrefixOf_iff_prefix.2 h'] at h; exact absurd h.1 (by decide)
    · rw [List.isPrefixOf_iff_prefix.2 h'] at h; exact absurd h.2 (by decide)

theorem filter_apart (body : List TextLine) (label : List Byte) (h : ∀ l ∈ body.map Prod.fst, textsApart label l = true) :
    (joinedLines body).filter label.isPrefixOf = [] := by
  rw [List.filter_eq_nil_iff]
  intro x hx
  obtain ⟨l, hl, rfl⟩ := List.mem_map.1 hx
  rw [prefix_join (h _ (List.mem_map.2 ⟨l, hl, rfl⟩))]
  decide

theorem filter_one (a b : List TextLine) (label value : List Byte) (ha : ∀ l ∈ a.map Prod.fst, textsApart label l = true)
    (hb : ∀ l ∈ b.map Prod.fst, textsApart label l = true) :
    (joinedLines (a ++ (label, value) :: b)).filter label.isPrefixOf = [label ++ value] := by
  have h1 := filter_apart a label ha
  have h2 := filter_apart b label hb
  unfold joinedLines at h1 h2 ⊢
  rw [List.map_append, List.filter_append, h1, List.map_cons, List.filter_cons,
    if_pos (List.isPrefixOf_iff_prefix.2 (List.prefix_append ..)), h2]
  rfl

/-! ## Texts -/

theorem hexDigit_text (n : Nat) (h : n < 16) : Spec.upperHexValue (hexDigit n) = n ∧
    ((48 ≤ (hexDigit n).toNat ∧ (hexDigit n).toNat ≤ 57) ∨ (65 ≤ (hexDigit n).toNat ∧ (hexDigit n).toNat ≤ 70)) := by
  have : ∀ n : Fin 16, Spec.upperHexValue (hexDigit n.val) = n.val ∧
    ((48 ≤ (hexDigit n.val).toNat ∧ (hexDigit n.val).toNat ≤ 57) ∨
      (65 ≤ (hexDigit n.val).toNat ∧ (hexDigit n.val).toNat ≤ 70)) := by decide +kernel
  exact this ⟨n, h⟩

theorem hexDigits_spec : ∀ (fuel n : Nat), n < fuel → Spec.IsHex n (hexDigits fuel n) := by
  intro fuel
  induction fuel with
  | zero => intro n h; omega
  | succ fuel ih =>
    intro n h
    have hd := hexDigit_text (n % 16) (Nat.mod_lt _ (by decide))
    unfold hexDigits
    by_cases h16 : n < 16
    · rw [if_pos h16, List.nil_append, Nat.mod_eq_of_lt h16] at *
      refine ⟨by simp, fun b hb => ?_, ?_⟩
      · rw [List.mem_singleton.1 hb]; exact hd.2
      · show 16 * 0 + Spec.upperHexValue (hexDigit n) = n
        rw [hd.1]; omega
    · rw [if_neg h16]
      obtain ⟨h1, h2, h3⟩ := ih (n / 16) (by omega)
      refine ⟨by simp, fun b hb => ?_, ?_⟩
      · rcases List.mem_append.1 hb with hb | hb
        · exact h2 b hb
        · rw [List.mem_singleton.1 hb]; exact hd.2
      · rw [List.foldl_append, h3]
        show 16 * (n / 16) + Spec.upperHexValue (hexDigit (n % 16)) = n
        rw [hd.1]; omega

theorem hexText_spec (n : Nat) : Spec.IsHex n (hexText n) := hexDigits_spec _ _ (Nat.lt_succ_self n)

theorem hexText_noLf (n : Nat) : 0x0A#8 ∉ hexText n := by
  intro h
  have := (hexText_spec n).2.1 _ h
  revert this
  decide

theorem noLf_append {a b : List Byte} (ha : 0x0A#8 ∉ a) (hb : 0x0A#8 ∉ b) : 0x0A#8 ∉ a ++ b := by
  intro h
  rcases List.mem_append.1 h with h | h
  · exact ha h
  · exact hb h

theorem compressedText_noLf (n : Option U64) : 0x0A#8 ∉ compressedText n := by
  cases n with
  | none => exact List.not_mem_nil
  | some n => exact noLf_append (noLf_append (by decide) (decimal_noLf _)) (by decide)

theorem tableText_noLf (t : TableInfo) : 0x0A#8 ∉ tableText t := by
  unfold tableText
  refine noLf_append (noLf_append (noLf_append ?_ (by decide)) (hexText_noLf _)) ?_
  · cases t.failedToLoad
    · rw [if_neg (by decide)]
      cases t.size
      · decide
      · exact noLf_append (decimal_noLf _) (by decide)
    · rw [if_pos rfl]; exact noLf_append (by decide) (compressedText_noLf _)
  · cases t.failedToLoad
    · rw [if_neg (by decide)]; exact compressedText_noLf _
    · rw [if_pos rfl]; exact List.not_mem_nil

theorem tableText_says (t : TableInfo) : Spec.TableTextSays t (tableText t) := by
  refine ⟨hexText t.offset.toNat, compressedText t.compressedSize, hexText_spec _, ?_, ?_⟩
  · cases t.compressedSize with
    | none => rfl
    | some n => exact ⟨_, isNumber_decimal _, rfl⟩
  · unfold tableText
    cases t.failedToLoad with
    | true =>
      rw [if_pos rfl, if_pos rfl, List.append_nil]
      rfl
    | false =>
      rw [if_neg (by decide), if_neg (by decide)]
      cases t.size with
      | none =>
        have : word "Unknown size" ++ word " @ 0x" = ascii "Unknown size @ 0x" := by decide +kernel
        show word "Unknown size" ++ word " @ 0x" ++ _ ++ _ = _
        rw [this]
      | some n =>
        refine ⟨_, isNumber_decimal _, ?_⟩
        have : word " entries" ++ word " @ 0x" = ascii " entries @ 0x" := by decide +kernel
        show decimal n.toNat ++ word " entries" ++ word " @ 0x" ++ _ ++ _ = _
        rw [List.append_assoc (decimal n.toNat), this]

theorem twoDecimals_noLf (h : Nat) : 0x0A#8 ∉ twoDecimals h := by
  have hd : ∀ k, 0x0A#8 ≠ BitVec.ofNat 8 (48 + k % 10) := by
    intro k he
    have := congrArg BitVec.toNat he
    rw [BitVec.toNat_ofNat] at this
    have h10 : (0x0A#8).toNat = 10 := rfl
    have : 10 = (48 + k % 10) % 256 := this
    omega
  unfold twoDecimals
  refine noLf_append (noLf_append (decimal_noLf _) (by decide)) ?_
  simp only [List.mem_cons, List.not_mem_nil, or_false, not_or]
  exact ⟨hd _, hd _⟩

theorem formatSize_noLf (up : Nat → Bool) (n : Nat) : 0x0A#8 ∉ formatSize up n := by
  unfold formatSize sizeText
  dsimp only
  split
  · exact decimal_noLf _
  · refine noLf_append (noLf_append (twoDecimals_noLf _) (by decide)) ?_
    unfold unitName
    split <;> decide

theorem signatureText_eq (s : SignatureStatus) : s.text = Spec.signatureText s := by cases s <;> rfl

theorem signatureText_noLf (s : SignatureStatus) : 0x0A#8 ∉ s.text := by cases s <;> decide

theorem validText_eq (b : Bool) : validText b = Spec.choice b "Valid" "Invalid" := by cases b <;> rfl

theorem presentText_eq (b : Bool) : presentText b = Spec.choice b "Present" "Not present" := by cases b <;> rfl

theorem cleanOf {bs : List (List TextLine)} (h : ∀ b ∈ bs, (∀ l ∈ b.map Prod.fst, 0x0A#8 ∉ l) ∧ ∀ l ∈ b.map Prod.snd, 0x0A#8 ∉ l) :
    CleanBlocks bs := by
  intro b hb l hl
  exact ⟨(h b hb).1 _ (List.mem_map.2 ⟨l, hl, rfl⟩), (h b hb).2 _ (List.mem_map.2 ⟨l, hl, rfl⟩)⟩

theorem validText_noLf (b : Bool) : 0x0A#8 ∉ validText b := by cases b <;> decide

theorem presentText_noLf (b : Bool) : 0x0A#8 ∉ presentText b := by cases b <;> decide

local macro "plain" : tactic => `(tactic| ((try dsimp only); decide))

theorem tableLines_noLf (info : ArchiveInfo) : ∀ l ∈ tableLines info, 0x0A#8 ∉ l.1 ∧ 0x0A#8 ∉ l.2 := by
  intro l hl
  unfold tableLines at hl
  simp only [List.mem_append, List.mem_cons, List.not_mem_nil, or_false, Option.mem_toList, Option.map_eq_some_iff] at hl
  rcases hl with (((rfl | rfl) | ⟨_, _, rfl⟩) | ⟨_, _, rfl⟩) | ⟨_, _, rfl⟩ <;> exact ⟨by plain, tableText_noLf _⟩

theorem infoBlocks_clean (up : Nat → Bool) {path : List Byte} (hp : 0x0A#8 ∉ path) (info : ArchiveInfo) :
    CleanBlocks (infoBlocks up path info) := by
  intro b hb l hl
  unfold infoBlocks at hb
  simp only [List.mem_append, List.mem_cons, List.not_mem_nil, or_false, Option.mem_toList, Option.map_eq_some_iff] at hb
  rcases hb with ((rfl | rfl | rfl | rfl | rfl) | ⟨u, _, rfl⟩) | ⟨m, _, rfl⟩
  all_goals
    simp only [heading, userDataBlock, md5Block, List.mem_append, List.mem_cons, List.not_mem_nil, or_false] at hl
  · rcases hl with (rfl | rfl) | rfl | rfl | rfl | rfl
    · exact ⟨by plain, by plain⟩
    · exact ⟨by plain, by plain⟩
    · exact ⟨by plain, hp⟩
    · exact ⟨by plain, noLf_append (formatSize_noLf _ _) (by decide)⟩
    · exact ⟨by plain, noLf_append (by decide) (hexText_noLf _)⟩
    · exact ⟨by plain, noLf_append (by decide) (decimal_noLf _)⟩
  · rcases hl with (rfl | rfl) | rfl | rfl | rfl
    · exact ⟨by plain, by plain⟩
    · exact ⟨by plain, by plain⟩
    · exact ⟨by plain, decimal_noLf _⟩
    · exact ⟨by plain, decimal_noLf _⟩
    · exact ⟨by plain, noLf_append (decimal_noLf _) (by decide)⟩
  · rcases hl with (rfl | rfl) | rfl | rfl
    · exact ⟨by plain, by plain⟩
    · exact ⟨by plain, by plain⟩
    · refine ⟨by plain, ?_⟩
      dsimp only
      split <;> decide
    · exact ⟨by plain, signatureText_noLf _⟩
  · rcases hl with (rfl | rfl) | hl
    · exact ⟨by plain, by plain⟩
    · exact ⟨by plain, by plain⟩
    · exact tableLines_noLf info l hl
  · rcases hl with (rfl | rfl) | rfl | rfl
    · exact ⟨by plain, by plain⟩
    · exact ⟨by plain, by plain⟩
    · exact ⟨by plain, presentText_noLf _⟩
    · exact ⟨by plain, presentText_noLf _⟩
  · rcases hl with (rfl | rfl) | rfl | rfl
    · exact ⟨by plain, by plain⟩
    · exact ⟨by plain, by plain⟩
    · exact ⟨by plain, noLf_append (decimal_noLf _) (by decide)⟩
    · exact ⟨by plain, noLf_append (decimal_noLf _) (by decide)⟩
  · rcases hl with (rfl | rfl) | rfl | rfl | rfl | rfl | rfl | rfl
    · exact ⟨by plain, by plain⟩
    · exact ⟨by plain, by plain⟩
    all_goals exact ⟨by plain, validText_noLf _⟩

theorem tableLabels (info : ArchiveInfo) : ∀ l ∈ (tableLines info).map Prod.fst,
    l ∈ [word "Hash table: ", word "Block table: ", word "HET table: ", word "BET table: ", word "Hi-block table: "] := by
  intro l hl
  obtain ⟨x, hx, rfl⟩ := List.mem_map.1 hl
  unfold tableLines at hx
  simp only [List.mem_append, List.mem_cons, List.not_mem_nil, or_false, Option.mem_toList, Option.map_eq_some_iff] at hx
  rcases hx with (((rfl | rfl) | ⟨_, _, rfl⟩) | ⟨_, _, rfl⟩) | ⟨_, _, rfl⟩ <;> simp

theorem info_section {up : Nat → Bool} {path : List Byte} (hp : 0x0A#8 ∉ path) {info : ArchiveInfo} {pre post : List (List TextLine)}
    {t : List Byte} {body : List TextLine} (h : infoBlocks up path info = pre ++ ((t, []) :: body) :: post) (ht : t ≠ [])
    (hpre : ∀ l ∈ labelsOf pre, l.isPrefixOf t = false) (hbody : ∀ l ∈ body.map Prod.fst, l ≠ []) :
    Spec.section (printLines (blockLines (infoBlocks up path info))) t = joinedLines body := by
  have hc := infoBlocks_clean up hp info
  rw [h] at hc ⊢
  exact section_at pre post t body ht hc hpre fun l hl => hbody _ (List.mem_map.2 ⟨l, hl, rfl⟩)

/-- The labels in the blocks up to the table information, and up to the special files. -/
def infoLabels3 : List (List Byte) :=
  [word "Archive Information", List.replicate 60 0x3D#8, word "Archive path: ", word "Archive size: ", word "Archive offset: ",
    word "Format version: ", word "File Statistics", List.replicate 60 0x2D#8, word "Number of files: ",
    word "Maximum file capacity: ", word "Sector size: ", word "Security Information", List.replicate 60 0x2D#8,
    word "Encrypted: ", word "Digital signature: "]

def infoLabels5 : List (List Byte) :=
  infoLabels3 ++ [word "Table Information", List.replicate 60 0x2D#8, word "Hash table: ", word "Block table: ",
    word "HET table: ", word "BET table: ", word "Hi-block table: ", word "Special Files", word "(attributes) file: ",
    word "(listfile) file: "]

/-- The first five blocks. -/
theorem infoLabels_sub (up : Nat → Bool) (path : List Byte) (info : ArchiveInfo) :
    (∀ l ∈ labelsOf ((infoBlocks up path info).take 3), l ∈ infoLabels3) ∧
    (∀ l ∈ labelsOf ((infoBlocks up path info).take 4), l ∈ infoLabels3 ++ [word "Table Information", List.replicate 60 0x2D#8,
      word "Hash table: ", word "Block table: ", word "HET table: ", word "BET table: ", word "Hi-block table: "]) ∧
    ∀ l ∈ labelsOf ((infoBlocks up path info).take 5), l ∈ infoLabels5 := by
  have h3 : labelsOf ((infoBlocks up path info).take 3) = infoLabels3 := rfl
  have h4 : labelsOf ((infoBlocks up path info).take 4) =
      infoLabels3 ++ [word "Table Information", List.replicate 60 0x2D#8] ++ ((tableLines info).map Prod.fst) := by
    show _ ++ (_ ++ (_ ++ (([_, _] ++ tableLines info).map Prod.fst ++ []))) = _
    rw [List.map_append, List.append_nil]
    rfl
  have h5 : labelsOf ((infoBlocks up path info).take 5) =
      labelsOf ((infoBlocks up path info).take 4) ++ [word "Special Files", List.replicate 60 0x2D#8, word "(attributes) file: ",
        word "(listfile) file: "] := by
    have : (infoBlocks up path info).take 5 = (infoBlocks up path info).take 4 ++ [heading (word "Special Files") singleRule ++
      [(word "(attributes) file: ", presentText info.hasAttributes), (word "(listfile) file: ", presentText info.hasListfile)]] := rfl
    rw [this]
    unfold labelsOf
    rw [List.flatMap_append]
    rfl
  have m4 : ∀ l ∈ labelsOf ((infoBlocks up path info).take 4), l ∈ infoLabels3 ++ [word "Table Information", List.replicate 60 0x2D#8,
      word "Hash table: ", word "Block table: ", word "HET table: ", word "BET table: ", word "Hi-block table: "] := by
    intro l hl
    rw [h4] at hl
    rcases List.mem_append.1 hl with hl | hl
    · rcases List.mem_append.1 hl with hl | hl
      · exact List.mem_append_left _ hl
      · exact List.mem_append_right _ (List.mem_append_left [_, _, _, _, _] hl)
    · exact List.mem_append_right _ (List.mem_append_right [_, _] (tableLabels info l hl))
  refine ⟨fun l hl => h3 ▸ hl, m4, fun l hl => ?_⟩
  rw [h5] at hl
  have sub : ∀ l ∈ (infoLabels3 ++ [word "Table Information", List.replicate 60 0x2D#8,
      word "Hash table: ", word "Block table: ", word "HET table: ", word "BET table: ", word "Hi-block table: "]) ++
      [word "Special Files", List.replicate 60 0x2D#8, word "(attributes) file: ", word "(listfile) file: "], l ∈ infoLabels5 := by
    decide +kernel
  refine sub l (List.mem_append.2 ?_)
  rcases List.mem_append.1 hl with hl | hl
  · exact Or.inl (m4 l hl)
  · exact Or.inr hl

theorem info_sec1 (up : Nat → Bool) {path : List Byte} (hp : 0x0A#8 ∉ path) (info : ArchiveInfo) :
    Spec.section (printLines (blockLines (infoBlocks up path info))) (word "Archive Information") = joinedLines
      [doubleRule, (word "Archive path: ", path), (word "Archive size: ", formatSize up info.fileSize ++ word " bytes"),
        (word "Archive offset: ", word "0x" ++ hexText info.archiveOffset),
        (word "Format version: ", word "v" ++ decimal (versionNumber info.formatVersion))] := by
  refine info_section hp (pre := []) (post := (infoBlocks up path info).drop 1) rfl (by decide) (fun l hl => by cases hl) ?_
  simp only [List.map_cons, List.map_nil, doubleRule]
  decide +kernel

theorem info_sec2 (up : Nat → Bool) {path : List Byte} (hp : 0x0A#8 ∉ path) (info : ArchiveInfo) :
    Spec.section (printLines (blockLines (infoBlocks up path info))) (word "File Statistics") = joinedLines
      [singleRule, (word "Number of files: ", decimal info.fileCount), (word "Maximum file capacity: ", decimal info.maxFileCount.toNat),
        (word "Sector size: ", decimal info.sectorSize ++ word " bytes")] := by
  refine info_section hp (pre := (infoBlocks up path info).take 1) (post := (infoBlocks up path info).drop 2) rfl (by decide)
    (fun l hl => ?_) ?_
  · have : ∀ l ∈ infoLabels3.take 6, l.isPrefixOf (word "File Statistics") = false := by decide +kernel
    exact this l hl
  · simp only [List.map_cons, List.map_nil, singleRule]
    decide +kernel

theorem info_sec3 (up : Nat → Bool) {path : List Byte} (hp : 0x0A#8 ∉ path) (info : ArchiveInfo) :
    Spec.section (printLines (blockLines (infoBlocks up path info))) (word "Security Information") = joinedLines
      [singleRule, (word "Encrypted: ", if info.isEncrypted then word "Yes" else word "No"),
        (word "Digital signature: ", info.signatureStatus.text)] := by
  refine info_section hp (pre := (infoBlocks up path info).take 2) (post := (infoBlocks up path info).drop 3) rfl (by decide)
    (fun l hl => ?_) ?_
  · have : ∀ l ∈ infoLabels3.take 11, l.isPrefixOf (word "Security Information") = false := by decide +kernel
    exact this l hl
  · simp only [List.map_cons, List.map_nil, singleRule]
    decide +kernel

theorem info_sec4 (up : Nat → Bool) {path : List Byte} (hp : 0x0A#8 ∉ path) (info : ArchiveInfo) :
    Spec.section (printLines (blockLines (infoBlocks up path info))) (word "Table Information") =
      joinedLines (singleRule :: tableLines info) := by
  refine info_section hp (pre := (infoBlocks up path info).take 3) (post := (infoBlocks up path info).drop 4) rfl (by decide)
    (fun l hl => ?_) ?_
  · have : ∀ l ∈ infoLabels3, l.isPrefixOf (word "Table Information") = false := by decide +kernel
    exact this l ((infoLabels_sub up path info).1 l hl)
  · have hall : ∀ l ∈ List.replicate 60 0x2D#8 :: [word "Hash table: ", word "Block table: ", word "HET table: ", word "BET table: ",
      word "Hi-block table: "], l ≠ [] := by decide +kernel
    intro l hl
    refine hall l ?_
    rcases List.mem_cons.1 hl with rfl | hl
    · exact List.mem_cons_self
    · exact List.mem_cons_of_mem _ (tableLabels info l hl)

theorem info_sec5 (up : Nat → Bool) {path : List Byte} (hp : 0x0A#8 ∉ path) (info : ArchiveInfo) :
    Spec.section (printLines (blockLines (infoBlocks up path info))) (word "Special Files") = joinedLines
      [singleRule, (word "(attributes) file: ", presentText info.hasAttributes),
        (word "(listfile) file: ", presentText info.hasListfile)] := by
  refine info_section hp (pre := (infoBlocks up path info).take 4) (post := (infoBlocks up path info).drop 5) rfl (by decide)
    (fun l hl => ?_) ?_
  · have : ∀ l ∈ infoLabels3 ++ [word "Table Information", List.replicate 60 0x2D#8,
      word "Hash table: ", word "Block table: ", word "HET table: ", word "BET table: ", word "Hi-block table: "],
      l.isPrefixOf (word "Special Files") = false := by decide +kernel
    exact this l ((infoLabels_sub up path info).2.1 l hl)
  · simp only [List.map_cons, List.map_nil, singleRule]
    decide +kernel

theorem info_sec6 (up : Nat → Bool) {path : List Byte} (hp : 0x0A#8 ∉ path) (info : ArchiveInfo) (u : U32 × U32)
    (hu : info.userDataInfo = some u) :
    Spec.section (printLines (blockLines (infoBlocks up path info))) (word "User Data") = joinedLines
      [singleRule, (word "Header size: ", decimal u.1.toNat ++ word " bytes"),
        (word "Data size: ", decimal u.2.toNat ++ word " bytes")] := by
  refine info_section hp (pre := (infoBlocks up path info).take 5) (post := (infoBlocks up path info).drop 6) ?_ (by decide)
    (fun l hl => ?_) ?_
  · unfold infoBlocks
    rw [hu]
    rfl
  · have : ∀ l ∈ infoLabels5, l.isPrefixOf (word "User Data") = false := by decide +kernel
    exact this l ((infoLabels_sub up path info).2.2 l hl)
  · simp only [List.map_cons, List.map_nil, singleRule]
    decide +kernel

/-- The labels of the optional blocks. -/
def userLabels : List (List Byte) := [word "User Data", List.replicate 60 0x2D#8, word "Header size: ", word "Data size: "]
def md5Labels : List (List Byte) := [word "MD5 Checksums (v4)", List.replicate 60 0x2D#8, word "MPQ header: ", word "Hash table: ",
  word "Block table: ", word "Hi-block table: ", word "HET table: ", word "BET table: "]

theorem info_split (up : Nat → Bool) (path : List Byte) (info : ArchiveInfo) : infoBlocks up path info =
    (infoBlocks up path info).take 5 ++ (info.userDataInfo.map userDataBlock).toList ++ (info.md5Status.map md5Block).toList := rfl

theorem labelsOf_append (a b : List (List TextLine)) : labelsOf (a ++ b) = labelsOf a ++ labelsOf b := List.flatMap_append ..

theorem user_labels (o : Option (U32 × U32)) : ∀ l ∈ labelsOf (o.map userDataBlock).toList, l ∈ userLabels := by
  intro l hl
  cases o with
  | none => cases hl
  | some u => exact hl

theorem md5_labels (o : Option Md5Status) : ∀ l ∈ labelsOf (o.map md5Block).toList, l ∈ md5Labels := by
  intro l hl
  cases o with
  | none => cases hl
  | some u => exact hl

theorem info_sec7 (up : Nat → Bool) {path : List Byte} (hp : 0x0A#8 ∉ path) (info : ArchiveInfo) (m : Md5Status)
    (hm : info.md5Status = some m) :
    Spec.section (printLines (blockLines (infoBlocks up path info))) (word "MD5 Checksums (v4)") = joinedLines
      [singleRule, (word "MPQ header: ", validText m.headerValid), (word "Hash table: ", validText m.hashTableValid),
      (word "Block table: ", validText m.blockTableValid), (word "Hi-block table: ", validText m.hiBlockTableValid),
      (word "HET table: ", validText m.hetTableValid), (word "BET table: ", validText m.betTableValid)] := by
  refine info_section hp (pre := (infoBlocks up path info).take 5 ++ (info.userDataInfo.map userDataBlock).toList) (post := [])
    ?_ (by decide) (fun l hl => ?_) ?_
  · rw [info_split, hm]
    rfl
  · have : ∀ l ∈ infoLabels5 ++ userLabels, l.isPrefixOf (word "MD5 Checksums (v4)") = false := by decide +kernel
    rw [labelsOf_append] at hl
    refine this l (List.mem_append.2 ?_)
    rcases List.mem_append.1 hl with hl | hl
    · exact Or.inl ((infoLabels_sub up path info).2.2 l hl)
    · exact Or.inr (user_labels _ l hl)
  · simp only [List.map_cons, List.map_nil, singleRule]
    decide +kernel

theorem info_noUser (up : Nat → Bool) {path : List Byte} (hp : 0x0A#8 ∉ path) (info : ArchiveInfo) (hu : info.userDataInfo = none) :
    Spec.section (printLines (blockLines (infoBlocks up path info))) (word "User Data") = [] := by
  refine section_none _ _ (by decide) (infoBlocks_clean up hp info) fun l hl => ?_
  have : ∀ l ∈ infoLabels5 ++ md5Labels, l.isPrefixOf (word "User Data") = false := by decide +kernel
  rw [info_split, hu, Option.map_none, Option.toList_none, List.append_nil, labelsOf_append] at hl
  refine this l (List.mem_append.2 ?_)
  rcases List.mem_append.1 hl with hl | hl
  · exact Or.inl ((infoLabels_sub up path info).2.2 l hl)
  · exact Or.inr (md5_labels _ l hl)

theorem info_noMd5 (up : Nat → Bool) {path : List Byte} (hp : 0x0A#8 ∉ path) (info : ArchiveInfo) (hu : info.md5Status = none) :
    Spec.section (printLines (blockLines (infoBlocks up path info))) (word "MD5 Checksums (v4)") = [] := by
  refine section_none _ _ (by decide) (infoBlocks_clean up hp info) fun l hl => ?_
  have : ∀ l ∈ infoLabels5 ++ userLabels, l.isPrefixOf (word "MD5 Checksums (v4)") = false := by decide +kernel
  rw [info_split, hu, Option.map_none, Option.toList_none, List.append_nil, labelsOf_append] at hl
  refine this l (List.mem_append.2 ?_)
  rcases List.mem_append.1 hl with hl | hl
  · exact Or.inl ((infoLabels_sub up path info).2.2 l hl)
  · exact Or.inr (user_labels _ l hl)

theorem says_of {out t : List Byte} {body : List TextLine} (h : Spec.section out t = joinedLines body) (a b : List TextLine)
    {label value : List Byte} (hb : body = a ++ (label, value) :: b) (ha : ∀ l ∈ a.map Prod.fst, textsApart label l = true)
    (hb' : ∀ l ∈ b.map Prod.fst, textsApart label l = true) : Spec.TextSays out t label value := by
  unfold Spec.TextSays
  rw [h, hb]
  exact filter_one a b label value ha hb'

theorem silent_of {out t : List Byte} {body : List TextLine} (h : Spec.section out t = joinedLines body)
    {label : List Byte} (ha : ∀ l ∈ body.map Prod.fst, textsApart label l = true) : Spec.TextSilent out t label := by
  unfold Spec.TextSilent
  rw [h]
  exact filter_apart body label ha

local macro "labels" : tactic =>
  `(tactic| (simp only [List.map_cons, List.map_nil, doubleRule, singleRule, List.cons_append, List.nil_append]; decide +kernel))

theorem table_of {out title : List Byte} {body : List TextLine} (hs : Spec.section out title = joinedLines body) (a b : List TextLine)
    (label : List Byte) (o : Option TableInfo) (h : body = a ++ (o.map fun t => (label, tableText t)).toList ++ b)
    (ha : ∀ l ∈ a.map Prod.fst, textsApart label l = true) (hb : ∀ l ∈ b.map Prod.fst, textsApart label l = true) :
    Spec.TextTable out title label o := by
  rw [h] at hs
  cases o with
  | none =>
    refine silent_of hs fun l hl => ?_
    rw [Option.map_none, Option.toList_none, List.append_nil, List.map_append] at hl
    rcases List.mem_append.1 hl with hl | hl
    · exact ha l hl
    · exact hb l hl
  | some t =>
    refine ⟨tableText t, tableText_says t, says_of hs a b ?_ ha hb⟩
    simp

local macro "labels2" : tactic =>
  `(tactic| (simp only [List.map_cons, List.map_nil, singleRule, List.cons_append, List.nil_append, List.append_nil, Option.map_none,
      Option.map_some, Option.toList_none, Option.toList_some]; decide +kernel))

theorem tables_say {out title : List Byte} (h b : TableInfo) (o1 o2 o3 : Option TableInfo)
    (hs : Spec.section out title = joinedLines (singleRule :: ([(word "Hash table: ", tableText h), (word "Block table: ", tableText b)] ++
      (o1.map fun t => (word "HET table: ", tableText t)).toList ++ (o2.map fun t => (word "BET table: ", tableText t)).toList ++
      (o3.map fun t => (word "Hi-block table: ", tableText t)).toList))) :
    Spec.TextTable out title (word "Hash table: ") (some h) ∧ Spec.TextTable out title (word "Block table: ") (some b) ∧
    Spec.TextTable out title (word "HET table: ") o1 ∧ Spec.TextTable out title (word "BET table: ") o2 ∧
    Spec.TextTable out title (word "Hi-block table: ") o3 := by
  refine ⟨table_of hs [singleRule] ((word "Block table: ", tableText b) :: ((o1.map fun t => (word "HET table: ", tableText t)).toList ++
      (o2.map fun t => (word "BET table: ", tableText t)).toList ++ (o3.map fun t => (word "Hi-block table: ", tableText t)).toList))
      _ _ (by simp) (by labels2) (by cases o1 <;> cases o2 <;> cases o3 <;> labels2),
    table_of hs [singleRule, (word "Hash table: ", tableText h)] ((o1.map fun t => (word "HET table: ", tableText t)).toList ++
      (o2.map fun t => (word "BET table: ", tableText t)).toList ++ (o3.map fun t => (word "Hi-block table: ", tableText t)).toList)
      _ _ (by simp) (by labels2) (by cases o1 <;> cases o2 <;> cases o3 <;> labels2),
    table_of hs [singleRule, (word "Hash table: ", tableText h), (word "Block table: ", tableText b)]
      ((o2.map fun t => (word "BET table: ", tableText t)).toList ++ (o3.map fun t => (word "Hi-block table: ", tableText t)).toList)
      _ _ (by simp) (by labels2) (by cases o2 <;> cases o3 <;> labels2),
    table_of hs ([singleRule, (word "Hash table: ", tableText h), (word "Block table: ", tableText b)] ++
      (o1.map fun t => (word "HET table: ", tableText t)).toList) (o3.map fun t => (word "Hi-block table: ", tableText t)).toList
      _ _ (by simp) (by cases o1 <;> labels2) (by cases o3 <;> labels2),
    table_of hs ([singleRule, (word "Hash table: ", tableText h), (word "Block table: ", tableText b)] ++
      (o1.map fun t => (word "HET table: ", tableText t)).toList ++ (o2.map fun t => (word "BET table: ", tableText t)).toList) []
      _ _ (by simp) (by cases o1 <;> cases o2 <;> labels2) (by labels2)⟩

theorem infoText_says (up : Nat → Bool) {path : List Byte} (hp : 0x0A#8 ∉ path) (info : ArchiveInfo) :
    Spec.InfoTextSays (printLines (blockLines (infoBlocks up path info))) path info where
  path := says_of (info_sec1 up hp info) [_] [_, _, _] rfl (by labels) (by labels)
  size := by
    refine ⟨_, says_of (info_sec1 up hp info) [_, _] [_, _] rfl (by labels) (by labels), fun h => ?_, fun h h' => ?_⟩
    · rw [formatSize_small up _ h]; exact isNumber_decimal _
    · obtain ⟨h, u, h1, h2, h3, h4, h5⟩ := (C89_size_nearest up _ h').2 h
      exact ⟨h, u, h1, h2, h3, h5⟩
  offset := ⟨_, hexText_spec _, says_of (info_sec1 up hp info) [_, _, _] [_] rfl (by labels) (by labels)⟩
  version := ⟨_, versionNumber_spec _ ▸ isNumber_decimal _,
    says_of (info_sec1 up hp info) [_, _, _, _] [] rfl (by labels) (by labels)⟩
  files := ⟨_, isNumber_decimal _, says_of (info_sec2 up hp info) [_] [_, _] (by rw [List.append_nil]; rfl) (by labels) (by labels)⟩
  capacity := ⟨_, isNumber_decimal _, says_of (info_sec2 up hp info) [_, _] [_] (by rw [List.append_nil]; rfl) (by labels) (by labels)⟩
  sector := ⟨_, isNumber_decimal _, says_of (info_sec2 up hp info) [_, _, _] [] rfl (by labels) (by labels)⟩
  encrypted := says_of (info_sec3 up hp info) [_] [_] rfl (by labels) (by labels)
  signature := by
    rw [← signatureText_eq]
    exact says_of (info_sec3 up hp info) [_, _] [] rfl (by labels) (by labels)
  hash := (tables_say _ _ _ _ _ (info_sec4 up hp info)).1
  block := (tables_say _ _ _ _ _ (info_sec4 up hp info)).2.1
  het := (tables_say _ _ _ _ _ (info_sec4 up hp info)).2.2.1
  bet := (tables_say _ _ _ _ _ (info_sec4 up hp info)).2.2.2.1
  hiBlock := (tables_say _ _ _ _ _ (info_sec4 up hp info)).2.2.2.2
  attributes := by
    rw [← presentText_eq]
    exact says_of (info_sec5 up hp info) [_] [_] rfl (by labels) (by labels)
  listfile := by
    rw [← presentText_eq]
    exact says_of (info_sec5 up hp info) [_, _] [] rfl (by labels) (by labels)
  userData := by
    cases hu : info.userDataInfo with
    | none => exact info_noUser up hp info hu
    | some u =>
      exact ⟨⟨_, isNumber_decimal _, says_of (info_sec6 up hp info u hu) [_] [_] rfl (by labels) (by labels)⟩,
        _, isNumber_decimal _, says_of (info_sec6 up hp info u hu) [_, _] [] rfl (by labels) (by labels)⟩
  md5 := by
    cases hm : info.md5Status with
    | none => exact info_noMd5 up hp info hm
    | some m =>
      intro l b h
      have hs := info_sec7 up hp info m hm
      simp only [List.mem_cons, Prod.mk.injEq, List.not_mem_nil, or_false] at h
      rw [← validText_eq]
      rcases h with ⟨rfl, rfl⟩ | ⟨rfl, rfl⟩ | ⟨rfl, rfl⟩ | ⟨rfl, rfl⟩ | ⟨rfl, rfl⟩ | ⟨rfl, rfl⟩
      · exact says_of hs [_] [_, _, _, _, _] rfl (by labels) (by labels)
      · exact says_of hs [_, _] [_, _, _, _] rfl (by labels) (by labels)
      · exact says_of hs [_, _, _] [_, _, _] rfl (by labels) (by labels)
      · exact says_of hs [_, _, _, _] [_, _] rfl (by labels) (by labels)
      · exact says_of hs [_, _, _, _, _] [_] rfl (by labels) (by labels)
      · exact says_of hs [_, _, _, _, _, _] [] rfl (by labels) (by labels)

/-- C91: for a path without line feeds, the text that `archive info` prints says everything in the description of the archive, every
fact once and under its heading; tables, user data and digests that are not there are not mentioned. -/
theorem C91_info_text (e : Env) (s : SigEnv) (up : Nat → Bool) (path f : List Byte) (a : Archive) (info : ArchiveInfo)
    (ho : openArchive e f = .ok a) (hi : a.getInfo e s = .ok info) (hp : 0x0A#8 ∉ path) :
    ∃ out, cliInfoText e s up path f = .ok out ∧ Spec.InfoTextSays out path info := by
  refine ⟨_, ?_, infoText_says up hp info⟩
  unfold cliInfoText
  rw [ho]
  show (a.getInfo e s >>= _) = _
  rw [hi]
  rfl

/-- Numbers in hexadecimal, and what is said about tables. -/
example : hexText 0 = ascii "0" ∧ hexText 0x2F0A = ascii "2F0A" ∧
    tableText { size := some 4, offset := 0x20, compressedSize := none, failedToLoad := false } = ascii "4 entries @ 0x20" ∧
    tableText { size := none, offset := 0xFF, compressedSize := some 9, failedToLoad := true } =
      ascii "Failed to load (compressed: 9 bytes) @ 0xFF" := by decide +kernel

/-- The sample archive can be described. -/
example : ∃ f a info, buildBytes toyEnv zeroMd5 (sampleBuilder .v4) = .ok f ∧ openArchive toyEnv f = .ok a ∧
    a.getInfo toyEnv toySigEnv = .ok info ∧ 0x0A#8 ∉ ascii "a.mpq" := by
  obtain ⟨f, a, hf, _, _, ha, hok⟩ := sample_verifies .v4 (by decide) true true
  rw [List.nil_append, List.append_nil] at ha hok
  unfold cliVerify at hok
  obtain ⟨r, hr, hok⟩ := bind_eq_ok.1 hok
  unfold cliVerifyReport at hr
  rw [ha] at hr
  obtain ⟨info, hi, _⟩ := bind_eq_ok.1 (show (a.getInfo toyEnv toySigEnv >>= _) = _ from hr)
  exact ⟨f, a, info, hf, ha, hi, by decide⟩

end Mopaq
