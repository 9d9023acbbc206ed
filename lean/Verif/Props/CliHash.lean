import Verif.Model.CliHash
import Verif.Spec.Json
import Verif.Props.Crypto
import Verif.Props.CliList

/-! # The hash commands of the command line tool (C68) -/

namespace Mopaq

/-! ## Values -/

/-- A 32-bit number in C notation with all its digits. -/
def Spec.cHex (n : Nat) : List Byte :=
  ascii "0x" ++ [7, 6, 5, 4, 3, 2, 1, 0].map fun i => (ascii "0123456789abcdef").getD (n / 16 ^ i % 16) 0

theorem hexDigitLower_spec (n : Nat) (h : n < 16) : hexDigitLower n = (ascii "0123456789abcdef").getD n 0 := by
  have : ∀ n : Fin 16, hexDigitLower n.val = (ascii "0123456789abcdef").getD n.val 0 := by decide +kernel
  exact this ⟨n, h⟩

theorem hexLower_spec (x : U32) : hexLower x = Spec.cHex x.toNat := by
  unfold hexLower Spec.cHex
  simp only [List.map_cons, List.map_nil]
  rw [hexDigitLower_spec _ (Nat.mod_lt _ (by decide)), hexDigitLower_spec _ (Nat.mod_lt _ (by decide)),
    hexDigitLower_spec _ (Nat.mod_lt _ (by decide)), hexDigitLower_spec _ (Nat.mod_lt _ (by decide)),
    hexDigitLower_spec _ (Nat.mod_lt _ (by decide)), hexDigitLower_spec _ (Nat.mod_lt _ (by decide)),
    hexDigitLower_spec _ (Nat.mod_lt _ (by decide)), hexDigitLower_spec _ (Nat.mod_lt _ (by decide))]
  simp only [show (16 : Nat) ^ 0 = 1 from rfl, Nat.div_one]
  rfl

/-- The number of a hash type and the word for it. -/
def Spec.hashNumber : HashKind → Nat × String
  | .tableOffset => (0, "TableOffset")
  | .nameA => (1, "NameA")
  | .nameB => (2, "NameB")
  | .fileKey => (3, "FileKey")
  | .key2Mix => (4, "Key2Mix")

theorem kind_value (kind : HashKind) (name : List Byte) : hexLower (hashString name kind.id) =
    Spec.cHex (Spec.nameHash (Spec.hashNumber kind).1 (name.map BitVec.toNat)) := by
  rw [hexLower_spec]
  cases kind <;> exact congrArg Spec.cHex (C03_name_hash name _ (by decide))

/-- C68: as text, a hash asked for is printed as one line with the published hash of this type in C notation; all hashes are
printed on five labelled lines below a heading, in the order of their numbers, whatever the output format. -/
theorem C68_values (name : List Byte) (kind : HashKind) (json : Bool) (anyKind : Option HashKind) (all : Bool)
    (h : all = true ∨ anyKind = none) :
    hashGenerate false name (some kind) false =
      [Spec.cHex (Spec.nameHash (Spec.hashNumber kind).1 (name.map BitVec.toNat))] ∧
    hashGenerate json name anyKind all = ascii "Hash values:" ::
      List.zipWith (fun label i => ascii label ++ Spec.cHex (Spec.nameHash i (name.map BitVec.toNat)))
        ["  Table offset: ", "  Name A:       ", "  Name B:       ", "  File key:     ", "  Key2 mix:     "] [0, 1, 2, 3, 4] := by
  constructor
  · exact congrArg (fun x => [x]) (kind_value kind name)
  · have e : hashGenerate json name anyKind all = hashGenerate json name none true := by
      rcases h with rfl | rfl
      · cases anyKind <;> rfl
      · cases all <;> rfl
    rw [e]
    have k0 := kind_value .tableOffset name
    have k1 := kind_value .nameA name
    have k2 := kind_value .nameB name
    have k3 := kind_value .fileKey name
    have k4 := kind_value .key2Mix name
    simp only [HashKind.id, Spec.hashNumber] at k0 k1 k2 k3 k4
    simp only [hashGenerate, htTableOffset, htNameA, htNameB, htFileKey, k0, k1, k2, k3, k4, List.zipWith_cons_cons,
      List.zipWith_nil_right]
    rfl

/-! ## JSON -/

theorem utf8_length (c : Nat) : (Spec.utf8 c).length ≤ 4 ∧ (c < 0x10000 → (Spec.utf8 c).length ≤ 3) := by
  unfold Spec.utf8
  rw [List.length_map]
  split
  · simp
  · split
    · simp
    · split
      · simp
      · exact ⟨by simp, fun h => absurd h ‹_›⟩

/-- A character that stands for itself in a JSON string. -/
def Spec.jsonPlain (c : Byte) : Prop := 0x20 ≤ c.toNat ∧ c ≠ 0x22#8 ∧ c ≠ 0x5C#8

theorem hexDigitValue_lt (c : Byte) (n : Nat) (h : Spec.hexDigitValue c = some n) : n < 16 := by
  unfold Spec.hexDigitValue at h
  split at h
  · injection h; omega
  · split at h
    · injection h; omega
    · split at h
      · injection h; omega
      · cases h

theorem jsonHex_length {hex : List Byte} {code : Nat} (h : Spec.JsonHex hex code) : hex.length = 4 ∧ code < 0x10000 := by
  obtain ⟨a, b, c, d, h, rfl⟩ := h
  have hl := congrArg List.length h
  rw [List.length_map] at hl
  refine ⟨hl, ?_⟩
  obtain ⟨w, x, y, z, rfl⟩ : ∃ w x y z, hex = [w, x, y, z] := by
    match hex, hl with
    | [w, x, y, z], _ => exact ⟨w, x, y, z, rfl⟩
  simp only [List.map_cons, List.map_nil, List.cons.injEq, and_true] at h
  have h1 := hexDigitValue_lt _ _ h.1
  have h2 := hexDigitValue_lt _ _ h.2.1
  have h3 := hexDigitValue_lt _ _ h.2.2.1
  have h4 := hexDigitValue_lt _ _ h.2.2.2
  omega

/-- A literal is never shorter than its text, and as long only if it is the text itself. -/
theorem jsonString_length {lit text : List Byte} (h : Spec.JsonString lit text) :
    text.length ≤ lit.length ∧ (lit.length ≤ text.length → lit = text ∧ ∀ c ∈ text, Spec.jsonPlain c) := by
  induction h with
  | nil => exact ⟨Nat.le_refl _, fun _ => ⟨rfl, fun c hc => absurd hc List.not_mem_nil⟩⟩
  | plain c lit text h1 h2 h3 _ ih =>
    refine ⟨Nat.succ_le_succ ih.1, fun hl => ?_⟩
    obtain ⟨e, hp⟩ := ih.2 (Nat.le_of_succ_le_succ hl)
    refine ⟨by rw [e], fun x hx => ?_⟩
    rcases List.mem_cons.1 hx with rfl | hx
    · exact ⟨h1, h2, h3⟩
    · exact hp x hx
  | escape c d lit text _ _ ih =>
    simp only [List.length_cons]
    exact ⟨by omega, fun h => by omega⟩
  | unicode hex code lit text h _ _ ih =>
    have := jsonHex_length h
    have := (utf8_length code).2 this.2
    simp only [List.length_append, List.length_cons]
    exact ⟨by omega, fun h => by omega⟩
  | surrogates hex high hex' low lit text h _ _ h' _ _ _ ih =>
    have := jsonHex_length h
    have := jsonHex_length h'
    have := (utf8_length (0x10000 + (high - 0xD800) * 0x400 + (low - 0xDC00))).1
    simp only [List.length_append, List.length_cons]
    exact ⟨by omega, fun h => by omega⟩

theorem jsonString_plain {text : List Byte} (h : ∀ c ∈ text, Spec.jsonPlain c) : Spec.JsonString text text := by
  induction text with
  | nil => exact .nil
  | cons c text ih =>
    obtain ⟨h1, h2, h3⟩ := h c List.mem_cons_self
    exact .plain c _ _ h1 h2 h3 (ih fun x hx => h x (List.mem_cons_of_mem _ hx))

theorem jsonMember_length {out : List Byte} {m : List Byte × List Byte} (h : Spec.JsonMember out m) :
    m.1.length + m.2.length + 5 ≤ out.length ∧
    (out.length ≤ m.1.length + m.2.length + 5 → ∀ c ∈ m.2, Spec.jsonPlain c) := by
  obtain ⟨w1, key, w2, w3, value, w4, _, _, _, _, hk, hv, rfl⟩ := h
  have hk := jsonString_length hk
  have hv := jsonString_length hv
  simp only [List.length_append, List.length_singleton]
  exact ⟨by omega, fun h => (hv.2 (by omega)).2⟩

/-- The length of the shortest way to write members. -/
def membersLength : List (List Byte × List Byte) → Nat
  | [] => 0
  | [m] => m.1.length + m.2.length + 5
  | m :: ms => m.1.length + m.2.length + 6 + membersLength ms

theorem jsonMembers_length {out : List Byte} {ms : List (List Byte × List Byte)} (h : Spec.JsonMembers out ms) :
    membersLength ms ≤ out.length ∧ (out.length ≤ membersLength ms → ∀ m ∈ ms, ∀ c ∈ m.2, Spec.jsonPlain c) := by
  induction h with
  | one out m h =>
    have := jsonMember_length h
    refine ⟨this.1, fun hl x hx => ?_⟩
    rw [List.mem_singleton] at hx
    subst hx
    exact this.2 hl
  | cons out rest m ms h hr ih =>
    have h1 := jsonMember_length h
    have e : membersLength (m :: ms) = m.1.length + m.2.length + 6 + membersLength ms := by
      cases hr <;> rfl
    rw [e]
    simp only [List.length_append, List.length_singleton]
    refine ⟨by omega, fun hl x hx => ?_⟩
    rcases List.mem_cons.1 hx with rfl | hx
    · exact h1.2 (by omega)
    · exact ih.2 (by omega) x hx

theorem debug_spec (kind : HashKind) : kind.debug = ascii (Spec.hashNumber kind).2 := by cases kind <;> rfl

/-- The line printed as JSON. -/
theorem json_line (name : List Byte) (kind : HashKind) : hashGenerate true name (some kind) false =
    [ascii "{\"filename\":\"" ++ name ++ ascii "\",\"type\":\"" ++ ascii (Spec.hashNumber kind).2 ++ ascii "\",\"value\":\"" ++
      Spec.cHex (Spec.nameHash (Spec.hashNumber kind).1 (name.map BitVec.toNat)) ++ ascii "\"}"] := by
  rw [← kind_value, ← debug_spec]
  rfl

theorem cHex_plain (n : Nat) : ∀ c ∈ Spec.cHex n, Spec.jsonPlain c := by
  have key : ∀ k : Fin 16, 0x20 ≤ ((ascii "0123456789abcdef").getD k.val 0).toNat ∧
      (ascii "0123456789abcdef").getD k.val 0 ≠ 0x22#8 ∧ (ascii "0123456789abcdef").getD k.val 0 ≠ 0x5C#8 := by decide +kernel
  intro c hc
  unfold Spec.cHex at hc
  rcases List.mem_append.1 hc with hc | hc
  · have : ∀ c ∈ ascii "0x", 0x20 ≤ c.toNat ∧ c ≠ 0x22#8 ∧ c ≠ 0x5C#8 := by decide
    exact this c hc
  · obtain ⟨i, _, rfl⟩ := List.mem_map.1 hc
    exact key ⟨n / 16 ^ i % 16, Nat.mod_lt _ (by decide)⟩

theorem cHex_length (n : Nat) : (Spec.cHex n).length = 10 := by
  unfold Spec.cHex
  rw [List.length_append, List.length_map]
  rfl

theorem word_plain (kind : HashKind) : ∀ c ∈ ascii (Spec.hashNumber kind).2, 0x20 ≤ c.toNat ∧ c ≠ 0x22#8 ∧ c ≠ 0x5C#8 := by
  cases kind <;> decide

/-- C68: the line printed as JSON is an object that tells the name, the type and the published hash if and only if no
character of the name needs an escape; names with a quotation mark, a backslash (which is how archives separate
directories) or a control character are printed without one, and the line means something else or nothing. -/
theorem C68_json_partial (name : List Byte) (kind : HashKind) : ∃ line, hashGenerate true name (some kind) false = [line] ∧
    (Spec.JsonObject line [(ascii "filename", name), (ascii "type", ascii (Spec.hashNumber kind).2),
        (ascii "value", Spec.cHex (Spec.nameHash (Spec.hashNumber kind).1 (name.map BitVec.toNat)))] ↔
      ∀ c ∈ name, 0x20 ≤ c.toNat ∧ c ≠ 0x22#8 ∧ c ≠ 0x5C#8) := by
  refine ⟨_, json_line name kind, ?_⟩
  have hw := word_plain kind
  revert hw
  generalize ascii (Spec.hashNumber kind).2 = word
  generalize hv : Spec.cHex (Spec.nameHash (Spec.hashNumber kind).1 (name.map BitVec.toNat)) = value
  have hvp : ∀ c ∈ value, Spec.jsonPlain c := hv ▸ cHex_plain _
  clear hv
  intro hw
  constructor
  · rintro ⟨w1, body, w2, _, _, hb, hl⟩
    have hb := jsonMembers_length hb
    have hl := congrArg List.length hl
    simp only [membersLength, List.length_append, List.length_singleton] at hb hl
    have l1 : (ascii "{\"filename\":\"").length = 13 := by decide
    have l2 : (ascii "\",\"type\":\"").length = 10 := by decide
    have l3 : (ascii "\",\"value\":\"").length = 11 := by decide
    have l4 : (ascii "\"}").length = 2 := by decide
    have l5 : (ascii "filename").length = 8 := by decide
    have l6 : (ascii "type").length = 4 := by decide
    have l7 : (ascii "value").length = 5 := by decide
    exact fun c hc => hb.2 (by omega) _ List.mem_cons_self c hc
  · intro hn
    have sp : Spec.JsonSpace [] := fun c hc => absurd hc List.not_mem_nil
    have mem : ∀ k v : List Byte, (∀ c ∈ k, Spec.jsonPlain c) → (∀ c ∈ v, Spec.jsonPlain c) →
        Spec.JsonMember ([0x22#8] ++ k ++ [0x22#8] ++ [0x3A#8] ++ [0x22#8] ++ v ++ [0x22#8]) (k, v) := by
      intro k v hk hv
      refine ⟨[], k, [], [], v, [], sp, sp, sp, sp, jsonString_plain hk, jsonString_plain hv, ?_⟩
      simp only [List.append_nil, List.nil_append, List.append_assoc]
    have k1 : ∀ c ∈ ascii "filename", 0x20 ≤ c.toNat ∧ c ≠ 0x22#8 ∧ c ≠ 0x5C#8 := by decide
    have k2 : ∀ c ∈ ascii "type", 0x20 ≤ c.toNat ∧ c ≠ 0x22#8 ∧ c ≠ 0x5C#8 := by decide
    have k3 : ∀ c ∈ ascii "value", 0x20 ≤ c.toNat ∧ c ≠ 0x22#8 ∧ c ≠ 0x5C#8 := by decide
    refine ⟨[], _, [], sp, sp, .cons _ _ _ _ (mem _ _ k1 hn) (.cons _ _ _ _ (mem _ _ k2 hw) (.one _ _ (mem _ _ k3 hvp))), ?_⟩
    simp only [List.append_nil, List.nil_append, List.append_assoc]
    rfl

/-- C68 fails when all hashes are asked for as JSON: what is printed is not a JSON object. -/
theorem C68_all_not_json (name : List Byte) (kind : Option HashKind) (members : List (List Byte × List Byte)) :
    ¬ Spec.JsonObject ((hashGenerate true name kind true).flatMap outLine) members := by
  rintro ⟨w1, body, w2, hw, _, _, hl⟩
  have hh := congrArg List.head? hl
  have e : ((hashGenerate true name kind true).flatMap outLine).head? = some 0x48#8 := by
    cases kind <;> rfl
  rw [e] at hh
  cases w1 with
  | nil => cases hh
  | cons c w1 =>
    have h1 : some 0x48#8 = some c := hh
    have h2 := hw c List.mem_cons_self
    rw [← Option.some.inj h1] at h2
    exact absurd h2 (by decide)

/-! ## Comparing -/

/-- The line of a comparison for one type. -/
def Spec.compareLine (label : String) (h1 h2 : Nat) : List Byte :=
  ascii label ++ Spec.cHex h1 ++ ascii " vs " ++ Spec.cHex h2 ++ ascii (if h1 = h2 then " [MATCH]" else " [DIFFER]")

/-- The labels of a comparison. -/
def Spec.compareLabels : List (String × Nat) :=
  [("Table offset: ", 0), ("Name A:       ", 1), ("Name B:       ", 2), ("File key:     ", 3), ("Key2 mix:     ", 4)]

/-- C68: a comparison shows, in order, the types for which the published hashes of the two names are equal, or all types if
it is to be verbose; and says of each whether they are equal. -/
theorem C68_compare (verbose : Bool) (n m : List Byte) :
    hashCompare verbose n m [] compareTypes =
      (Spec.compareLabels.filter fun x => verbose ||
        decide (Spec.nameHash x.2 (n.map BitVec.toNat) = Spec.nameHash x.2 (m.map BitVec.toNat))).map fun x =>
        Spec.compareLine x.1 (Spec.nameHash x.2 (n.map BitVec.toNat)) (Spec.nameHash x.2 (m.map BitVec.toNat)) := by
  have key : ∀ (types : List (String × Nat)) (out : List (List Byte)), (∀ x ∈ types, x.2 < 5) →
      hashCompare verbose n m out (types.map fun x => (ascii x.1, x.2)) = out ++
      (types.filter fun x => verbose ||
        decide (Spec.nameHash x.2 (n.map BitVec.toNat) = Spec.nameHash x.2 (m.map BitVec.toNat))).map fun x =>
        Spec.compareLine x.1 (Spec.nameHash x.2 (n.map BitVec.toNat)) (Spec.nameHash x.2 (m.map BitVec.toNat)) := by
    intro types
    induction types with
    | nil => intro out _; exact (List.append_nil _).symm
    | cons x types ih =>
      intro out hx
      have h5 := hx x List.mem_cons_self
      have hn := C03_name_hash n x.2 h5
      have hm := C03_name_hash m x.2 h5
      rw [List.map_cons]
      unfold hashCompare
      simp only
      rw [ih _ fun y hy => hx y (List.mem_cons_of_mem _ hy), hexLower_spec, hexLower_spec, hn, hm, List.filter_cons]
      have hb : (hashString n x.2 == hashString m x.2) =
          decide (Spec.nameHash x.2 (n.map BitVec.toNat) = Spec.nameHash x.2 (m.map BitVec.toNat)) := by
        rw [← hn, ← hm, Bool.eq_iff_iff, beq_iff_eq, decide_eq_true_iff]
        exact ⟨fun h => by rw [h], BitVec.eq_of_toNat_eq⟩
      rw [hb]
      by_cases he : Spec.nameHash x.2 (n.map BitVec.toNat) = Spec.nameHash x.2 (m.map BitVec.toNat)
      · have hl : ascii x.1 ++ Spec.cHex (Spec.nameHash x.2 (n.map BitVec.toNat)) ++ vsWord ++
            Spec.cHex (Spec.nameHash x.2 (m.map BitVec.toNat)) ++ matchWord = Spec.compareLine x.1
              (Spec.nameHash x.2 (n.map BitVec.toNat)) (Spec.nameHash x.2 (m.map BitVec.toNat)) := by
          unfold Spec.compareLine
          rw [if_pos he]
          rfl
        rw [decide_eq_true he, Bool.or_true, if_pos rfl, if_pos rfl, if_pos rfl, hl, List.append_assoc]
        rfl
      · have hl : ascii x.1 ++ Spec.cHex (Spec.nameHash x.2 (n.map BitVec.toNat)) ++ vsWord ++
            Spec.cHex (Spec.nameHash x.2 (m.map BitVec.toNat)) ++ differWord = Spec.compareLine x.1
              (Spec.nameHash x.2 (n.map BitVec.toNat)) (Spec.nameHash x.2 (m.map BitVec.toNat)) := by
          unfold Spec.compareLine
          rw [if_neg he]
          rfl
        rw [decide_eq_false he, Bool.or_false]
        cases verbose with
        | false => rw [if_neg (by decide), if_neg (by decide)]
        | true =>
          rw [if_pos rfl, if_pos rfl, if_neg (by decide), hl, List.append_assoc]
          rfl
  exact key Spec.compareLabels [] (by decide)

/-- C68: two spellings of a name match in all five types. -/
theorem C68_compare_spellings (verbose : Bool) (n m : List Byte)
    (h : Spec.sameName (n.map BitVec.toNat) (m.map BitVec.toNat)) :
    hashCompare verbose n m [] compareTypes = Spec.compareLabels.map fun x =>
      Spec.compareLine x.1 (Spec.nameHash x.2 (n.map BitVec.toNat)) (Spec.nameHash x.2 (n.map BitVec.toNat)) := by
  have e : ∀ x ∈ Spec.compareLabels,
      Spec.nameHash x.2 (n.map BitVec.toNat) = Spec.nameHash x.2 (m.map BitVec.toNat) := by
    intro x hx
    have h5 : x.2 < 5 := (show ∀ x ∈ Spec.compareLabels, x.2 < 5 by decide) x hx
    rw [← C03_name_hash n _ h5, ← C03_name_hash m _ h5, (C04_case_and_separator n m h).1 _ h5]
  rw [C68_compare, List.filter_eq_self.2 fun x hx => by simp [e x hx]]
  exact List.map_congr_left fun x hx => by rw [← e x hx]

/-! ## Cases -/

/-- The hash of `(listfile)` that says where it is, as text and as JSON. -/
example : hashGenerate false (ascii "(listfile)") (some .tableOffset) false = [ascii "0x5f3de859"] ∧
    hashGenerate true (ascii "(listfile)") (some .tableOffset) false =
      [ascii "{\"filename\":\"(listfile)\",\"type\":\"TableOffset\",\"value\":\"0x5f3de859\"}"] := by
  have key : ∀ h : U32, hashString (ascii "(listfile)") 0 = h → hashGenerate false (ascii "(listfile)") (some .tableOffset) false =
      [hexLower h] ∧ hashGenerate true (ascii "(listfile)") (some .tableOffset) false =
      [jsonFilename ++ ascii "(listfile)" ++ jsonType ++ HashKind.tableOffset.debug ++ jsonValue ++ hexLower h ++ jsonEnd] := by
    rintro h rfl
    exact ⟨rfl, rfl⟩
  obtain ⟨h1, h2⟩ := key 0x5F3DE859 (by rw [hashString_lit _ (by decide)]; decide +kernel)
  rw [h1, h2]
  decide +kernel

/-- `dir\a` needs an escape, `dir/a` does not. -/
example : (¬ ∀ c ∈ ascii "dir\\a", 0x20 ≤ c.toNat ∧ c ≠ 0x22#8 ∧ c ≠ 0x5C#8) ∧
    ∀ c ∈ ascii "dir/a", 0x20 ≤ c.toNat ∧ c ≠ 0x22#8 ∧ c ≠ 0x5C#8 := by decide

/-- Two spellings match in all types. -/
example : (hashCompare false (ascii "Dir/A") (ascii "dir\\a") [] compareTypes).length = 5 := by
  rw [C68_compare_spellings false _ _ (by simp [ascii, Spec.sameName, Spec.sameChar]), List.length_map]
  rfl

/-- A literal with escapes: `\u00e9\n` stands for `é` and a line feed. -/
example : Spec.JsonString (ascii "\\u00e9\\n") [0xC3#8, 0xA9#8, 0x0A#8] :=
  .unicode (ascii "00e9") 0xE9 _ _ ⟨0, 0, 14, 9, by decide, rfl⟩ (by decide) (.escape 0x6E#8 0x0A#8 _ _ (by decide) .nil)

end Mopaq
