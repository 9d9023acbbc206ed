import Verif.Model.Report
import Verif.Lemmas.JsonText
import Verif.Lemmas.Enumerate
import Verif.Props.CliFile
import Verif.Props.CliHash

/-! # What is printed as JSON -/

namespace Mopaq

open _root_.Spec (Json JsonNumber JsonDigits JsonReads JsonText JsonString JsonSpace JsonHex)

mutual
/-- Every number in a value is one of JSON. -/
def jsonNumbers : Json → Prop
  | .num lit => JsonNumber lit
  | .arr vs => jsonNumbersItems vs
  | .obj ms => jsonNumbersMembers ms
  | _ => True
def jsonNumbersItems : List Json → Prop
  | [] => True
  | v :: vs => jsonNumbers v ∧ jsonNumbersItems vs
def jsonNumbersMembers : List (List Byte × Json) → Prop
  | [] => True
  | (_, v) :: ms => jsonNumbers v ∧ jsonNumbersMembers ms
end

theorem hexDigitLower_value (n : Nat) (h : n < 16) : _root_.Spec.hexDigitValue (hexDigitLower n) = some n := by
  have : n = 0 ∨ n = 1 ∨ n = 2 ∨ n = 3 ∨ n = 4 ∨ n = 5 ∨ n = 6 ∨ n = 7 ∨ n = 8 ∨ n = 9 ∨ n = 10 ∨ n = 11 ∨ n = 12 ∨ n = 13 ∨
      n = 14 ∨ n = 15 := by omega
  rcases this with rfl | rfl | rfl | rfl | rfl | rfl | rfl | rfl | rfl | rfl | rfl | rfl | rfl | rfl | rfl | rfl <;> decide

theorem escaped_string (s : List Byte) : JsonString (s.flatMap escapeByte) s := by
  induction s with
  | nil => exact .nil
  | cons c s ih =>
    rw [List.flatMap_cons]
    unfold escapeByte
    split
    · rename_i h; subst h; exact .escape _ _ _ _ (by decide) ih
    split
    · rename_i h; subst h; exact .escape _ _ _ _ (by decide) ih
    split
    · rename_i h; subst h; exact .escape _ _ _ _ (by decide) ih
    split
    · rename_i h; subst h; exact .escape _ _ _ _ (by decide) ih
    split
    · rename_i h; subst h; exact .escape _ _ _ _ (by decide) ih
    split
    · rename_i h; subst h; exact .escape _ _ _ _ (by decide) ih
    split
    · rename_i h; subst h; exact .escape _ _ _ _ (by decide) ih
    split
    · rename_i h
      have hu : _root_.Spec.utf8 c.toNat = [c] := by
        unfold _root_.Spec.utf8
        rw [if_pos (by omega)]
        simp
      have := JsonString.unicode [0x30#8, 0x30#8, hexDigitLower (c.toNat / 16), hexDigitLower (c.toNat % 16)] c.toNat _ _
        ⟨0, 0, c.toNat / 16, c.toNat % 16, by
          rw [List.map_cons, List.map_cons, List.map_cons, List.map_cons, hexDigitLower_value _ (by omega),
            hexDigitLower_value _ (by omega)]
          rfl, by omega⟩ (.inl (by omega)) ih
      rw [hu] at this
      exact this
    · rename_i h1 h2 _ _ _ _ _ h8
      exact .plain c _ _ (by omega) h1 h2 ih

theorem newline_space (d : Nat) : JsonSpace (jsonNewline d) := by
  intro c hc
  unfold jsonNewline at hc
  rcases List.mem_cons.1 hc with rfl | hc
  · decide
  · rw [List.eq_of_mem_replicate hc]; decide

theorem blank_space : JsonSpace [0x20#8] := by intro c hc; rw [List.mem_singleton.1 hc]; decide

theorem nil_space : JsonSpace [] := fun _ h => absurd h List.not_mem_nil

theorem colon_word : word ": " = [0x3A#8, 0x20#8] := rfl

mutual
theorem pretty_reads (d : Nat) : (v : Json) → jsonNumbers v → JsonReads .value (jsonPretty d v) v
  | .null, _ => by rw [jsonPretty]; exact .null
  | .bool true, _ => by rw [jsonPretty]; exact .true
  | .bool false, _ => by rw [jsonPretty]; exact .false
  | .num lit, h => by rw [jsonPretty]; exact .num lit (by simpa [jsonNumbers] using h)
  | .str text, _ => by rw [jsonPretty]; exact .str _ _ (escaped_string text)
  | .arr [], _ => by rw [jsonPretty]; exact .emptyArr [] nil_space
  | .arr (v :: vs), h => by
    rw [jsonPretty]
    refine .arr _ _ ?_
    rw [List.append_assoc, List.append_assoc]
    exact items_reads (d + 1) d v vs (by simpa [jsonNumbers, jsonNumbersItems] using h)
  | .obj [], _ => by rw [jsonPretty]; exact .emptyObj [] nil_space
  | .obj ((key, v) :: ms), h => by
    rw [jsonPretty]
    refine .obj _ _ ?_
    exact members_reads (d + 1) d key v ms (by simpa [jsonNumbers, jsonNumbersMembers] using h)
termination_by v => sizeOf v
theorem items_reads (d e : Nat) (v : Json) : (vs : List Json) → jsonNumbers v ∧ jsonNumbersItems vs →
    JsonReads .items (jsonNewline d ++ (jsonPretty d v ++ (jsonPrettyItems d vs ++ jsonNewline e))) (.arr (v :: vs))
  | [], h => by
    rw [jsonPrettyItems, List.nil_append]
    exact .lastItem _ _ _ _ (newline_space _) (newline_space _) (pretty_reads d v h.1)
  | u :: vs, h => by
    have := items_reads d e u vs (by simpa [jsonNumbersItems] using h.2)
    have := JsonReads.item _ _ [] _ _ _ (newline_space d) nil_space (pretty_reads d v h.1) this
    rw [jsonPrettyItems]
    simpa using this
termination_by vs => 1 + sizeOf v + sizeOf vs
theorem members_reads (d e : Nat) (key : List Byte) (v : Json) : (ms : List (List Byte × Json)) →
    jsonNumbers v ∧ jsonNumbersMembers ms →
    JsonReads .members (jsonNewline d ++ jsonQuoted key ++ word ": " ++ jsonPretty d v ++ jsonPrettyMembers d ms ++ jsonNewline e)
      (.obj ((key, v) :: ms))
  | [], h => by
    have := JsonReads.lastMember _ _ _ [] _ _ _ _ (newline_space d) nil_space blank_space (newline_space e)
      (escaped_string key) (pretty_reads d v h.1)
    rw [jsonPrettyMembers, colon_word, jsonQuoted]
    simpa using this
  | (key', u) :: ms, h => by
    have := members_reads d e key' u ms (by simpa [jsonNumbersMembers] using h.2)
    have := JsonReads.member _ _ _ [] _ _ [] _ _ _ (newline_space d) nil_space blank_space nil_space
      (escaped_string key) (pretty_reads d v h.1) this
    rw [jsonPrettyMembers, colon_word, jsonQuoted]
    rw [colon_word] at this
    simpa using this
termination_by ms => 1 + sizeOf v + sizeOf ms
end

/-- What is printed is JSON and denotes the value that was to be printed. -/
theorem printJson_text (v : Json) (h : jsonNumbers v) : JsonText (printJson v) v :=
  ⟨[], _, [0x0A#8], nil_space, by intro c hc; rw [List.mem_singleton.1 hc]; decide, pretty_reads 0 v h, rfl⟩

theorem decimal_json (n : Nat) : JsonNumber (decimal n) := by
  have hd : JsonDigits (decimal n) := by
    refine ⟨?_, decimal_digits n⟩
    unfold decimal
    intro h
    exact Nat.toDigits_ne_nil (List.map_eq_nil_iff.1 h)
  refine ⟨[], decimal n, [], [], by simp, .inl rfl, ?_, .inl rfl, .inl rfl⟩
  by_cases h0 : n = 0
  · subst h0; exact .inl rfl
  · refine .inr ⟨hd, ?_⟩
    clear hd
    have key : ∀ k m, m ≤ k → m ≠ 0 → (decimal m).head? ≠ some 0x30#8 := by
      intro k
      induction k with
      | zero => intro m hm h; omega
      | succ k ih =>
        intro m hm h
        by_cases h10 : m < 10
        · unfold decimal
          rw [Nat.toDigits_of_lt_base h10]
          have : m = 1 ∨ m = 2 ∨ m = 3 ∨ m = 4 ∨ m = 5 ∨ m = 6 ∨ m = 7 ∨ m = 8 ∨ m = 9 := by omega
          rcases this with rfl | rfl | rfl | rfl | rfl | rfl | rfl | rfl | rfl <;> decide
        · unfold decimal
          rw [Nat.toDigits_of_base_le (by decide) (by omega), List.map_append, List.head?_append]
          have := ih (m / 10) (by omega) (by omega)
          unfold decimal at this
          cases hh : ((Nat.toDigits 10 (m / 10)).map fun c => BitVec.ofNat 8 c.toNat).head? with
          | none =>
            rw [List.head?_eq_none_iff] at hh
            exact absurd (List.map_eq_nil_iff.1 hh) Nat.toDigits_ne_nil
          | some c => rw [hh] at this; exact this
    exact key n n (Nat.le_refl _) h0

/-! ## Objects -/

theorem insertMember_find (key : List Byte) (v : Json) (k : List Byte) : ∀ ms : List (List Byte × Json),
    (insertMember key v ms).find? (fun m => m.1 == k) = if key = k then some (key, v) else ms.find? (fun m => m.1 == k)
  | [] => by
    unfold insertMember
    by_cases h : key = k
    · simp [h]
    · simp [h]
  | m :: ms => by
    have ih := insertMember_find key v k ms
    unfold insertMember
    by_cases h1 : key = m.1
    · rw [if_pos h1]
      by_cases h : key = k
      · simp [h]
      · rw [if_neg h, List.find?_cons_of_neg (by simpa using h), List.find?_cons_of_neg (by rw [← h1]; simpa using h)]
    · rw [if_neg h1]
      by_cases h2 : nameLe key m.1 = true
      · rw [if_pos h2]
        by_cases h : key = k
        · simp [h]
        · rw [if_neg h, List.find?_cons_of_neg (by simpa using h)]
      · rw [if_neg h2]
        by_cases hm : m.1 = k
        · rw [List.find?_cons_of_pos (by simpa using hm), List.find?_cons_of_pos (by simpa using hm), if_neg (by rw [← hm]; exact h1)]
        · rw [List.find?_cons_of_neg (by simpa using hm), ih, List.find?_cons_of_neg (by simpa using hm)]

theorem foldl_insert_find (k : List Byte) (v : Json) : ∀ (ms acc : List (List Byte × Json)), (ms.map (·.1)).Nodup →
    ((k, v) ∈ ms ∨ ((∀ m ∈ ms, m.1 ≠ k) ∧ acc.find? (fun m => m.1 == k) = some (k, v))) →
    (ms.foldl (fun ms m => insertMember m.1 m.2 ms) acc).find? (fun m => m.1 == k) = some (k, v)
  | [], acc, _, h => by
    rcases h with h | h
    · cases h
    · exact h.2
  | m :: ms, acc, hn, h => by
    rw [List.foldl_cons]
    rw [List.map_cons, List.nodup_cons] at hn
    refine foldl_insert_find k v ms _ hn.2 ?_
    rcases h with h | ⟨h1, h2⟩
    · rcases List.mem_cons.1 h with rfl | h
      · right
        refine ⟨fun x hx he => hn.1 ?_, by rw [insertMember_find, if_pos rfl]⟩
        exact List.mem_map.2 ⟨x, hx, he⟩
      · exact .inl h
    · right
      refine ⟨fun x hx => h1 x (List.mem_cons_of_mem _ hx), ?_⟩
      rw [insertMember_find, if_neg (h1 m List.mem_cons_self)]
      exact h2

/-- A member of an object is found by its name. -/
theorem jsonObject_member {ms : List (List Byte × Json)} (hn : (ms.map (·.1)).Nodup) {k : List Byte} {v : Json}
    (h : (k, v) ∈ ms) : (jsonObject ms).member k = some v := by
  unfold jsonObject Json.member
  simp only
  rw [foldl_insert_find k v ms [] hn (.inl h)]
  rfl

/-- A name that is not there. -/
theorem jsonObject_none {ms : List (List Byte × Json)} {k : List Byte} (h : ∀ m ∈ ms, m.1 ≠ k) :
    (jsonObject ms).member k = none := by
  have key : ∀ (ms acc : List (List Byte × Json)), (∀ m ∈ ms, m.1 ≠ k) → acc.find? (fun m => m.1 == k) = none →
      (ms.foldl (fun ms m => insertMember m.1 m.2 ms) acc).find? (fun m => m.1 == k) = none := by
    intro ms
    induction ms with
    | nil => intro acc _ h; exact h
    | cons m ms ih =>
      intro acc h1 h2
      exact ih _ (fun x hx => h1 x (List.mem_cons_of_mem _ hx)) (by rw [insertMember_find, if_neg (h1 m List.mem_cons_self)]; exact h2)
  unfold jsonObject Json.member
  simp only
  rw [key ms [] h rfl]
  rfl

theorem insertMember_mem {key : List Byte} {v : Json} {x : List Byte × Json} : ∀ {ms : List (List Byte × Json)},
    x ∈ insertMember key v ms → x = (key, v) ∨ x ∈ ms
  | [], h => by unfold insertMember at h; exact .inl (List.mem_singleton.1 h)
  | m :: ms, h => by
    unfold insertMember at h
    split at h
    · rcases List.mem_cons.1 h with h | h
      · exact .inl h
      · exact .inr (List.mem_cons_of_mem _ h)
    · split at h
      · exact List.mem_cons.1 h
      · rcases List.mem_cons.1 h with h | h
        · exact .inr (h ▸ List.mem_cons_self)
        · rcases insertMember_mem h with h | h
          · exact .inl h
          · exact .inr (List.mem_cons_of_mem _ h)

theorem numbersItems_iff : ∀ vs : List Json, jsonNumbersItems vs ↔ ∀ v ∈ vs, jsonNumbers v
  | [] => by simp [jsonNumbersItems]
  | v :: vs => by simp [jsonNumbersItems, numbersItems_iff vs]

theorem numbersMembers_iff : ∀ ms : List (List Byte × Json), jsonNumbersMembers ms ↔ ∀ m ∈ ms, jsonNumbers m.2
  | [] => by simp [jsonNumbersMembers]
  | (k, v) :: ms => by simp [jsonNumbersMembers, numbersMembers_iff ms]

theorem jsonObject_numbers {ms : List (List Byte × Json)} (h : ∀ m ∈ ms, jsonNumbers m.2) : jsonNumbers (jsonObject ms) := by
  have key : ∀ (ms acc : List (List Byte × Json)), (∀ m ∈ ms, jsonNumbers m.2) → (∀ m ∈ acc, jsonNumbers m.2) →
      ∀ m ∈ ms.foldl (fun ms m => insertMember m.1 m.2 ms) acc, jsonNumbers m.2 := by
    intro ms
    induction ms with
    | nil => intro acc _ h; exact h
    | cons m ms ih =>
      intro acc h1 h2
      refine ih _ (fun x hx => h1 x (List.mem_cons_of_mem _ hx)) fun x hx => ?_
      rcases insertMember_mem hx with rfl | hx
      · exact h1 m List.mem_cons_self
      · exact h2 x hx
  unfold jsonObject
  rw [jsonNumbers, numbersMembers_iff]
  exact key ms [] h fun _ h => absurd h List.not_mem_nil

theorem jsonNat_numbers (n : Nat) : jsonNumbers (jsonNat n) := by unfold jsonNat; rw [jsonNumbers]; exact decimal_json n

theorem jsonBool_numbers (b : Bool) : jsonNumbers (.bool b) := by simp [jsonNumbers]

theorem jsonStr_numbers (s : List Byte) : jsonNumbers (.str s) := by simp [jsonNumbers]

theorem jsonOption_numbers (f : α → Json) (hf : ∀ x, jsonNumbers (f x)) (x : Option α) : jsonNumbers (jsonOption f x) := by
  cases x with
  | none => simp [jsonOption, jsonNumbers]
  | some x => exact hf x

theorem jsonArr_numbers {vs : List Json} (h : ∀ v ∈ vs, jsonNumbers v) : jsonNumbers (.arr vs) := by
  rw [jsonNumbers, numbersItems_iff]; exact h

end Mopaq
