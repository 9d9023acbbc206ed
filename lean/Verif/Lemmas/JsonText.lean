import Verif.Spec.JsonText

/-! # JSON texts are unambiguous -/

namespace Mopaq

open _root_.Spec

/-- The characters of numbers. -/
def numChar (c : BitVec 8) : Prop :=
  (0x30 ≤ c.toNat ∧ c.toNat ≤ 0x39) ∨ c = 0x2D#8 ∨ c = 0x2B#8 ∨ c = 0x2E#8 ∨ c = 0x65#8 ∨ c = 0x45#8

theorem jsonNumber_chars {lit : List (BitVec 8)} (h : JsonNumber lit) : ∀ c ∈ lit, numChar c := by
  obtain ⟨minus, int, frac, exp, rfl, hm, hi, hf, he⟩ := h
  intro c hc
  simp only [List.mem_append] at hc
  rcases hc with ((hc | hc) | hc) | hc
  · rcases hm with rfl | rfl
    · cases hc
    · exact .inr (.inl (List.mem_singleton.1 hc))
  · rcases hi with rfl | ⟨hi, _⟩
    · rw [List.mem_singleton.1 hc]; exact .inl (by decide)
    · exact .inl (hi.2 c hc)
  · rcases hf with rfl | ⟨ds, hd, rfl⟩
    · cases hc
    · rcases List.mem_cons.1 hc with rfl | hc
      · exact .inr (.inr (.inr (.inl rfl)))
      · exact .inl (hd.2 c hc)
  · rcases he with rfl | ⟨e, sign, ds, hd, he, hs, rfl⟩
    · cases hc
    · simp only [List.mem_cons, List.cons_append, List.mem_append] at hc
      rcases hc with rfl | hc | hc
      · rcases he with rfl | rfl
        · exact .inr (.inr (.inr (.inr (.inl rfl))))
        · exact .inr (.inr (.inr (.inr (.inr rfl))))
      · rcases hs with rfl | rfl | rfl
        · cases hc
        · exact .inr (.inr (.inl (List.mem_singleton.1 hc)))
        · exact .inr (.inl (List.mem_singleton.1 hc))
      · exact .inl (hd.2 c hc)

/-- A number begins with a digit or a minus sign. -/
theorem jsonNumber_first {lit : List (BitVec 8)} (h : JsonNumber lit) :
    ∃ c rest, lit = c :: rest ∧ ((0x30 ≤ c.toNat ∧ c.toNat ≤ 0x39) ∨ c = 0x2D#8) := by
  obtain ⟨minus, int, frac, exp, rfl, hm, hi, _, _⟩ := h
  rcases hm with rfl | rfl
  · rcases hi with rfl | ⟨⟨h1, h2⟩, _⟩
    · exact ⟨_, _, rfl, .inl (by decide)⟩
    · cases int with
      | nil => exact absurd rfl h1
      | cons c int => exact ⟨c, _, rfl, .inl (h2 c List.mem_cons_self)⟩
  · exact ⟨_, _, rfl, .inr rfl⟩

theorem maximal {p : BitVec 8 → Prop} : ∀ {a b r s : List (BitVec 8)}, (∀ c ∈ a, p c) → (∀ c ∈ b, p c) →
    (∀ c, r.head? = some c → ¬ p c) → (∀ c, s.head? = some c → ¬ p c) → a ++ r = b ++ s → a = b ∧ r = s
  | [], [], _, _, _, _, _, _, h => ⟨rfl, h⟩
  | [], c :: b, r, s, _, hb, hr, _, h => by
    have h : r = c :: (b ++ s) := h
    exact absurd (hb c List.mem_cons_self) (hr c (by rw [h]; rfl))
  | c :: a, [], r, s, ha, _, _, hs, h => by
    have h : c :: (a ++ r) = s := h
    exact absurd (ha c List.mem_cons_self) (hs c (by rw [← h]; rfl))
  | c :: a, d :: b, r, s, ha, hb, hr, hs, h => by
    have h : c :: (a ++ r) = d :: (b ++ s) := h
    injection h with h1 h2
    obtain ⟨h3, h4⟩ := maximal (fun x hx => ha x (List.mem_cons_of_mem _ hx)) (fun x hx => hb x (List.mem_cons_of_mem _ hx))
      hr hs h2
    exact ⟨by rw [h1, h3], h4⟩

/-- Blank characters. -/
def blank (c : BitVec 8) : Prop := c ∈ [0x20#8, 0x09#8, 0x0A#8, 0x0D#8]

theorem space_unique {a b r s : List (BitVec 8)} (ha : JsonSpace a) (hb : JsonSpace b)
    (hr : ∀ c, r.head? = some c → ¬ blank c) (hs : ∀ c, s.head? = some c → ¬ blank c) (h : a ++ r = b ++ s) : a = b ∧ r = s :=
  maximal ha hb hr hs h

/-- What a value begins with. -/
def startsValue (c : BitVec 8) : Prop :=
  c = 0x6E#8 ∨ c = 0x74#8 ∨ c = 0x66#8 ∨ c = 0x22#8 ∨ c = 0x5B#8 ∨ c = 0x7B#8 ∨ c = 0x2D#8 ∨ (0x30 ≤ c.toNat ∧ c.toNat ≤ 0x39)

theorem reads_first {lit : List (BitVec 8)} {v : Json} (h : JsonReads .value lit v) :
    ∃ c rest, lit = c :: rest ∧ startsValue c := by
  cases h with
  | null => exact ⟨_, _, rfl, by unfold startsValue; simp⟩
  | true => exact ⟨_, _, rfl, by unfold startsValue; simp⟩
  | false => exact ⟨_, _, rfl, by unfold startsValue; simp⟩
  | num _ h =>
    obtain ⟨c, rest, h1, h2⟩ := jsonNumber_first h
    refine ⟨c, rest, h1, ?_⟩
    unfold startsValue
    rcases h2 with h2 | h2
    · exact .inr (.inr (.inr (.inr (.inr (.inr (.inr h2))))))
    · exact .inr (.inr (.inr (.inr (.inr (.inr (.inl h2))))))
  | str => exact ⟨_, _, rfl, by unfold startsValue; simp⟩
  | emptyArr => exact ⟨_, _, rfl, by unfold startsValue; simp⟩
  | arr => exact ⟨_, _, rfl, by unfold startsValue; simp⟩
  | emptyObj => exact ⟨_, _, rfl, by unfold startsValue; simp⟩
  | obj => exact ⟨_, _, rfl, by unfold startsValue; simp⟩

theorem startsValue_not_blank {c : BitVec 8} (h : startsValue c) : ¬ blank c := by
  unfold blank
  intro hb
  simp only [List.mem_cons, List.not_mem_nil, or_false] at hb
  unfold startsValue at h
  rcases hb with rfl | rfl | rfl | rfl <;> revert h <;> decide

theorem startsValue_not_close {c : BitVec 8} (h : startsValue c) : c ≠ 0x5D#8 ∧ c ≠ 0x7D#8 ∧ c ≠ 0x2C#8 ∧ c ≠ 0x3A#8 := by
  unfold startsValue at h
  refine ⟨?_, ?_, ?_, ?_⟩ <;> rintro rfl <;> revert h <;> decide

theorem hex4_length {hex : List (BitVec 8)} {n : Nat} (h : JsonHex hex n) : hex.length = 4 := by
  obtain ⟨a, b, c, d, h, _⟩ := h
  have := congrArg List.length h
  simpa using this

theorem hex4_unique {hex : List (BitVec 8)} {n m : Nat} (h : JsonHex hex n) (h' : JsonHex hex m) : n = m := by
  obtain ⟨a, b, c, d, h, rfl⟩ := h
  obtain ⟨a', b', c', d', h', rfl⟩ := h'
  rw [h] at h'
  simp only [List.cons.injEq, Option.some.injEq, and_true] at h'
  obtain ⟨rfl, rfl, rfl, rfl⟩ := h'
  rfl

theorem escapes_unique : ∀ x ∈ jsonEscapes, ∀ y ∈ jsonEscapes, x.1 = y.1 → x.2 = y.2 := by decide

theorem escapes_not_u : ∀ x ∈ jsonEscapes, x.1 ≠ 0x75#8 := by decide

/-- A string ends at the first quotation mark that is not escaped, and stands for one text. -/
theorem string_unique {a x : List (BitVec 8)} (ha : JsonString a x) : ∀ {b y r s : List (BitVec 8)}, JsonString b y →
    a ++ 0x22#8 :: r = b ++ 0x22#8 :: s → a = b ∧ x = y ∧ r = s := by
  induction ha with
  | nil =>
    intro b y r s hb h
    cases hb with
    | nil => exact ⟨rfl, rfl, (List.cons.inj h).2⟩
    | plain c lit text h1 h2 h3 h4 => exact absurd (List.cons.inj h).1.symm h2
    | escape c d lit text => exact absurd (List.cons.inj h).1 (by decide)
    | unicode => exact absurd (List.cons.inj h).1 (by decide)
    | surrogates => exact absurd (List.cons.inj h).1 (by decide)
  | plain c lit text h1 h2 h3 _ ih =>
    intro b y r s hb h
    cases hb with
    | nil => exact absurd (List.cons.inj h).1 h2
    | plain c' lit' text' h1' h2' h3' h4' =>
      obtain ⟨h5, h6⟩ := List.cons.inj h
      obtain ⟨h7, h8, h9⟩ := ih h4' h6
      exact ⟨by rw [h5, h7], by rw [h5, h8], h9⟩
    | escape c' d lit' text' => exact absurd (List.cons.inj h).1 h3
    | unicode => exact absurd (List.cons.inj h).1 h3
    | surrogates => exact absurd (List.cons.inj h).1 h3
  | escape c d lit text hm _ ih =>
    intro b y r s hb h
    cases hb with
    | nil => exact absurd (List.cons.inj h).1 (by decide)
    | plain c' lit' text' h1' h2' h3' h4' => exact absurd (List.cons.inj h).1.symm h3'
    | escape c' d' lit' text' hm' h4' =>
      obtain ⟨_, h6⟩ := List.cons.inj h
      obtain ⟨h5, h6⟩ := List.cons.inj h6
      obtain ⟨h7, h8, h9⟩ := ih h4' h6
      have : d = d' := escapes_unique _ hm _ hm' h5
      exact ⟨by rw [h5, h7], by rw [this, h8], h9⟩
    | unicode =>
      obtain ⟨_, h6⟩ := List.cons.inj h
      exact absurd (List.cons.inj h6).1 (escapes_not_u _ hm)
    | surrogates =>
      obtain ⟨_, h6⟩ := List.cons.inj h
      exact absurd (List.cons.inj h6).1 (escapes_not_u _ hm)
  | unicode hex code lit text hh hc _ ih =>
    intro b y r s hb h
    cases hb with
    | nil => exact absurd (List.cons.inj h).1 (by decide)
    | plain c' lit' text' h1' h2' h3' h4' => exact absurd (List.cons.inj h).1.symm h3'
    | escape c' d' lit' text' hm' h4' =>
      obtain ⟨_, h6⟩ := List.cons.inj h
      exact absurd (List.cons.inj h6).1.symm (escapes_not_u _ hm')
    | unicode hex' code' lit' text' hh' hc' h4' =>
      simp only [List.cons_append, List.cons.injEq, true_and, List.append_assoc] at h
      obtain ⟨h5, h6⟩ := List.append_inj h (by rw [hex4_length hh, hex4_length hh'])
      subst h5
      obtain ⟨h7, h8, h9⟩ := ih h4' h6
      rw [hex4_unique hh hh', h7, h8]
      exact ⟨rfl, rfl, h9⟩
    | surrogates hex' high hex'' low lit' text' hh' h1' h2' hh'' h3' h4' h5' =>
      simp only [List.cons_append, List.cons.injEq, true_and, List.append_assoc] at h
      obtain ⟨h5, h6⟩ := List.append_inj h (by rw [hex4_length hh, hex4_length hh'])
      subst h5
      have := hex4_unique hh hh'
      omega
  | surrogates hex high hex2 low lit text hh h1 h2 hh2 h3 h4 _ ih =>
    intro b y r s hb h
    cases hb with
    | nil => exact absurd (List.cons.inj h).1 (by decide)
    | plain c' lit' text' h1' h2' h3' h4' => exact absurd (List.cons.inj h).1.symm h3'
    | escape c' d' lit' text' hm' h4' =>
      obtain ⟨_, h6⟩ := List.cons.inj h
      exact absurd (List.cons.inj h6).1.symm (escapes_not_u _ hm')
    | unicode hex' code' lit' text' hh' hc' h4' =>
      simp only [List.cons_append, List.cons.injEq, true_and, List.append_assoc] at h
      obtain ⟨h5, h6⟩ := List.append_inj h (by rw [hex4_length hh, hex4_length hh'])
      subst h5
      have := hex4_unique hh hh'
      omega
    | surrogates hex' high' hex2' low' lit' text' hh' h1' h2' hh2' h3' h4' h5' =>
      simp only [List.cons_append, List.cons.injEq, true_and, List.append_assoc] at h
      obtain ⟨h5, h6⟩ := List.append_inj h (by rw [hex4_length hh, hex4_length hh'])
      subst h5
      simp only [List.cons.injEq, true_and] at h6
      obtain ⟨h7, h8⟩ := List.append_inj h6 (by rw [hex4_length hh2, hex4_length hh2'])
      subst h7
      obtain ⟨h7, h8, h9⟩ := ih h5' h8
      rw [hex4_unique hh hh', hex4_unique hh2 hh2', h7, h8]
      exact ⟨rfl, rfl, h9⟩

/-- What may follow a piece of text. -/
def endsPart : JsonPart → List (BitVec 8) → Prop
  | .value, r => ∀ c, r.head? = some c → ¬ numChar c
  | .items, r => r.head? = some 0x5D#8
  | .members, r => r.head? = some 0x7D#8

theorem head_blank {w r : List (BitVec 8)} (hw : JsonSpace w) {p : BitVec 8 → Prop} (hb : ∀ c, blank c → p c)
    (hr : ∀ c, r.head? = some c → p c) : ∀ c, (w ++ r).head? = some c → p c := by
  cases w with
  | nil => exact hr
  | cons c w =>
    intro d hd
    cases Option.some.inj (show some c = some d from hd)
    exact hb _ (hw _ List.mem_cons_self)

theorem blank_not_num {c : BitVec 8} (h : blank c) : ¬ numChar c := by
  unfold blank at h
  simp only [List.mem_cons, List.not_mem_nil, or_false] at h
  rcases h with rfl | rfl | rfl | rfl <;> unfold numChar <;> decide

theorem head_eq {d : BitVec 8} {r : List (BitVec 8)} {p : BitVec 8 → Prop} (h : p d) :
    ∀ c, (d :: r).head? = some c → p c := by
  intro c hc
  cases Option.some.inj (show some d = some c from hc)
  exact h

theorem head_of {d : BitVec 8} {r : List (BitVec 8)} {p : BitVec 8 → Prop} (hr : r.head? = some d) (h : p d) :
    ∀ c, r.head? = some c → p c := by
  intro c hc
  rw [hr] at hc
  cases Option.some.inj hc
  exact h

theorem head_value {lit r : List (BitVec 8)} {v : Json} (h : JsonReads .value lit v) :
    ∀ c, (lit ++ r).head? = some c → ¬ blank c := by
  obtain ⟨d, rest, rfl, hd⟩ := reads_first h
  exact head_eq (startsValue_not_blank hd)

/-- The pieces of a text are found again in only one way. -/
theorem reads_unique {part : JsonPart} {a : List (BitVec 8)} {v : Json} (ha : JsonReads part a v) :
    ∀ {b : List (BitVec 8)} {u : Json} {r s : List (BitVec 8)}, JsonReads part b u → endsPart part r → endsPart part s →
      a ++ r = b ++ s → a = b ∧ v = u ∧ r = s := by
  induction ha with
  | null =>
    intro b u r s hb hr hs h
    cases hb with
    | null => simp at h; exact ⟨rfl, rfl, h⟩
    | num _ hn => exfalso; obtain ⟨c, rest, rfl, h2⟩ := jsonNumber_first hn; simp at h; rw [← h.1] at h2; revert h2; decide
    | _ => simp at h
  | true =>
    intro b u r s hb hr hs h
    cases hb with
    | true => simp at h; exact ⟨rfl, rfl, h⟩
    | num _ hn => exfalso; obtain ⟨c, rest, rfl, h2⟩ := jsonNumber_first hn; simp at h; rw [← h.1] at h2; revert h2; decide
    | _ => simp at h
  | false =>
    intro b u r s hb hr hs h
    cases hb with
    | false => simp at h; exact ⟨rfl, rfl, h⟩
    | num _ hn => exfalso; obtain ⟨c, rest, rfl, h2⟩ := jsonNumber_first hn; simp at h; rw [← h.1] at h2; revert h2; decide
    | _ => simp at h
  | num lit hn =>
    intro b u r s hb hr hs h
    cases hb with
    | num _ hn' =>
      obtain ⟨h1, h2⟩ := maximal (jsonNumber_chars hn) (jsonNumber_chars hn') hr hs h
      exact ⟨h1, by rw [h1], h2⟩
    | _ => exfalso; obtain ⟨c, rest, rfl, h2⟩ := jsonNumber_first hn; simp at h; rw [h.1] at h2; revert h2; decide
  | str lit text hstr =>
    intro b u r s hb hr hs h
    cases hb with
    | str lit' text' hstr' =>
      simp only [List.cons_append, List.nil_append, List.append_assoc, List.cons.injEq, true_and] at h
      obtain ⟨h1, h2, h3⟩ := string_unique hstr hstr' h
      exact ⟨by rw [h1], by rw [h2], h3⟩
    | num _ hn => exfalso; obtain ⟨c, rest, rfl, h2⟩ := jsonNumber_first hn; simp at h; rw [← h.1] at h2; revert h2; decide
    | _ => simp at h
  | emptyArr w hw =>
    intro b u r s hb hr hs h
    cases hb with
    | emptyArr w' hw' =>
      simp only [List.cons_append, List.nil_append, List.append_assoc, List.cons.injEq, true_and] at h
      obtain ⟨h1, h2⟩ := space_unique hw hw' (head_eq (by unfold blank; decide)) (head_eq (by unfold blank; decide)) h
      exact ⟨by rw [h1], rfl, (List.cons.inj h2).2⟩
    | arr body vs hb =>
      exfalso
      simp only [List.cons_append, List.nil_append, List.append_assoc, List.cons.injEq, true_and] at h
      cases hb with
      | lastItem w1 lit w2 v h1 h2 h3 =>
        simp only [List.append_assoc] at h
        obtain ⟨_, h4⟩ := space_unique hw h1 (head_eq (by unfold blank; decide)) (head_value h3) h
        obtain ⟨d, rest, rfl, hd⟩ := reads_first h3
        exact (startsValue_not_close hd).1 (List.cons.inj h4).1.symm
      | item w1 lit w2 rest v vs h1 h2 h3 =>
        simp only [List.append_assoc] at h
        obtain ⟨_, h4⟩ := space_unique hw h1 (head_eq (by unfold blank; decide)) (head_value h3) h
        obtain ⟨d, rest, rfl, hd⟩ := reads_first h3
        exact (startsValue_not_close hd).1 (List.cons.inj h4).1.symm
    | num _ hn => exfalso; obtain ⟨c, rest, rfl, h2⟩ := jsonNumber_first hn; simp at h; rw [← h.1] at h2; revert h2; decide
    | _ => simp at h
  | arr body vs hbody ih =>
    intro b u r s hb hr hs h
    cases hb with
    | emptyArr w hw =>
      exfalso
      simp only [List.cons_append, List.nil_append, List.append_assoc, List.cons.injEq, true_and] at h
      cases hbody with
      | lastItem w1 lit w2 v h1 h2 h3 =>
        simp only [List.append_assoc] at h
        obtain ⟨_, h4⟩ := space_unique h1 hw (head_value h3) (head_eq (by unfold blank; decide)) h
        obtain ⟨d, rest, rfl, hd⟩ := reads_first h3
        exact (startsValue_not_close hd).1 (List.cons.inj h4).1
      | item w1 lit w2 rest v vs h1 h2 h3 =>
        simp only [List.append_assoc] at h
        obtain ⟨_, h4⟩ := space_unique h1 hw (head_value h3) (head_eq (by unfold blank; decide)) h
        obtain ⟨d, rest, rfl, hd⟩ := reads_first h3
        exact (startsValue_not_close hd).1 (List.cons.inj h4).1
    | arr body' vs' hbody' =>
      simp only [List.cons_append, List.nil_append, List.append_assoc, List.cons.injEq, true_and] at h
      obtain ⟨h1, h2, h3⟩ := ih hbody' (show endsPart .items (0x5D#8 :: r) from rfl) (show endsPart .items (0x5D#8 :: s) from rfl) h
      exact ⟨by rw [h1], h2, (List.cons.inj h3).2⟩
    | num _ hn => exfalso; obtain ⟨c, rest, rfl, h2⟩ := jsonNumber_first hn; simp at h; rw [← h.1] at h2; revert h2; decide
    | _ => simp at h
  | emptyObj w hw =>
    intro b u r s hb hr hs h
    cases hb with
    | emptyObj w' hw' =>
      simp only [List.cons_append, List.nil_append, List.append_assoc, List.cons.injEq, true_and] at h
      obtain ⟨h1, h2⟩ := space_unique hw hw' (head_eq (by unfold blank; decide)) (head_eq (by unfold blank; decide)) h
      exact ⟨by rw [h1], rfl, (List.cons.inj h2).2⟩
    | obj body vs hb =>
      exfalso
      simp only [List.cons_append, List.nil_append, List.append_assoc, List.cons.injEq, true_and] at h
      cases hb with
      | lastMember w1 key name w2 w3 lit w4 v h1 =>
        simp only [List.append_assoc, List.cons_append] at h
        obtain ⟨_, h4⟩ := space_unique hw h1 (head_eq (by unfold blank; decide)) (head_eq (by unfold blank; decide)) h
        exact absurd (List.cons.inj h4).1 (by decide)
      | member w1 key name w2 w3 lit w4 rest v ms h1 =>
        simp only [List.append_assoc, List.cons_append] at h
        obtain ⟨_, h4⟩ := space_unique hw h1 (head_eq (by unfold blank; decide)) (head_eq (by unfold blank; decide)) h
        exact absurd (List.cons.inj h4).1 (by decide)
    | num _ hn => exfalso; obtain ⟨c, rest, rfl, h2⟩ := jsonNumber_first hn; simp at h; rw [← h.1] at h2; revert h2; decide
    | _ => simp at h
  | obj body vs hbody ih =>
    intro b u r s hb hr hs h
    cases hb with
    | emptyObj w hw =>
      exfalso
      simp only [List.cons_append, List.nil_append, List.append_assoc, List.cons.injEq, true_and] at h
      cases hbody with
      | lastMember w1 key name w2 w3 lit w4 v h1 =>
        simp only [List.append_assoc, List.cons_append] at h
        obtain ⟨_, h4⟩ := space_unique h1 hw (head_eq (by unfold blank; decide)) (head_eq (by unfold blank; decide)) h
        exact absurd (List.cons.inj h4).1 (by decide)
      | member w1 key name w2 w3 lit w4 rest v ms h1 =>
        simp only [List.append_assoc, List.cons_append] at h
        obtain ⟨_, h4⟩ := space_unique h1 hw (head_eq (by unfold blank; decide)) (head_eq (by unfold blank; decide)) h
        exact absurd (List.cons.inj h4).1 (by decide)
    | obj body' vs' hbody' =>
      simp only [List.cons_append, List.nil_append, List.append_assoc, List.cons.injEq, true_and] at h
      obtain ⟨h1, h2, h3⟩ := ih hbody' (show endsPart .members (0x7D#8 :: r) from rfl) (show endsPart .members (0x7D#8 :: s) from rfl) h
      exact ⟨by rw [h1], h2, (List.cons.inj h3).2⟩
    | num _ hn => exfalso; obtain ⟨c, rest, rfl, h2⟩ := jsonNumber_first hn; simp at h; rw [← h.1] at h2; revert h2; decide
    | _ => simp at h
  | lastItem w1 lit w2 v h1 h2 h3 ih =>
    intro b u r s hb hr hs h
    cases hb with
    | lastItem w1' lit' w2' v' h1' h2' h3' =>
      simp only [List.append_assoc] at h
      obtain ⟨h4, h5⟩ := space_unique h1 h1' (head_value h3) (head_value h3') h
      obtain ⟨h6, h7, h8⟩ := ih h3'
        (head_blank h2 (p := fun c => ¬ numChar c) (fun _ => blank_not_num) (head_of hr (by unfold numChar; decide)))
        (head_blank h2' (p := fun c => ¬ numChar c) (fun _ => blank_not_num) (head_of hs (by unfold numChar; decide))) h5
      obtain ⟨h9, h10⟩ := space_unique h2 h2' (head_of hr (by unfold blank; decide)) (head_of hs (by unfold blank; decide)) h8
      exact ⟨by rw [h4, h6, h9], by rw [h7], h10⟩
    | item w1' lit' w2' rest v' vs' h1' h2' h3' _ =>
      exfalso
      simp only [List.append_assoc, List.cons_append] at h
      obtain ⟨h4, h5⟩ := space_unique h1 h1' (head_value h3) (head_value h3') h
      obtain ⟨h6, h7, h8⟩ := ih h3'
        (head_blank h2 (p := fun c => ¬ numChar c) (fun _ => blank_not_num) (head_of hr (by unfold numChar; decide)))
        (head_blank h2' (p := fun c => ¬ numChar c) (fun _ => blank_not_num) (head_eq (by unfold numChar; decide))) h5
      obtain ⟨h9, h10⟩ := space_unique h2 h2' (head_of hr (by unfold blank; decide)) (head_eq (by unfold blank; decide)) h8
      rw [h10] at hr
      exact absurd (Option.some.inj hr) (by decide)
  | item w1 lit w2 rest v vs h1 h2 h3 _ ih ihr =>
    intro b u r s hb hr hs h
    cases hb with
    | lastItem w1' lit' w2' v' h1' h2' h3' =>
      exfalso
      simp only [List.append_assoc, List.cons_append] at h
      obtain ⟨h4, h5⟩ := space_unique h1 h1' (head_value h3) (head_value h3') h
      obtain ⟨h6, h7, h8⟩ := ih h3'
        (head_blank h2 (p := fun c => ¬ numChar c) (fun _ => blank_not_num) (head_eq (by unfold numChar; decide)))
        (head_blank h2' (p := fun c => ¬ numChar c) (fun _ => blank_not_num) (head_of hs (by unfold numChar; decide))) h5
      obtain ⟨h9, h10⟩ := space_unique h2 h2' (head_eq (by unfold blank; decide)) (head_of hs (by unfold blank; decide)) h8
      rw [← h10] at hs
      exact absurd (Option.some.inj hs) (by decide)
    | item w1' lit' w2' rest' v' vs' h1' h2' h3' hrest' =>
      simp only [List.append_assoc, List.cons_append] at h
      obtain ⟨h4, h5⟩ := space_unique h1 h1' (head_value h3) (head_value h3') h
      obtain ⟨h6, h7, h8⟩ := ih h3'
        (head_blank h2 (p := fun c => ¬ numChar c) (fun _ => blank_not_num) (head_eq (by unfold numChar; decide)))
        (head_blank h2' (p := fun c => ¬ numChar c) (fun _ => blank_not_num) (head_eq (by unfold numChar; decide))) h5
      obtain ⟨h9, h10⟩ := space_unique h2 h2' (head_eq (by unfold blank; decide)) (head_eq (by unfold blank; decide)) h8
      obtain ⟨h11, h12, h13⟩ := ihr hrest' hr hs (List.cons.inj h10).2
      exact ⟨by rw [h4, h6, h9, h11], by rw [h7, Json.arr.inj h12], h13⟩
  | lastMember w1 key name w2 w3 lit w4 v h1 h2 h3 h4 hk hv ih =>
    intro b u r s hb hr hs h
    cases hb with
    | lastMember w1' key' name' w2' w3' lit' w4' v' h1' h2' h3' h4' hk' hv' =>
      simp only [List.append_assoc, List.cons_append] at h
      obtain ⟨e1, h⟩ := space_unique h1 h1' (head_eq (by unfold blank; decide)) (head_eq (by unfold blank; decide)) h
      obtain ⟨e2, e3, h⟩ := string_unique hk hk' (List.cons.inj h).2
      obtain ⟨e4, h⟩ := space_unique h2 h2' (head_eq (by unfold blank; decide)) (head_eq (by unfold blank; decide)) h
      obtain ⟨e5, h⟩ := space_unique h3 h3' (head_value hv) (head_value hv') (List.cons.inj h).2
      obtain ⟨e6, e7, h⟩ := ih hv'
        (head_blank h4 (p := fun c => ¬ numChar c) (fun _ => blank_not_num) (head_of hr (by unfold numChar; decide)))
        (head_blank h4' (p := fun c => ¬ numChar c) (fun _ => blank_not_num) (head_of hs (by unfold numChar; decide))) h
      obtain ⟨e8, h⟩ := space_unique h4 h4' (head_of hr (by unfold blank; decide)) (head_of hs (by unfold blank; decide)) h
      exact ⟨by rw [e1, e2, e4, e5, e6, e8], by rw [e3, e7], h⟩
    | member w1' key' name' w2' w3' lit' w4' rest' v' ms' h1' h2' h3' h4' hk' hv' _ =>
      exfalso
      simp only [List.append_assoc, List.cons_append] at h
      obtain ⟨e1, h⟩ := space_unique h1 h1' (head_eq (by unfold blank; decide)) (head_eq (by unfold blank; decide)) h
      obtain ⟨e2, e3, h⟩ := string_unique hk hk' (List.cons.inj h).2
      obtain ⟨e4, h⟩ := space_unique h2 h2' (head_eq (by unfold blank; decide)) (head_eq (by unfold blank; decide)) h
      obtain ⟨e5, h⟩ := space_unique h3 h3' (head_value hv) (head_value hv') (List.cons.inj h).2
      obtain ⟨e6, e7, h⟩ := ih hv'
        (head_blank h4 (p := fun c => ¬ numChar c) (fun _ => blank_not_num) (head_of hr (by unfold numChar; decide)))
        (head_blank h4' (p := fun c => ¬ numChar c) (fun _ => blank_not_num) (head_eq (by unfold numChar; decide))) h
      obtain ⟨e8, h⟩ := space_unique h4 h4' (head_of hr (by unfold blank; decide)) (head_eq (by unfold blank; decide)) h
      rw [h] at hr
      exact absurd (Option.some.inj hr) (by decide)
  | member w1 key name w2 w3 lit w4 rest v ms h1 h2 h3 h4 hk hv _ ih ihr =>
    intro b u r s hb hr hs h
    cases hb with
    | lastMember w1' key' name' w2' w3' lit' w4' v' h1' h2' h3' h4' hk' hv' =>
      exfalso
      simp only [List.append_assoc, List.cons_append] at h
      obtain ⟨e1, h⟩ := space_unique h1 h1' (head_eq (by unfold blank; decide)) (head_eq (by unfold blank; decide)) h
      obtain ⟨e2, e3, h⟩ := string_unique hk hk' (List.cons.inj h).2
      obtain ⟨e4, h⟩ := space_unique h2 h2' (head_eq (by unfold blank; decide)) (head_eq (by unfold blank; decide)) h
      obtain ⟨e5, h⟩ := space_unique h3 h3' (head_value hv) (head_value hv') (List.cons.inj h).2
      obtain ⟨e6, e7, h⟩ := ih hv'
        (head_blank h4 (p := fun c => ¬ numChar c) (fun _ => blank_not_num) (head_eq (by unfold numChar; decide)))
        (head_blank h4' (p := fun c => ¬ numChar c) (fun _ => blank_not_num) (head_of hs (by unfold numChar; decide))) h
      obtain ⟨e8, h⟩ := space_unique h4 h4' (head_eq (by unfold blank; decide)) (head_of hs (by unfold blank; decide)) h
      rw [← h] at hs
      exact absurd (Option.some.inj hs) (by decide)
    | member w1' key' name' w2' w3' lit' w4' rest' v' ms' h1' h2' h3' h4' hk' hv' hrest' =>
      simp only [List.append_assoc, List.cons_append] at h
      obtain ⟨e1, h⟩ := space_unique h1 h1' (head_eq (by unfold blank; decide)) (head_eq (by unfold blank; decide)) h
      obtain ⟨e2, e3, h⟩ := string_unique hk hk' (List.cons.inj h).2
      obtain ⟨e4, h⟩ := space_unique h2 h2' (head_eq (by unfold blank; decide)) (head_eq (by unfold blank; decide)) h
      obtain ⟨e5, h⟩ := space_unique h3 h3' (head_value hv) (head_value hv') (List.cons.inj h).2
      obtain ⟨e6, e7, h⟩ := ih hv'
        (head_blank h4 (p := fun c => ¬ numChar c) (fun _ => blank_not_num) (head_eq (by unfold numChar; decide)))
        (head_blank h4' (p := fun c => ¬ numChar c) (fun _ => blank_not_num) (head_eq (by unfold numChar; decide))) h
      obtain ⟨e8, h⟩ := space_unique h4 h4' (head_eq (by unfold blank; decide)) (head_eq (by unfold blank; decide)) h
      obtain ⟨e9, e10, h⟩ := ihr hrest' hr hs (List.cons.inj h).2
      exact ⟨by rw [e1, e2, e4, e5, e6, e8, e9], by rw [e3, e7, Json.obj.inj e10], h⟩

/-- A JSON text denotes one value. -/
theorem jsonText_unique {text : List (BitVec 8)} {v u : Json} (h : JsonText text v) (h' : JsonText text u) : v = u := by
  obtain ⟨w1, lit, w2, h1, h2, h3, rfl⟩ := h
  obtain ⟨w1', lit', w2', h1', h2', h3', h⟩ := h'
  obtain ⟨_, h⟩ := space_unique h1 h1' (head_value h3) (head_value h3') h
  have hw : ∀ {w : List (BitVec 8)}, JsonSpace w → endsPart .value w := by
    intro w hw c hc
    refine blank_not_num (hw c ?_)
    cases w with
    | nil => cases hc
    | cons d w => cases Option.some.inj (show some d = some c from hc); exact List.mem_cons_self
  exact (reads_unique h3 h3' (hw h2) (hw h2') h).2.1

/-- A JSON text begins, after blank space, with one of the characters values begin with. -/
theorem jsonText_first {text : List (BitVec 8)} {v : Json} (h : JsonText text v) :
    ∃ w c rest, JsonSpace w ∧ startsValue c ∧ text = w ++ c :: rest := by
  obtain ⟨w1, lit, w2, h1, _, h3, rfl⟩ := h
  obtain ⟨c, rest, rfl, hc⟩ := reads_first h3
  exact ⟨w1, c, rest ++ w2, h1, hc, rfl⟩

end Mopaq
