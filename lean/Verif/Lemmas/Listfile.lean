import Verif.Model.Listfile
import Verif.Spec.Listfile

/-! # Lemmas about decoding and splitting the listfile -/

namespace Mopaq

/-- A chunk of bytes that is decoded as one character wherever it stands. -/
def ValidChr (c : Chr) : Prop := ∃ a t, c = a :: t ∧ ∀ rest, nextChr a (t ++ rest) = (c, rest)

theorem ValidChr.of {a : Byte} {t : List Byte} (h : ∀ rest, nextChr a (t ++ rest) = (a :: t, rest)) : ValidChr (a :: t) :=
  ⟨a, t, rfl, h⟩

theorem validChr_replacement : ValidChr replacementChr := by
  refine ⟨0xEF, [0xBF, 0xBD], rfl, fun rest => ?_⟩
  simp [nextChr, second3, isCont, replacementChr]

theorem validChr_one {a : Byte} (h : a.toNat < 0x80) : ValidChr [a] :=
  .of fun rest => by simp [nextChr, h]

theorem validChr_two {a b : Byte} (h0 : ¬ a.toNat < 0x80) (h : (0xC2 ≤ a.toNat && a.toNat ≤ 0xDF) = true)
    (hb : isCont b = true) : ValidChr [a, b] :=
  .of fun rest => by simp only [nextChr, h0, if_false, h, if_true, List.cons_append, List.nil_append, hb]

theorem validChr_three {a b c : Byte} (h0 : ¬ a.toNat < 0x80) (h1 : ¬ (0xC2 ≤ a.toNat && a.toNat ≤ 0xDF) = true)
    (h : (0xE0 ≤ a.toNat && a.toNat ≤ 0xEF) = true) (hb : second3 a b = true) (hc : isCont c = true) :
    ValidChr [a, b, c] :=
  .of fun rest => by
    simp only [nextChr, h0, if_false, h1, h, if_true, List.cons_append, List.nil_append, hb, hc]
    rfl

theorem validChr_four {a b c d : Byte} (h0 : ¬ a.toNat < 0x80) (h1 : ¬ (0xC2 ≤ a.toNat && a.toNat ≤ 0xDF) = true)
    (h2 : ¬ (0xE0 ≤ a.toNat && a.toNat ≤ 0xEF) = true) (h : (0xF0 ≤ a.toNat && a.toNat ≤ 0xF4) = true)
    (hb : second4 a b = true) (hc : isCont c = true) (hd : isCont d = true) : ValidChr [a, b, c, d] :=
  .of fun rest => by
    simp only [nextChr, h0, if_false, h1, h2, h, if_true, List.cons_append, List.nil_append, hb, hc, hd]
    rfl

theorem nextChr_valid (a : Byte) (rest : List Byte) : ValidChr (nextChr a rest).1 := by
  unfold nextChr
  split
  · rename_i h; exact validChr_one h
  · rename_i h0
    split
    · rename_i h1
      split
      · split
        · rename_i hb; exact validChr_two h0 h1 hb
        · exact validChr_replacement
      · exact validChr_replacement
    · rename_i h1
      split
      · rename_i h2
        split
        · split
          · rename_i hb
            split
            · split
              · rename_i hc; exact validChr_three h0 h1 h2 hb hc
              · exact validChr_replacement
            · exact validChr_replacement
          · exact validChr_replacement
        · exact validChr_replacement
      · rename_i h2
        split
        · rename_i h3
          split
          · split
            · rename_i hb
              split
              · split
                · rename_i hc
                  split
                  · split
                    · rename_i hd; exact validChr_four h0 h1 h2 h3 hb hc hd
                    · exact validChr_replacement
                  · exact validChr_replacement
                · exact validChr_replacement
              · exact validChr_replacement
            · exact validChr_replacement
          · exact validChr_replacement
        · exact validChr_replacement

theorem chrsFuel_valid (n : Nat) (l : List Byte) : ∀ c ∈ chrsFuel n l, ValidChr c := by
  induction n generalizing l with
  | zero => intro c hc; simp [chrsFuel] at hc
  | succ n ih =>
    cases l with
    | nil => intro c hc; simp [chrsFuel] at hc
    | cons a rest =>
      intro c hc
      simp only [chrsFuel, List.mem_cons] at hc
      rcases hc with rfl | hc
      · exact nextChr_valid a rest
      · exact ih _ c hc

theorem chrsFuel_flatten (cs : List Chr) (h : ∀ c ∈ cs, ValidChr c) (n : Nat) (hn : cs.flatten.length ≤ n) :
    chrsFuel n cs.flatten = cs := by
  induction cs generalizing n with
  | nil => cases n <;> simp [chrsFuel]
  | cons c cs ih =>
    obtain ⟨a, t, rfl, hv⟩ := h c (by simp)
    simp only [List.flatten_cons, List.cons_append, List.length_cons, List.length_append] at hn ⊢
    cases n with
    | zero => omega
    | succ n =>
      simp only [chrsFuel, hv]
      rw [ih (fun c hc => h c (by simp [hc])) n (by omega)]

theorem chrs_flatten (cs : List Chr) (h : ∀ c ∈ cs, ValidChr c) : chrs cs.flatten = cs :=
  chrsFuel_flatten cs h _ (Nat.le_refl _)

theorem flatten_inj {as bs : List Chr} (ha : ∀ c ∈ as, ValidChr c) (hb : ∀ c ∈ bs, ValidChr c)
    (h : as.flatten = bs.flatten) : as = bs := by
  rw [← chrs_flatten as ha, h, chrs_flatten bs hb]

theorem validChr_low {c : Chr} (hv : ValidChr c) {k : Byte} (hk : k.toNat < 0x80) (hm : k ∈ c) : c = [k] := by
  obtain ⟨a, t, rfl, h⟩ := hv
  have h := h []
  rw [List.append_nil] at h
  have hrep : ∀ r, (replacementChr, r) = (a :: t, ([] : List Byte)) → a :: t = [k] := by
    intro r hr
    have h1 : a :: t = replacementChr := (congrArg Prod.fst hr).symm
    rw [h1] at hm
    unfold replacementChr at hm
    simp only [List.mem_cons, List.not_mem_nil, or_false] at hm
    rcases hm with rfl | rfl | rfl <;> exact absurd hk (by decide)
  have hcont : ∀ b : Byte, isCont b = true → k ≠ b := by
    intro b hb hkb; subst hkb
    unfold isCont at hb
    simp only [Bool.and_eq_true, decide_eq_true_eq] at hb
    omega
  have hsec3 : ∀ a b : Byte, second3 a b = true → k ≠ b := by
    intro a b hb hkb; subst hkb
    unfold second3 isCont at hb
    split at hb
    · simp only [Bool.and_eq_true, decide_eq_true_eq] at hb; omega
    · split at hb <;> simp only [Bool.and_eq_true, decide_eq_true_eq] at hb <;> omega
  have hsec4 : ∀ a b : Byte, second4 a b = true → k ≠ b := by
    intro a b hb hkb; subst hkb
    unfold second4 isCont at hb
    split at hb
    · simp only [Bool.and_eq_true, decide_eq_true_eq] at hb; omega
    · split at hb <;> simp only [Bool.and_eq_true, decide_eq_true_eq] at hb <;> omega
  unfold nextChr at h
  split at h
  · injection h with _ h
    subst h
    rw [List.mem_singleton] at hm
    rw [hm]
  · rename_i h0
    have hka : k ≠ a := by intro he; subst he; exact h0 hk
    rw [List.mem_cons] at hm
    replace hm := hm.resolve_left hka
    split at h
    · split at h
      · split at h
        · rename_i hb
          injection h with _ h
          subst h
          simp only [List.mem_cons, List.not_mem_nil, or_false] at hm
          exact absurd hm (hcont _ hb)
        · exact hrep _ h
      · exact hrep _ h
    · split at h
      · split at h
        · split at h
          · rename_i hb
            split at h
            · split at h
              · rename_i hc
                injection h with _ h
                subst h
                simp only [List.mem_cons, List.not_mem_nil, or_false] at hm
                rcases hm with hm | hm
                · exact absurd hm (hsec3 _ _ hb)
                · exact absurd hm (hcont _ hc)
              · exact hrep _ h
            · exact hrep _ h
          · exact hrep _ h
        · exact hrep _ h
      · split at h
        · split at h
          · split at h
            · rename_i hb
              split at h
              · split at h
                · rename_i hc
                  split at h
                  · split at h
                    · rename_i hd
                      injection h with _ h
                      subst h
                      simp only [List.mem_cons, List.not_mem_nil, or_false] at hm
                      rcases hm with hm | hm | hm
                      · exact absurd hm (hsec4 _ _ hb)
                      · exact absurd hm (hcont _ hc)
                      · exact absurd hm (hcont _ hd)
                    · exact hrep _ h
                  · exact hrep _ h
                · exact hrep _ h
              · exact hrep _ h
            · exact hrep _ h
          · exact hrep _ h
        · exact hrep _ h

/-! ## UTF-8 -/

theorem b8 {n : Nat} (h : n < 256) : (BitVec.ofNat 8 n).toNat = n := by
  rw [BitVec.toNat_ofNat]; omega

theorem b8_eq {n : Nat} (h : n < 256) (b : Byte) : BitVec.ofNat 8 n = b ↔ n = b.toNat := by
  constructor
  · rintro rfl; exact (b8 h).symm
  · intro h'; apply BitVec.eq_of_toNat_eq; rw [b8 h, h']

theorem utf8_valid {c : Nat} (h : Spec.scalar c) : ValidChr (Spec.utf8 c) := by
  unfold Spec.scalar at h
  unfold Spec.utf8
  split
  · rename_i h1
    apply validChr_one
    rw [b8 (by omega)]; exact h1
  · split
    · apply validChr_two
      · rw [b8 (by omega)]; omega
      · rw [b8 (by omega)]; simp; omega
      · unfold isCont; rw [b8 (by omega)]; simp; omega
    · split
      · apply validChr_three
        · rw [b8 (by omega)]; omega
        · rw [b8 (by omega)]; simp; omega
        · rw [b8 (by omega)]; simp; omega
        · unfold second3 isCont
          have h1 : 0xE0 + c / 4096 < 256 := by omega
          have h2 : 0x80 + c / 64 % 64 < 256 := by omega
          simp only [b8_eq h1, b8 h2]
          simp only [show (0xE0 : Byte).toNat = 0xE0 from rfl, show (0xED : Byte).toNat = 0xED from rfl]
          split
          · simp; omega
          · split
            · simp; omega
            · simp; omega
        · unfold isCont; rw [b8 (by omega)]; simp; omega
      · apply validChr_four
        · rw [b8 (by omega)]; omega
        · rw [b8 (by omega)]; simp; omega
        · rw [b8 (by omega)]; simp; omega
        · rw [b8 (by omega)]; simp; omega
        · unfold second4 isCont
          have h1 : 0xF0 + c / 262144 < 256 := by omega
          have h2 : 0x80 + c / 4096 % 64 < 256 := by omega
          simp only [b8_eq h1, b8 h2]
          simp only [show (0xF0 : Byte).toNat = 0xF0 from rfl, show (0xF4 : Byte).toNat = 0xF4 from rfl]
          split
          · simp; omega
          · split
            · simp; omega
            · simp; omega
        · unfold isCont; rw [b8 (by omega)]; simp; omega
        · unfold isCont; rw [b8 (by omega)]; simp; omega

theorem utf8_ascii {c k : Nat} (hk : k < 0x80) : Spec.utf8 c = [BitVec.ofNat 8 k] ↔ c = k := by
  unfold Spec.utf8
  split
  · simp only [List.map_cons, List.map_nil, List.cons.injEq, and_true]
    rw [b8_eq (by omega), b8 (by omega)]
  · split
    · simp; omega
    · split
      · simp; omega
      · simp; omega

theorem utf8_space {c : Nat} : isSpaceChr (Spec.utf8 c) = true ↔ Spec.space c := by
  unfold Spec.utf8 Spec.space
  split
  · simp only [List.map_cons, List.map_nil, isSpaceChr]
    rw [b8 (by omega), Bool.or_eq_true, Bool.and_eq_true, decide_eq_true_eq, decide_eq_true_eq, decide_eq_true_eq,
      b8_eq (by omega)]
    simp only [show (0x20 : Byte).toNat = 0x20 from rfl]
    omega
  · split
    · simp only [List.map_cons, List.map_nil, isSpaceChr, Bool.or_eq_true, Bool.and_eq_true, decide_eq_true_eq]
      rw [b8_eq (by omega), b8_eq (by omega), b8_eq (by omega)]
      simp only [show (0xC2 : Byte).toNat = 0xC2 from rfl, show (0x85 : Byte).toNat = 0x85 from rfl,
        show (0xA0 : Byte).toNat = 0xA0 from rfl]
      omega
    · split
      · simp only [List.map_cons, List.map_nil, isSpaceChr, Bool.or_eq_true, Bool.and_eq_true, decide_eq_true_eq]
        have h1 : 0xE0 + c / 4096 < 256 := by omega
        have h2 : 0x80 + c / 64 % 64 < 256 := by omega
        have h3 : 0x80 + c % 64 < 256 := by omega
        rw [b8 h3]
        simp only [b8_eq h1, b8_eq h2, b8_eq h3]
        simp only [show (0xE1 : Byte).toNat = 0xE1 from rfl, show (0x9A : Byte).toNat = 0x9A from rfl,
          show (0x80 : Byte).toNat = 0x80 from rfl, show (0xE2 : Byte).toNat = 0xE2 from rfl,
          show (0xA8 : Byte).toNat = 0xA8 from rfl, show (0xA9 : Byte).toNat = 0xA9 from rfl,
          show (0xAF : Byte).toNat = 0xAF from rfl, show (0x81 : Byte).toNat = 0x81 from rfl,
          show (0x9F : Byte).toNat = 0x9F from rfl, show (0xE3 : Byte).toNat = 0xE3 from rfl]
        omega
      · simp only [List.map_cons, List.map_nil, isSpaceChr]
        constructor
        · intro h; cases h
        · omega

/-! ## Lines -/

theorem splitLines_nil_iff (cs : List Chr) : splitLines cs = [] ↔ cs = [] := by
  cases cs with
  | nil => simp [splitLines]
  | cons c cs =>
    simp only [splitLines]
    split
    · simp
    · split <;> simp

theorem splitLines_line (l rest : List Chr) (h : [0x0A] ∉ l) :
    splitLines (l ++ [0x0A] :: rest) = l :: splitLines rest := by
  induction l with
  | nil => simp [splitLines]
  | cons c l ih =>
    rw [List.mem_cons, not_or] at h
    simp only [List.cons_append, splitLines]
    rw [if_neg (fun h' => h.1 h'.symm), ih h.2]

theorem splitLines_spec (cs : List Chr) : ∀ l ∈ splitLines cs, [0x0A] ∉ l ∧ ∀ c ∈ l, c ∈ cs := by
  induction cs with
  | nil => intro l hl; simp [splitLines] at hl
  | cons c cs ih =>
    intro l hl
    simp only [splitLines] at hl
    split at hl
    · rw [List.mem_cons] at hl
      rcases hl with rfl | hl
      · simp
      · exact ⟨(ih l hl).1, fun x hx => List.mem_cons_of_mem _ ((ih l hl).2 x hx)⟩
    · rename_i hc
      split at hl
      · rw [List.mem_singleton] at hl
        subst hl
        simp only [List.mem_singleton]
        exact ⟨fun h => hc h.symm, fun x hx => by simp [hx]⟩
      · rename_i l' ls heq
        rw [List.mem_cons] at hl
        rcases hl with rfl | hl
        · have := ih l' (by rw [heq]; simp)
          refine ⟨?_, ?_⟩
          · rw [List.mem_cons, not_or]; exact ⟨fun h => hc h.symm, this.1⟩
          · intro x hx
            rw [List.mem_cons] at hx ⊢
            exact hx.imp id (this.2 x)
        · have := ih l (by rw [heq]; simp [hl])
          exact ⟨this.1, fun x hx => List.mem_cons_of_mem _ (this.2 x hx)⟩

/-! ## Trimming -/

/-- No white space at either end. -/
def Trimmed (s : List Chr) : Prop :=
  (∀ c, s.head? = some c → isSpaceChr c = false) ∧ (∀ c, s.getLast? = some c → isSpaceChr c = false)

theorem dropWhile_of_head {p : Chr → Bool} {s : List Chr} (h : ∀ c, s.head? = some c → p c = false) :
    s.dropWhile p = s := by
  cases s with
  | nil => rfl
  | cons a s => rw [List.dropWhile_cons, if_neg (by rw [h a rfl]; decide)]

theorem trim_of_trimmed {s : List Chr} (h : Trimmed s) : trim s = s := by
  unfold trim
  rw [dropWhile_of_head h.1, dropWhile_of_head (s := s.reverse)]
  · exact List.reverse_reverse s
  · intro c hc; rw [List.head?_reverse] at hc; exact h.2 c hc

theorem head_dropWhile (p : Chr → Bool) (s : List Chr) (c : Chr) (h : (s.dropWhile p).head? = some c) : p c = false := by
  induction s with
  | nil => simp at h
  | cons a s ih =>
    rw [List.dropWhile_cons] at h
    split at h
    · exact ih h
    · rename_i hp
      simp only [List.head?_cons, Option.some.injEq] at h
      subst h; simpa using hp

theorem dropWhile_suffix' (p : Chr → Bool) (s : List Chr) : ∃ a, s = a ++ s.dropWhile p := by
  obtain ⟨a, h⟩ := List.dropWhile_suffix (l := s) p
  exact ⟨a, h.symm⟩

theorem trim_parts (s : List Chr) : ∃ a b, s = a ++ trim s ++ b := by
  obtain ⟨a, ha⟩ := dropWhile_suffix' isSpaceChr s
  obtain ⟨b, hb⟩ := dropWhile_suffix' isSpaceChr (s.dropWhile isSpaceChr).reverse
  refine ⟨a, b.reverse, ?_⟩
  have h2 : s.dropWhile isSpaceChr = trim s ++ b.reverse := by
    have := congrArg List.reverse hb
    rw [List.reverse_reverse, List.reverse_append] at this
    exact this
  rw [List.append_assoc, ← h2]; exact ha

theorem trim_mem {s : List Chr} {c : Chr} (h : c ∈ trim s) : c ∈ s := by
  obtain ⟨a, b, hs⟩ := trim_parts s
  rw [hs]; simp [h]

theorem trim_trimmed (s : List Chr) : Trimmed (trim s) := by
  have hlast : ∀ c, (trim s).getLast? = some c → isSpaceChr c = false := by
    intro c hc
    unfold trim at hc
    rw [List.getLast?_reverse] at hc
    exact head_dropWhile _ _ c hc
  refine ⟨fun c hc => ?_, hlast⟩
  have h1 : ∀ c, (s.dropWhile isSpaceChr).head? = some c → isSpaceChr c = false := head_dropWhile _ s
  apply h1
  obtain ⟨b, hb⟩ := dropWhile_suffix' isSpaceChr (s.dropWhile isSpaceChr).reverse
  have h2 : s.dropWhile isSpaceChr = trim s ++ b.reverse := by
    have := congrArg List.reverse hb
    rw [List.reverse_reverse, List.reverse_append] at this
    exact this
  rw [h2, List.head?_append, hc]; rfl

/-! ## Parsing lines -/

/-- What a parsed name looks like. -/
structure Listed (s : List Chr) : Prop where
  nonempty : s ≠ []
  noFeed : [0x0A] ∉ s
  noSemi : [0x3B] ∉ s
  noHash : s.head? ≠ some [0x23]
  trimmed : Trimmed s

theorem parseLine_listed {l s : List Chr} (hl : [0x0A] ∉ l) (h : parseLine l = some s) : Listed s ∧ ∀ c ∈ s, c ∈ l := by
  unfold parseLine at h
  simp only at h
  split at h
  · cases h
  · rename_i hne
    rw [not_or, not_or] at hne
    by_cases hsemi : [0x3B] ∈ trim l
    · simp only [hsemi, if_true] at h
      split at h
      · cases h
      · rename_i hne2
        injection h with h
        subst h
        have hsub : ∀ c ∈ trim ((trim l).takeWhile (fun x => decide (x ≠ [0x3B]))), c ∈ trim l ∧ c ≠ [0x3B] := by
          intro c hc
          have h1 := trim_mem hc
          exact ⟨(List.takeWhile_subset _) h1, by simpa using List.all_eq_true.1 (List.all_takeWhile (p := fun x => decide (x ≠ [0x3B]))) c h1⟩
        refine ⟨⟨hne2, fun hh => hl (trim_mem (hsub _ hh).1), fun hh => (hsub _ hh).2 rfl, ?_, trim_trimmed _⟩,
          fun c hc => trim_mem (hsub c hc).1⟩
        intro hh
        -- the first character of the cut line is the first character of the line
        have hhead : (trim l).head? ≠ none := by simp [hne.1]
        cases htl : trim l with
        | nil => exact hne.1 htl
        | cons a t =>
          rw [htl] at hh hne
          have hns : isSpaceChr a = false := (trim_trimmed l).1 a (by rw [htl]; rfl)
          have ha : a ≠ [0x3B] := fun h => hne.2.1 (by rw [h]; rfl)
          rw [List.takeWhile_cons, if_pos (by simpa using ha)] at hh
          obtain ⟨x, y, hxy⟩ := trim_parts (a :: t.takeWhile (fun x => decide (x ≠ [0x3B])))
          have hx : x = [] := by
            have : (a :: t.takeWhile (fun x => decide (x ≠ [0x3B]))).dropWhile isSpaceChr = a :: t.takeWhile (fun x => decide (x ≠ [0x3B])) :=
              dropWhile_of_head (by intro c hc; simp only [List.head?_cons, Option.some.injEq] at hc; subst hc; exact hns)
            cases x with
            | nil => rfl
            | cons x0 x =>
              exfalso
              have hlen := congrArg List.length hxy
              simp only [List.length_append, List.length_cons] at hlen
              have h0 : x0 = a := by
                have := congrArg List.head? hxy
                simpa using this.symm
              -- the trimmed text is the line without a suffix
              obtain ⟨b, hb⟩ := dropWhile_suffix' isSpaceChr (a :: t.takeWhile (fun x => decide (x ≠ [0x3B]))).reverse
              have h2 : (a :: t.takeWhile (fun x => decide (x ≠ [0x3B]))) = trim (a :: t.takeWhile (fun x => decide (x ≠ [0x3B]))) ++ b.reverse := by
                have h3 := congrArg List.reverse hb
                rw [List.reverse_reverse, List.reverse_append] at h3
                unfold trim; rw [this]; exact h3
              have h4 : (trim (a :: t.takeWhile (fun x => decide (x ≠ [0x3B])))).head? = some a := by
                have := congrArg List.head? h2
                rw [List.head?_append, hh] at this
                rw [hh]; simpa using this.symm
              rw [h4] at hh
              apply hne.2.2
              simpa using hh
          subst hx
          have := congrArg List.head? hxy
          rw [List.nil_append, List.head?_append, hh] at this
          apply hne.2.2
          simpa using this
    · simp only [hsemi, if_false] at h
      split at h
      · cases h
      · injection h with h
        subst h
        exact ⟨⟨hne.1, fun hh => hl (trim_mem hh), hsemi, hne.2.2, trim_trimmed _⟩, fun c hc => trim_mem hc⟩

theorem parseLine_of_listed {s : List Chr} (h : Listed s) : parseLine s = some s := by
  unfold parseLine
  simp only [trim_of_trimmed h.trimmed]
  rw [if_neg, if_neg h.noSemi, if_neg h.nonempty]
  rintro (h' | h' | h')
  · exact h.nonempty h'
  · exact h.noSemi (List.mem_of_mem_head? (by rw [h']; simp))
  · exact h.noHash h'

theorem stripCr_cr (s : List Chr) : stripCr (s ++ [[0x0D]]) = s := by
  unfold stripCr
  rw [List.getLast?_concat, if_pos rfl, List.dropLast_concat]

theorem stripCr_mem {l : List Chr} {c : Chr} (h : c ∈ stripCr l) : c ∈ l := by
  unfold stripCr at h
  split at h
  · exact List.dropLast_subset _ h
  · exact h

end Mopaq
