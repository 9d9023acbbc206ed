import Verif.Props.Truncated
import Verif.Lemmas.Clean

/-! # Property C75: opening ends

Opening a file, whatever it contains, ends with an archive or with an error that the caller is told of: no panic and no endless
loop. -/

namespace Mopaq

/-- The size of the HET table as the header has it: stated there (version 4), or the distance to the BET table if this follows,
otherwise to the hash table (version 3). -/
def Spec.hetSize (h : MpqHeader) (pos : U64) : Nat :=
  match h.v4Data with
  | some v => v.hetTableSize64.toNat
  | none =>
    if h.formatVersion = .v3 then
      if pos.toNat < (h.betTablePos.getD 0).toNat then (h.betTablePos.getD 0).toNat - pos.toNat
      else h.getHashTablePos.toNat - pos.toNat
    else 0

/-- The size of the BET table likewise. -/
def Spec.betSize (h : MpqHeader) (pos : U64) : Nat :=
  match h.v4Data with
  | some v => v.betTableSize64.toNat
  | none => if h.formatVersion = .v3 then h.getHashTablePos.toNat - pos.toNat else 0

/-- The first byte of a stored HET or BET table behind its extended header, which names the compression method if there is
one. -/
def Spec.tableMethod (f : List Byte) (off size : Nat) (key : U32) : Option Byte :=
  (decryptTableData (slice f (off + 12) (size - 12)) key).head?

/-- Where the header says the tables are can be reckoned with: positions in the file are numbers of 64 bits, sizes are not
negative and below 2^63. -/
structure Spec.SanePlaces (off : Nat) (h : MpqHeader) : Prop where
  hash : off + h.getHashTablePos.toNat < 2 ^ 64
  block : off + h.getBlockTablePos.toNat < 2 ^ 64
  hi : ∀ pos, h.hiBlockTablePos = some pos → off + pos.toNat < 2 ^ 64
  het : ∀ pos, h.hetTablePos = some pos → off + pos.toNat < 2 ^ 64 ∧ Spec.hetSize h pos < 2 ^ 63
  bet : ∀ pos, h.betTablePos = some pos → off + pos.toNat < 2 ^ 64 ∧ Spec.betSize h pos < 2 ^ 63
  hetOrder : h.formatVersion = .v3 → ∀ pos, h.hetTablePos = some pos → pos ≠ 0#64 →
    pos.toNat < (h.betTablePos.getD 0).toNat ∨ pos.toNat ≤ h.getHashTablePos.toNat
  betOrder : h.formatVersion = .v3 → ∀ pos, h.betTablePos = some pos → pos ≠ 0#64 → pos.toNat ≤ h.getHashTablePos.toNat

/-- Neither extended table is compressed with an audio codec. -/
structure Spec.NoAudioTables (f : List Byte) (off : Nat) (h : MpqHeader) : Prop where
  het : ∀ pos m, h.hetTablePos = some pos →
    Spec.tableMethod f (off + pos.toNat) (Spec.hetSize h pos) hashTableKey = some m → m.toNat < 64
  bet : ∀ pos m, h.betTablePos = some pos →
    Spec.tableMethod f (off + pos.toNat) (Spec.betSize h pos) blockTableKey = some m → m.toNat < 64

theorem told_of_clean {α : Type} {r : Res α} (h : Clean r) : Gives Told r := by
  intro err he
  subst he
  exact ⟨fun h1 => h.1 (by rw [h1]), fun h1 => h.2 (by rw [h1])⟩

theorem clean_of_told {α : Type} {r : Res α} (h : Gives Told r) : Clean r :=
  ⟨fun h1 => (h _ h1).1 rfl, fun h1 => (h _ h1).2 rfl⟩

theorem told_readVec {f : List Byte} {off n : Nat} (h : n < 2 ^ 63) : Gives Told (readVec f off n) := by
  rw [readVec_eq _ _ _ h]
  exact told_readAt _ _ _

/-- Reading an extended table ends unless an audio codec is named. -/
theorem told_readExtTable (e : Codecs) (f : List Byte) (off size : Nat) (sig key : U32) (hs : size < 2 ^ 63) (hk : key ≠ 0)
    (hm : ∀ m, Spec.tableMethod f off size key = some m → m.toNat < 64) : Gives Told (readExtTable e f off size sig key) := by
  unfold readExtTable
  refine told_of_clean (clean_bind (clean_of_told (told_readVec hs)) fun data hd => ?_)
  rw [readVec_eq _ _ _ hs] at hd
  have hl := readAt_length hd
  have herr : ∀ {α : Type}, Clean (throw .invalidFormat : Res α) := clean_error (by decide) (by decide)
  show Clean (if data.length < 12 then _ else _)
  refine clean_ite (fun _ => herr) fun h12 => ?_
  show Clean (if _ then _ else _)
  refine clean_ite (fun _ => herr) fun _ => ?_
  dsimp only
  refine clean_ite (fun _ => ?_) (fun _ => clean_ok _)
  have hdata : data = slice f off size := by
    rcases readAt_eq_ok_iff.1 hd with ⟨h0, h1⟩ | ⟨_, _, h1⟩
    · subst h1; simp at h12
    · exact h1
  generalize hb : (if key ≠ 0 ∧ data.length > 12 then decryptTableData (data.drop 12) key else data.drop 12) = body
  cases body with
  | nil => exact herr
  | cons m rest =>
    refine clean_decompress _ _ _ _ (hm m ?_) (Nat.lt_of_lt_of_le (BitVec.isLt _) (by decide))
    have : data.length > 12 := by
      apply Nat.lt_of_not_le
      intro hle
      rw [if_neg (fun h => absurd h.2 (by omega)), List.drop_eq_nil_of_le hle] at hb
      cases hb
    rw [if_pos ⟨hk, this⟩] at hb
    unfold Spec.tableMethod
    have e1 : slice f (off + 12) (size - 12) = data.drop 12 := by
      rw [hdata]; unfold slice; rw [List.drop_take, List.drop_drop]
    rw [e1, hb]
    rfl

theorem told_rdBytes (n : Nat) (r : List Byte) : Gives Told (rdBytes n r) := by
  unfold rdBytes; errors
  all_goals exact gives_error ⟨nofun, nofun⟩

theorem told_rd32 (r : List Byte) : Gives Told (rd32 r) := gives_map (told_rdBytes _ _)
theorem told_rd64 (r : List Byte) : Gives Told (rd64 r) := gives_map (told_rdBytes _ _)

theorem told_rd32s : ∀ (n : Nat) (r : List Byte), Gives Told (rd32s n r) := by
  intro n
  induction n with
  | zero => intro r; exact gives_ok _
  | succ n ih =>
    intro r
    exact gives_bind (told_rd32 _) fun _ => gives_bind (ih _) fun _ => gives_ok _

theorem told_rd64s : ∀ (n : Nat) (r : List Byte), Gives Told (rd64s n r) := by
  intro n
  induction n with
  | zero => intro r; exact gives_ok _
  | succ n ih =>
    intro r
    exact gives_bind (told_rd64 _) fun _ => gives_bind (ih _) fun _ => gives_ok _

theorem told_throw {α : Type} : Gives Told (throw .invalidFormat : Res α) := gives_throw ⟨nofun, nofun⟩

theorem told_parseHetHeader (r : List Byte) : Gives Told (parseHetHeader r) := by
  unfold parseHetHeader
  errors
  all_goals first | exact told_rd32 _ | exact told_throw

theorem told_parseBetHeader (r : List Byte) : Gives Told (parseBetHeader r) := by
  unfold parseBetHeader
  errors
  all_goals first | exact told_rd32 _ | exact told_throw

theorem told_readHetTable (e : Codecs) (f : List Byte) (off size : Nat) (key : U32) (hs : size < 2 ^ 63) (hk : key ≠ 0)
    (hm : ∀ m, Spec.tableMethod f off size key = some m → m.toNat < 64) : Gives Told (readHetTable e f off size key) := by
  unfold readHetTable
  refine gives_bind (told_readExtTable e f off size _ key hs hk hm) fun body => gives_bind (told_parseHetHeader _) fun h => ?_
  dsimp only
  refine gives_ite (fun _ => told_throw) fun _ => gives_ok _

theorem told_readBetTable (e : Codecs) (f : List Byte) (off size : Nat) (key : U32) (hs : size < 2 ^ 63) (hk : key ≠ 0)
    (hm : ∀ m, Spec.tableMethod f off size key = some m → m.toNat < 64) : Gives Told (readBetTable e f off size key) := by
  unfold readBetTable
  exact gives_bind (told_readExtTable e f off size _ key hs hk hm) fun body => gives_bind (told_parseBetHeader _) fun h =>
    gives_bind (told_rd32s _ _) fun _ => gives_bind (told_rdBytes _ _) fun _ => gives_bind (told_rd64s _ _) fun _ => gives_ok _

theorem told_tolerate {α : Type} {r : Res α} (h : Gives Told r) : Gives Told (tolerate r) := by
  cases r with
  | ok v => exact gives_ok _
  | error x =>
    have := h x rfl
    cases x <;> first | exact gives_ok _ | exact absurd rfl this.1 | exact absurd rfl this.2

theorem sub64_toNat {a b : U64} (h : b.toNat ≤ a.toNat) : sub64 a b = .ok (a - b) ∧ (a - b).toNat = a.toNat - b.toNat :=
  ⟨if_pos h, BitVec.toNat_sub_of_le h⟩

/-- What `loadHet` takes for the size. -/
theorem hetSize_found {off : Nat} {h : MpqHeader} (hp : Spec.SanePlaces off h) {pos : U64} (hpos : h.hetTablePos = some pos)
    (h0 : pos ≠ 0#64) (hv : h.formatVersion = .v3 → h.v4Data = none) :
    ∃ size : U64, size.toNat = Spec.hetSize h pos ∧
      (if ((h.v4Data.map (·.hetTableSize64)).getD 0#64 = 0#64 && h.formatVersion == .v3) = true then hetTableSizeOf h pos
        else pure ((h.v4Data.map (·.hetTableSize64)).getD 0#64)) = .ok size := by
  unfold Spec.hetSize
  cases hd : h.v4Data with
  | some v =>
    refine ⟨v.hetTableSize64, rfl, ?_⟩
    rw [if_neg]
    · rfl
    · intro hc
      rw [Bool.and_eq_true] at hc
      rw [hv (eq_of_beq hc.2)] at hd
      cases hd
  | none =>
    by_cases h3 : h.formatVersion = .v3
    · have hc : (decide ((Option.map (fun x : V4Data => x.hetTableSize64) none).getD 0#64 = 0#64) && h.formatVersion == .v3) = true := by
        rw [h3]; decide
      rw [if_pos h3, if_pos hc]
      dsimp only
      unfold hetTableSizeOf
      have ho := hp.hetOrder h3 pos hpos h0
      cases hb : h.betTablePos with
      | none =>
        rw [hb] at ho
        dsimp only
        rw [if_neg (by simp)]
        obtain ⟨q1, q2⟩ := sub64_toNat (a := h.getHashTablePos) (b := pos) (by
          rcases ho with ho | ho
          · simp at ho
          · exact ho)
        exact ⟨_, q2, q1⟩
      | some b =>
        rw [hb] at ho
        dsimp only [Option.getD_some]
        dsimp only [Option.getD_some] at ho
        by_cases hlt : pos.toNat < b.toNat
        · rw [if_pos hlt, if_pos hlt]
          obtain ⟨q1, q2⟩ := sub64_toNat (a := b) (b := pos) (by omega)
          exact ⟨_, q2, q1⟩
        · rw [if_neg hlt, if_neg hlt]
          obtain ⟨q1, q2⟩ := sub64_toNat (a := h.getHashTablePos) (b := pos) (by omega)
          exact ⟨_, q2, q1⟩
    · have hc : ¬ (decide ((Option.map (fun x : V4Data => x.hetTableSize64) none).getD 0#64 = 0#64) && h.formatVersion == .v3) = true := by
        intro hc
        rw [Bool.and_eq_true] at hc
        exact h3 (eq_of_beq hc.2)
      rw [if_neg h3, if_neg hc]
      exact ⟨0#64, rfl, rfl⟩

/-- What `loadBet` takes for the size. -/
theorem betSize_found {off : Nat} {h : MpqHeader} (hp : Spec.SanePlaces off h) {pos : U64} (hpos : h.betTablePos = some pos)
    (h0 : pos ≠ 0#64) (hv : h.formatVersion = .v3 → h.v4Data = none) :
    ∃ size : U64, size.toNat = Spec.betSize h pos ∧
      (if ((h.v4Data.map (·.betTableSize64)).getD 0#64 = 0#64 && h.formatVersion == .v3) = true then betTableSizeOf h pos
        else pure ((h.v4Data.map (·.betTableSize64)).getD 0#64)) = .ok size := by
  unfold Spec.betSize
  cases hd : h.v4Data with
  | some v =>
    refine ⟨v.betTableSize64, rfl, ?_⟩
    rw [if_neg]
    · rfl
    · intro hc
      rw [Bool.and_eq_true] at hc
      rw [hv (eq_of_beq hc.2)] at hd
      cases hd
  | none =>
    by_cases h3 : h.formatVersion = .v3
    · have hc : (decide ((Option.map (fun x : V4Data => x.betTableSize64) none).getD 0#64 = 0#64) && h.formatVersion == .v3) = true := by
        rw [h3]; decide
      rw [if_pos h3, if_pos hc]
      dsimp only
      unfold betTableSizeOf
      obtain ⟨q1, q2⟩ := sub64_toNat (hp.betOrder h3 pos hpos h0)
      exact ⟨_, q2, q1⟩
    · have hc : ¬ (decide ((Option.map (fun x : V4Data => x.betTableSize64) none).getD 0#64 = 0#64) && h.formatVersion == .v3) = true := by
        intro hc
        rw [Bool.and_eq_true] at hc
        exact h3 (eq_of_beq hc.2)
      rw [if_neg h3, if_neg hc]
      exact ⟨0#64, rfl, rfl⟩

theorem e1_res {α β : Type} (c : Prop) [Decidable c] (x y : Res α) (g : α → Res β) :
    (if c then (x >>= g) else (y >>= g)) = ((if c then x else y) >>= g) := by
  split <;> rfl

theorem told_loadHet (e : Env) (f : List Byte) (off : Nat) (h : MpqHeader) (hp : Spec.SanePlaces off h)
    (hm : Spec.NoAudioTables f off h) (hv : h.formatVersion = .v3 → h.v4Data = none) : Gives Told (loadHet e f off h) := by
  unfold loadHet
  split
  · exact gives_ok _
  · rename_i pos hpos
    split
    · exact gives_ok _
    · rename_i h0
      obtain ⟨size, hs, hfound⟩ := hetSize_found hp hpos h0 hv
      dsimp only
      rw [e1_res, hfound]
      show Gives Told (if size = 0#64 then _ else _)
      refine gives_ite (fun _ => gives_ok _) fun _ => ?_
      obtain ⟨p1, p2⟩ := hp.het pos hpos
      unfold addPos
      rw [if_pos p1]
      show Gives Told (tolerate _)
      refine told_tolerate (told_readHetTable _ _ _ _ _ (by rw [hs]; exact p2) (by rw [hashTableKey_eq]; decide) ?_)
      rw [hs]
      exact fun m => hm.het pos m hpos

theorem told_loadBet (e : Env) (f : List Byte) (off : Nat) (h : MpqHeader) (hp : Spec.SanePlaces off h)
    (hm : Spec.NoAudioTables f off h) (hv : h.formatVersion = .v3 → h.v4Data = none) : Gives Told (loadBet e f off h) := by
  unfold loadBet
  split
  · exact gives_ok _
  · rename_i pos hpos
    split
    · exact gives_ok _
    · rename_i h0
      obtain ⟨size, hs, hfound⟩ := betSize_found hp hpos h0 hv
      dsimp only
      rw [e1_res, hfound]
      show Gives Told (if size = 0#64 then _ else _)
      refine gives_ite (fun _ => gives_ok _) fun _ => ?_
      obtain ⟨p1, p2⟩ := hp.bet pos hpos
      unfold addPos
      rw [if_pos p1]
      show Gives Told (tolerate _)
      refine told_tolerate (told_readBetTable _ _ _ _ _ (by rw [hs]; exact p2) (by rw [blockTableKey_eq]; decide) ?_)
      rw [hs]
      exact fun m => hm.bet pos m hpos

/-- Which fields a header of each version has. -/
theorem readHeader_fields {r : List Byte} {h : MpqHeader} (hr : readHeader r = .ok h) : r ≠ [] ∧
    (h.formatVersion = .v1 → h.hiBlockTablePos = none) ∧
    (h.formatVersion = .v1 ∨ h.formatVersion = .v2 → h.betTablePos = none ∧ h.hetTablePos = none) ∧
    (h.formatVersion ≠ .v4 → h.v4Data = none) := by
  refine ⟨(by rintro rfl; cases hr), ?_⟩
  unfold readHeader at hr
  obtain ⟨⟨sig, r0⟩, _, hr⟩ := bind_eq_ok.1 hr
  dsimp only at hr
  by_cases hs : sig ≠ mpqSignature
  · rw [if_pos hs] at hr; cases hr
  rw [if_neg hs] at hr
  obtain ⟨⟨x1, r1⟩, _, hr⟩ := bind_eq_ok.1 hr
  obtain ⟨⟨x2, r2⟩, _, hr⟩ := bind_eq_ok.1 hr
  obtain ⟨⟨x3, r3⟩, _, hr⟩ := bind_eq_ok.1 hr
  obtain ⟨⟨x4, r4⟩, _, hr⟩ := bind_eq_ok.1 hr
  obtain ⟨⟨x5, r5⟩, _, hr⟩ := bind_eq_ok.1 hr
  obtain ⟨⟨x6, r6⟩, _, hr⟩ := bind_eq_ok.1 hr
  obtain ⟨⟨x7, r7⟩, _, hr⟩ := bind_eq_ok.1 hr
  obtain ⟨⟨x8, r8⟩, _, hr⟩ := bind_eq_ok.1 hr
  dsimp only at hr
  cases hv : FormatVersion.fromRaw x3 with
  | none => rw [hv] at hr; cases hr
  | some v =>
    rw [hv] at hr
    dsimp only at hr
    by_cases hz : x1.toNat < v.headerSize.toNat
    · rw [if_pos hz] at hr; cases hr
    rw [if_neg hz] at hr
    by_cases hv2 : (!v.ge .v2) = true
    · rw [if_pos hv2] at hr; cases hr; exact ⟨fun _ => rfl, fun _ => ⟨rfl, rfl⟩, fun _ => rfl⟩
    rw [if_neg hv2] at hr
    obtain ⟨⟨⟨a, b, c⟩, q2⟩, _, hr⟩ := bind_eq_ok.1 hr
    dsimp only at hr
    by_cases hv3 : (!v.ge .v3) = true
    · rw [if_pos hv3] at hr
      cases hr
      refine ⟨fun h1 => ?_, fun _ => ⟨rfl, rfl⟩, fun _ => rfl⟩
      dsimp only at h1; subst h1; exact absurd rfl hv2
    rw [if_neg hv3] at hr
    obtain ⟨⟨⟨a', b', c'⟩, q3⟩, _, hr⟩ := bind_eq_ok.1 hr
    dsimp only at hr
    by_cases hv4 : (!v.ge .v4) = true
    · rw [if_pos hv4] at hr
      cases hr
      refine ⟨fun h1 => ?_, fun h1 => ?_, fun _ => rfl⟩
      · dsimp only at h1; subst h1; exact absurd rfl hv2
      · dsimp only at h1; rcases h1 with h1 | h1 <;> subst h1 <;> exact absurd rfl hv3
    rw [if_neg hv4] at hr
    obtain ⟨⟨w, q4⟩, _, hr⟩ := bind_eq_ok.1 hr
    cases hr
    refine ⟨fun h1 => ?_, fun h1 => ?_, fun h1 => ?_⟩
    · dsimp only at h1; subst h1; exact absurd rfl hv2
    · dsimp only at h1; rcases h1 with h1 | h1 <;> subst h1 <;> exact absurd rfl hv3
    · dsimp only at h1; cases v <;> first | exact absurd rfl h1 | exact absurd rfl hv4

theorem findHeader_fields {f : List Byte} {off : Nat} {ud : Option UserDataHeader} {h : MpqHeader}
    (hf : findHeader f = .ok (off, ud, h)) : off < f.length ∧
    (h.formatVersion = .v1 → h.hiBlockTablePos = none) ∧
    (h.formatVersion = .v1 ∨ h.formatVersion = .v2 → h.betTablePos = none ∧ h.hetTablePos = none) ∧
    (h.formatVersion ≠ .v4 → h.v4Data = none) := by
  rcases C13_search_exact f with ⟨o, s, _, _, _, _, ud', _, _, hx⟩ | ⟨o, _, _, _, _, hx⟩ | ⟨_, hx⟩
  · rw [hf] at hx
    cases hr : readHeader (f.drop s) with
    | error err => rw [hr] at hx; cases hx
    | ok h' =>
      rw [hr] at hx
      cases hx
      obtain ⟨h1, h2⟩ := readHeader_fields hr
      refine ⟨?_, h2⟩
      apply Nat.lt_of_not_le
      intro hle
      exact h1 (List.drop_eq_nil_of_le hle)
  · rw [hf] at hx; cases hx
  · rw [hf] at hx; cases hx

/-- Table positions have 48 bits. -/
theorem tablePos_lt (h : MpqHeader) : h.getHashTablePos.toNat < 2 ^ 48 ∧ h.getBlockTablePos.toNat < 2 ^ 48 := by
  have key : ∀ (hi : U16) (lo : U32), ((hi.setWidth 64 <<< 32) ||| lo.setWidth 64 : U64).toNat < 2 ^ 48 := by
    intro hi lo
    rw [BitVec.toNat_or]
    apply Nat.or_lt_two_pow
    · rw [BitVec.toNat_shiftLeft, BitVec.toNat_setWidth]
      have := hi.isLt
      rw [Nat.shiftLeft_eq]
      omega
    · rw [BitVec.toNat_setWidth]
      have := lo.isLt
      omega
  have low : ∀ lo : U32, (lo.setWidth 64 : U64).toNat < 2 ^ 48 := by
    intro lo
    rw [BitVec.toNat_setWidth]
    have := lo.isLt
    omega
  unfold MpqHeader.getHashTablePos MpqHeader.getBlockTablePos
  constructor
  · split
    · exact key _ _
    · exact low _
  · split
    · exact key _ _
    · exact low _

/-- The archive as it is when the tables have been loaded and the attributes have not been looked for yet. -/
def openTables (e : Env) (f : List Byte) : Res Archive := do
  let (off, ud, h) ← findHeader f
  let het ← if h.formatVersion.ge .v3 then loadHet e f off h else pure none
  let bet ← if h.formatVersion.ge .v3 then loadBet e f off h else pure none
  let classic ← loadClassic f off h (usableHetBet het bet).isSome
  let hi ← loadHiBlock f off h
  return openedFrom f off ud h het bet classic hi none

theorem bind_res_assoc {α β γ : Type} (r : Res α) (g : α → Res β) (k : β → Res γ) :
    ((r >>= g) >>= k) = (r >>= fun x => g x >>= k) := by
  cases r <;> rfl

theorem openArchive_tables (e : Env) (f : List Byte) :
    openArchive e f = (openTables e f >>= fun a => a.loadAttributes e >>= fun t => pure { a with attributes := t }) := by
  unfold openArchive openTables
  rw [bind_res_assoc]
  congr 1
  funext ⟨off, ud, h⟩
  dsimp only
  rw [if_pos rfl]
  unfold Archive.loadTables
  dsimp only
  rw [e1_res, e1_res, bind_res_assoc]
  congr 1
  funext het
  rw [e1_res, e1_res, bind_res_assoc]
  congr 1
  funext bet
  rw [bind_res_assoc]
  congr 1
  funext classic
  rw [bind_res_assoc]
  rfl

theorem told_openTables (e : Env) (f : List Byte)
    (hp : ∀ off ud h, findHeader f = .ok (off, ud, h) → Spec.SanePlaces off h ∧ Spec.NoAudioTables f off h) :
    Gives Told (openTables e f) := by
  unfold openTables
  refine told_of_clean (clean_bind ⟨(C13_search_terminates f).2, (C13_search_terminates f).1⟩ fun x hx => clean_of_told ?_)
  obtain ⟨off, ud, h⟩ := x
  obtain ⟨p1, p2⟩ := hp _ _ _ hx
  obtain ⟨_, _, _, hv4⟩ := findHeader_fields hx
  have hv : h.formatVersion = .v3 → h.v4Data = none := fun h3 => hv4 (by rw [h3]; decide)
  dsimp only
  rw [e1_res]
  refine gives_bind (gives_ite (fun _ => told_loadHet _ _ _ _ p1 p2 hv) fun _ => gives_ok _) fun het => ?_
  rw [e1_res]
  refine gives_bind (gives_ite (fun _ => told_loadBet _ _ _ _ p1 p2 hv) fun _ => gives_ok _) fun bet => ?_
  exact gives_bind (told_loadClassic _ _ _ _ p1.hash p1.block) fun _ => gives_bind (told_loadHiBlock _ _ _ p1.hi) fun _ => gives_ok _

theorem told_parseAttributes (data : List Byte) (n : Nat) (h : n < 2 ^ 58) : Gives Told (parseAttributes data n) := by
  rw [parseAttributes_eq _ _ h]
  split
  · exact gives_ok _
  · exact gives_error ⟨nofun, nofun⟩

theorem told_unwrapAttributes (e : Env) (data : List Byte) (n : Nat) (h : n < 2 ^ 32) (hm : ∀ m, data.head? = some m → m.toNat < 64) :
    Gives Told (unwrapAttributes e data n) := by
  unfold unwrapAttributes
  split
  · refine gives_ite (fun _ => ?_) fun _ => gives_ok _
    refine gives_ite (fun _ => ?_) fun _ => gives_ok _
    exact gives_map (told_tolerate (told_of_clean (clean_decompress _ _ _ _ (hm _ rfl) (by omega))))
  · exact gives_ok _

theorem told_loadAttributes (e : Env) (a : Archive) (ht : ∀ t, a.blockTable = some t → t.length < 2 ^ 32)
    (hr : Gives Told (a.readFile e attributesName))
    (hm : ∀ data m, a.readFile e attributesName = .ok data → data.head? = some m → m.toNat < 64) :
    Gives Told (a.loadAttributes e) := by
  unfold Archive.loadAttributes
  split
  · exact gives_ok _
  · split
    · rename_i data hd
      have go : ∀ n, n < 2 ^ 32 → Gives Told (do
          let data ← unwrapAttributes e data n
          let attributes ← parseAttributes data n
          return some attributes) := fun n hn =>
        gives_bind (told_unwrapAttributes _ _ _ hn fun m => hm _ _ hd) fun _ =>
          gives_bind (told_parseAttributes _ _ (by omega)) fun _ => gives_ok _
      dsimp only
      split
      · rename_i t htt
        exact go _ (ht _ htt)
      · split
        · exact go _ (BitVec.isLt _)
        · exact gives_error ⟨nofun, nofun⟩
    · exact gives_ok _
    · rename_i err h1 h2
      exact gives_error (hr _ h2)

/-- What the loaded classic tables are like. -/
theorem openTables_classic {e : Env} {f : List Byte} {a : Archive} (h : openTables e f = .ok a) :
    (∀ t, a.blockTable = some t → t.length < 2 ^ 32) ∧ (∀ t, a.hashTable = some t → ∃ k, t.length = 2 ^ k) ∧
    (usableHetBet a.hetTable a.betTable = none → ∃ t b, a.hashTable = some t ∧ a.blockTable = some b) ∧
    (a.header.formatVersion.ge .v3 = false → a.hetTable = none) ∧
    findHeader f = .ok (a.archiveOffset, a.userData, a.header) := by
  unfold openTables at h
  obtain ⟨⟨off, ud, hdr⟩, h1, h⟩ := bind_eq_ok.1 h
  dsimp only at h
  rw [e1_res] at h
  obtain ⟨het, h2, h⟩ := bind_eq_ok.1 h
  rw [e1_res] at h
  obtain ⟨bet, h3, h⟩ := bind_eq_ok.1 h
  obtain ⟨classic, h4, h⟩ := bind_eq_ok.1 h
  obtain ⟨hi, h5, h⟩ := bind_eq_ok.1 h
  cases h
  have hhet : hdr.formatVersion.ge .v3 = false → het = none := by
    intro hv
    rw [hv] at h2
    cases h2; rfl
  unfold loadClassic at h4
  dsimp only [openedFrom]
  split at h4
  · obtain ⟨_, _, h4⟩ := bind_eq_ok.1 h4
    obtain ⟨t, ht, h4⟩ := bind_eq_ok.1 h4
    obtain ⟨_, _, h4⟩ := bind_eq_ok.1 h4
    obtain ⟨b, hb, h4⟩ := bind_eq_ok.1 h4
    cases h4
    refine ⟨?_, ?_, fun _ => ⟨t, b, rfl, rfl⟩, hhet, h1⟩
    · intro t' ht'
      cases ht'
      unfold readBlockTable at hb
      split at hb
      · cases hb
      · rw [parseEntries_length hb]; exact BitVec.isLt _
    · intro t' ht'
      cases ht'
      unfold readHashTable at ht
      split at ht
      · cases ht
      · rename_i hp
        split at ht
        · cases ht
        · rw [parseEntries_length ht]
          refine isPowerOfTwo_two_pow _ (BitVec.isLt _) ?_
          rw [BitVec.ofNat_toNat, BitVec.setWidth_eq]
          simpa using hp
  · rename_i hu
    cases h4
    refine ⟨nofun, nofun, fun hn => ?_, hhet, h1⟩
    rw [hn] at hu
    exact absurd rfl hu

theorem fullFilePos_lt (hi : Option (List U16)) (i : Nat) (b : BlockEntry) : (fullFilePos hi i b).toNat < 2 ^ 48 := by
  have low : (b.filePos.setWidth 64 : U64).toNat < 2 ^ 32 := by
    rw [BitVec.toNat_setWidth]
    have := b.filePos.isLt
    omega
  unfold fullFilePos
  split
  · rename_i t
    have : (getFilePosHigh t i).toNat < 2 ^ 16 := by
      unfold getFilePosHigh
      split
      · rename_i v _
        rw [BitVec.toNat_setWidth]
        have := v.isLt
        omega
      · decide
    rw [BitVec.toNat_or]
    apply Nat.or_lt_two_pow
    · rw [BitVec.toNat_shiftLeft, Nat.shiftLeft_eq]
      omega
    · omega
  · omega

/-- Looking for a file in the classic tables ends. -/
theorem told_findFileClassic (a : Archive) (name : List Byte) (ho : a.archiveOffset < 2 ^ 63)
    (ht : ∀ t, a.hashTable = some t → ∃ k, t.length = 2 ^ k) : Gives Told (a.findFileClassic name) := by
  unfold Archive.findFileClassic
  split
  · exact gives_error ⟨nofun, nofun⟩
  · rename_i t htt
    obtain ⟨k, hk⟩ := ht _ htt
    split
    · exact gives_error ⟨nofun, nofun⟩
    · rw [findFileHash_findO hk]
      refine gives_bind (gives_ok _) fun r => ?_
      split
      · exact gives_ok _
      · split
        · exact gives_throw ⟨nofun, nofun⟩
        · rename_i b _
          refine gives_bind (told_addPos ?_) fun _ => gives_ok _
          have := fullFilePos_lt a.hiBlockTable
          exact Nat.lt_of_lt_of_le (Nat.add_lt_add ho (this _ b)) (by decide)

/-- C75: opening a file with loading of the tables deferred ends with an archive or an error, whatever the file contains. -/
theorem C75_deferred_opening_ends (e : Env) (f : List Byte) : Gives Told (openArchive e f false) := by
  unfold openArchive
  refine told_of_clean (clean_bind ⟨(C13_search_terminates f).2, (C13_search_terminates f).1⟩ fun x _ => ?_)
  exact clean_ok _

/-- C75, partial: opening a file ends with an archive or with an error, provided that

* the positions and sizes in the header can be reckoned with (`SanePlaces`),
* no HET or BET table names an audio codec,
* reading `(attributes)` ends, see C25, and its content does not start with the method byte of an audio codec.

Missing: the excluded cases, where it can panic (theorems below and C19). -/
theorem C75_opening_ends_partial (e : Env) (f : List Byte)
    (hp : ∀ a, openArchive e f false = .ok a → Spec.SanePlaces a.archiveOffset a.header ∧
      Spec.NoAudioTables f a.archiveOffset a.header)
    (hattr : ∀ a, openTables e f = .ok a → Gives Told (a.readFile e attributesName) ∧
      ∀ data m, a.readFile e attributesName = .ok data → data.head? = some m → m.toNat < 64) :
    Gives Told (openArchive e f) := by
  rw [openArchive_tables]
  refine told_of_clean (clean_bind (clean_of_told (told_openTables e f ?_)) fun a ha => clean_of_told ?_)
  · intro off ud h hf
    exact hp (openedFrom f off ud h none none none none none) (by unfold openArchive; rw [hf]; rfl)
  · exact gives_bind (told_loadAttributes _ _ (openTables_classic ha).1 (hattr a ha).1 (hattr a ha).2) fun _ => gives_ok _

/-- C75: an archive of version 1 or 2 in whose hash table no entry carries the name `(attributes)` opens or gives an error,
whatever else the file contains, as long as the file is shorter than 2^63 bytes and the position of the hi-block table (version
2) does not lie 2^64 bytes or more behind the start of the file. -/
theorem C75_classic_opening_ends (e : Env) (f : List Byte) (hlen : f.length < 2 ^ 63)
    (hv : ∀ a, openArchive e f false = .ok a → a.header.formatVersion = .v1 ∨ a.header.formatVersion = .v2 ∧
      ∀ pos, a.header.hiBlockTablePos = some pos → a.archiveOffset + pos.toNat < 2 ^ 64)
    (hno : ∀ a t en, openTables e f = .ok a → a.hashTable = some t → en ∈ t →
      ¬ (en.name1 = hashString attributesName 1 ∧ en.name2 = hashString attributesName 2)) :
    Gives Told (openArchive e f) := by
  have hdr : ∀ a, openArchive e f false = .ok a → ∃ ud, findHeader f = .ok (a.archiveOffset, ud, a.header) := by
    intro a ha
    unfold openArchive at ha
    obtain ⟨⟨off, ud, h⟩, h1, ha⟩ := bind_eq_ok.1 ha
    cases ha
    exact ⟨ud, h1⟩
  refine C75_opening_ends_partial e f (fun a ha => ?_) fun a ha => ?_
  · obtain ⟨ud, hf⟩ := hdr a ha
    obtain ⟨f1, f2, f3, f4⟩ := findHeader_fields hf
    obtain ⟨p1, p2⟩ := tablePos_lt a.header
    have h12 : a.header.formatVersion = .v1 ∨ a.header.formatVersion = .v2 := (hv a ha).imp id And.left
    obtain ⟨hb, hh⟩ := f3 h12
    have h3 : a.header.formatVersion ≠ .v3 := by rcases h12 with h | h <;> rw [h] <;> decide
    refine ⟨⟨by omega, by omega, fun pos hpos => ?_, ?_, ?_, fun h => absurd h h3, fun h => absurd h h3⟩, ⟨?_, ?_⟩⟩
    · rcases hv a ha with h1 | ⟨_, h2⟩
      · rw [f2 h1] at hpos; cases hpos
      · exact h2 pos hpos
    · intro pos hpos; rw [hh] at hpos; cases hpos
    · intro pos hpos; rw [hb] at hpos; cases hpos
    · intro pos m hpos; rw [hh] at hpos; cases hpos
    · intro pos m hpos; rw [hb] at hpos; cases hpos
  · have hmiss : a.findFile attributesName = .ok none := by
      obtain ⟨_, q2, q3, q4, q5⟩ := openTables_classic ha
      have hh : a.hetTable = none := by
        apply q4
        rcases hv (openedFrom f a.archiveOffset a.userData a.header none none none none none)
          (by unfold openArchive; rw [q5]; rfl) with h | ⟨h, _⟩ <;> dsimp only [openedFrom] at h <;> rw [h] <;> decide
      have hu : usableHetBet a.hetTable a.betTable = none := by rw [hh]; rfl
      obtain ⟨t, b, ht, hb⟩ := q3 hu
      obtain ⟨k, hk⟩ := q2 t ht
      unfold Archive.findFile
      rw [hu]
      dsimp only
      unfold Archive.findFileClassic
      rw [ht, hb]
      dsimp only
      rw [findFileHash_findO hk]
      have hnone : findO t attributesName 0 = none := by
        cases hfo : findO t attributesName 0 with
        | none => rfl
        | some r =>
          obtain ⟨j, hj, hhit, _, _⟩ := (findO_eq_some rfl).1 hfo
          unfold HashEntry.isHit at hhit
          simp only [Bool.and_eq_true, beq_iff_eq] at hhit
          have hm : t.at (probe t.length (startOf t.length attributesName) j) ∈ t :=
            List.mem_of_getElem? (HashTable.get_at (probe_lt (by omega)))
          exact absurd hhit.1 (hno a t _ ha ht hm)
      rw [hnone]
      rfl
    have := open_readFile_missing e a _ hmiss
    rw [this]
    exact ⟨gives_error ⟨nofun, nofun⟩, nofun⟩

/-- C75: in an archive of version 1 or 2 (a file shorter than 2^63 bytes) that is open, the search for any name ends. -/
theorem C75_classic_lookup_ends (e : Env) (f : List Byte) (a : Archive) (hlen : f.length < 2 ^ 63) (h : openArchive e f = .ok a)
    (hv : a.header.formatVersion = .v1 ∨ a.header.formatVersion = .v2) (name : List Byte) : Gives Told (a.findFile name) := by
  rw [openArchive_tables] at h
  obtain ⟨a', h1, h⟩ := bind_eq_ok.1 h
  obtain ⟨t, _, h⟩ := bind_eq_ok.1 h
  cases h
  obtain ⟨_, q2, q3, q4, q5⟩ := openTables_classic h1
  have hh : a'.hetTable = none := q4 (by rcases hv with h | h <;> dsimp only at h <;> rw [h] <;> decide)
  have ho := (findHeader_fields q5).1
  have := told_findFileClassic { a' with attributes := t } name (Nat.lt_trans ho hlen) q2
  unfold Archive.findFile
  dsimp only
  rw [hh]
  exact this

theorem openArchive_header {e : Env} {f : List Byte} {a : Archive} (h : openArchive e f false = .ok a) :
    findHeader f = .ok (a.archiveOffset, a.userData, a.header) := by
  unfold openArchive at h
  obtain ⟨⟨off, ud, hdr⟩, h1, h⟩ := bind_eq_ok.1 h
  cases h
  exact h1

theorem panic_of_het {e : Env} {f : List Byte} {a : Archive} (h : openArchive e f false = .ok a)
    (hv : a.header.formatVersion.ge .v3 = true) (hp : loadHet e f a.archiveOffset a.header = .error .panic) :
    openArchive e f = .error .panic := by
  rw [openArchive_tables]
  unfold openTables
  rw [openArchive_header h]
  show (((if a.header.formatVersion.ge .v3 = true then _ else _) : Res Archive) >>= _) = _
  rw [e1_res, if_pos hv, hp]
  rfl

/-- C75 fails: opening panics for

* every archive of version 3 whose HET table lies behind its hash table and not in front of its BET table (the size of the
  table is taken for the distance, which is negative then),
* every archive of version 4 whose HET table of size 2^63 or more starts inside the first 2^63 bytes,
* every archive of version 4 with a HET table at a position that together with the offset of the archive exceeds 64 bits. -/
theorem C75_violated_het_place (e : Env) (f : List Byte) (a : Archive) (h : openArchive e f false = .ok a) (pos : U64)
    (hpos : a.header.hetTablePos = some pos) (h0 : pos ≠ 0#64) :
    (a.header.formatVersion = .v3 → a.header.getHashTablePos.toNat < pos.toNat →
      (∀ b, a.header.betTablePos = some b → b.toNat ≤ pos.toNat) → openArchive e f = .error .panic) ∧
    (∀ v, a.header.formatVersion = .v4 → a.header.v4Data = some v → 2 ^ 63 ≤ v.hetTableSize64.toNat →
      a.archiveOffset + pos.toNat < 2 ^ 63 → openArchive e f = .error .panic) ∧
    (∀ v, a.header.formatVersion = .v4 → a.header.v4Data = some v → v.hetTableSize64 ≠ 0#64 →
      2 ^ 64 ≤ a.archiveOffset + pos.toNat → openArchive e f = .error .panic) := by
  have hf := findHeader_fields (openArchive_header h)
  refine ⟨?_, ?_, ?_⟩
  · intro hv hlt hb
    refine panic_of_het h (by rw [hv]; decide) ?_
    have hs : hetTableSizeOf a.header pos = .error .panic := by
      unfold hetTableSizeOf
      have : sub64 a.header.getHashTablePos pos = .error .panic := if_neg (by omega)
      split
      · rename_i b hbb
        rw [if_neg (Nat.not_lt.2 (hb b hbb))]
        exact this
      · exact this
    unfold loadHet
    rw [hpos]
    dsimp only
    rw [if_neg h0, hf.2.2.2 (by rw [hv]; decide), hv, e1_res]
    show ((if (true && _) = true then _ else _) >>= _) = _
    rw [if_pos (by decide), hs]
    rfl
  · intro v hv hd hs hlt
    refine panic_of_het h (by rw [hv]; decide) ?_
    unfold loadHet
    rw [hpos]
    dsimp only
    rw [if_neg h0, hd, hv, e1_res]
    have hz : v.hetTableSize64 ≠ 0#64 := by
      intro hz
      rw [hz] at hs
      exact absurd hs (by decide)
    rw [if_neg (by rw [Bool.and_eq_true]; exact fun hh => absurd hh.2 (by decide))]
    show (if v.hetTableSize64 = 0#64 then _ else _) = _
    rw [if_neg hz]
    unfold addPos
    rw [if_pos (by omega)]
    show tolerate _ = _
    unfold readHetTable readExtTable readVec
    rw [if_pos ⟨hlt, hs⟩]
    rfl
  · intro v hv hd hz hlt
    refine panic_of_het h (by rw [hv]; decide) ?_
    unfold loadHet
    rw [hpos]
    dsimp only
    rw [if_neg h0, hd, hv, e1_res]
    rw [if_neg (by rw [Bool.and_eq_true]; exact fun hh => absurd hh.2 (by decide))]
    show (if v.hetTableSize64 = 0#64 then _ else _) = _
    rw [if_neg hz]
    unfold addPos
    rw [if_neg (by omega)]
    rfl

/-- C75 fails: opening panics for every archive of version 2 whose hash and block tables can be read and whose hi-block table
is said to lie at a position that together with the offset of the archive exceeds 64 bits. -/
theorem C75_violated_hi_place (e : Env) (f : List Byte) (a : Archive) (h : openArchive e f false = .ok a)
    (hv : a.header.formatVersion = .v2) (t : HashTable) (b : List BlockEntry)
    (ht : readHashTable f (a.archiveOffset + a.header.getHashTablePos.toNat) a.header.hashTableSize = .ok t)
    (hb : readBlockTable f (a.archiveOffset + a.header.getBlockTablePos.toNat) a.header.blockTableSize = .ok b)
    (pos : U64) (hpos : a.header.hiBlockTablePos = some pos) (hlt : 2 ^ 64 ≤ a.archiveOffset + pos.toNat) (hlen : f.length < 2 ^ 63) :
    openArchive e f = .error .panic := by
  have hf := findHeader_fields (openArchive_header h)
  obtain ⟨p1, p2⟩ := tablePos_lt a.header
  rw [openArchive_tables]
  unfold openTables
  rw [openArchive_header h]
  show (((if a.header.formatVersion.ge .v3 = true then _ else _) : Res Archive) >>= _) = _
  rw [e1_res, hv, if_neg (by decide)]
  show ((loadClassic f a.archiveOffset a.header false >>= _) >>= _) = _
  have hc : loadClassic f a.archiveOffset a.header false = .ok (some (t, b)) := by
    unfold loadClassic addPos
    rw [if_pos (by rfl), if_pos (by omega), if_pos (by omega)]
    exact bind_eq_ok.2 ⟨_, rfl, bind_eq_ok.2 ⟨_, ht, bind_eq_ok.2 ⟨_, rfl, bind_eq_ok.2 ⟨_, hb, rfl⟩⟩⟩⟩
  rw [hc]
  show ((loadHiBlock f a.archiveOffset a.header >>= _) >>= _) = _
  unfold loadHiBlock addPos
  rw [hpos]
  dsimp only
  rw [if_neg (by
    rintro rfl
    have : (0#64).toNat = 0 := rfl
    omega), if_neg (by omega)]
  rfl

/-- C75 fails: opening panics for every archive with usable HET and BET tables when the HET table says that its entries have no
bits or that it has no entries: the search for `(attributes)` divides by the one and counts down from the other. -/
theorem C75_violated_het_entries (e : Env) (f : List Byte) (a : Archive) (h : openTables e f = .ok a) (het : HetTable) (bet : BetTable)
    (hu : usableHetBet a.hetTable a.betTable = some (het, bet))
    (hz : het.header.hashEntrySize = 0#32 ∨ het.header.hashTableSize = 0#32) :
    openArchive e f = .error .panic := by
  rw [openArchive_tables, h]
  show (a.loadAttributes e >>= _) = _
  have hatt : a.attributes = none := by
    unfold openTables at h
    obtain ⟨⟨off, ud, hdr⟩, h1, h⟩ := bind_eq_ok.1 h
    dsimp only at h
    rw [e1_res] at h
    obtain ⟨_, h2, h⟩ := bind_eq_ok.1 h
    rw [e1_res] at h
    obtain ⟨_, h3, h⟩ := bind_eq_ok.1 h
    obtain ⟨_, h4, h⟩ := bind_eq_ok.1 h
    obtain ⟨_, h5, h⟩ := bind_eq_ok.1 h
    cases h
    rfl
  have hfind : het.findFile attributesName = .error .panic := by
    unfold HetTable.findFile
    dsimp only
    unfold u32Checked
    split
    · show (if het.header.hashEntrySize = 0#32 then _ else _) = _
      by_cases h1 : het.header.hashEntrySize = 0#32
      · rw [if_pos h1]; rfl
      · rw [if_neg h1]
        have h2 := hz.resolve_left h1
        rw [h2]
        show (if 0 / _ = 0 then _ else _) = _
        rw [if_pos (Nat.zero_div _)]
        rfl
    · rfl
  have hr : a.readFile e attributesName = .error .panic := by
    unfold Archive.readFile Archive.findFile
    rw [hu]
    dsimp only
    unfold hetBetFind
    rw [hfind]
    rfl
  unfold Archive.loadAttributes
  rw [hatt, hr]
  rfl

/-! ## Cases -/

/-- A header of version 3 with the HET table at 200, the BET table at 100 and the hash table at 50. -/
def behindHash : List Byte :=
  le32 mpqSignature ++ le32 68 ++ le32 68 ++ le16 2 ++ le16 3 ++ le32 50 ++ le32 50 ++ le32 1 ++ le32 0 ++
  (le64 0 ++ le16 0 ++ le16 0) ++ (le64 68 ++ le64 100 ++ le64 200)

/-- A header of version 4 with a HET table of 2^63 bytes. -/
def endlessHet : List Byte :=
  le32 mpqSignature ++ le32 208 ++ le32 208 ++ le16 3 ++ le16 3 ++ le32 50 ++ le32 50 ++ le32 1 ++ le32 0 ++
  (le64 0 ++ le16 0 ++ le16 0) ++ (le64 68 ++ le64 100 ++ le64 200) ++
  (le64 0 ++ le64 0 ++ le64 0 ++ le64 0x8000000000000000 ++ le64 0 ++ le32 0 ++ List.replicate 96 0)

/-- Both open without their tables. -/
theorem cases_found : (∃ ud h, findHeader behindHash = .ok (0, ud, h) ∧ h.formatVersion = .v3 ∧ h.getHashTablePos = 50#64 ∧
      h.betTablePos = some 100#64 ∧ h.hetTablePos = some 200#64) ∧
    (∃ ud h v, findHeader endlessHet = .ok (0, ud, h) ∧ h.formatVersion = .v4 ∧ h.hetTablePos = some 200#64 ∧ h.v4Data = some v ∧
      v.hetTableSize64 = 0x8000000000000000#64) := by
  have look : ∀ {α : Type} (r : Res α) (p : α → Bool), (match r with | .ok x => p x | .error _ => false) = true →
      ∃ x, r = .ok x ∧ p x = true := by
    intro α r p h
    cases r with
    | ok x => exact ⟨x, rfl, h⟩
    | error x => cases h
  constructor
  · obtain ⟨⟨o, ud, h⟩, h1, h2⟩ := look (findHeader behindHash) (fun x => decide (x.1 = 0 ∧ x.2.2.formatVersion = .v3 ∧
      x.2.2.getHashTablePos = 50#64 ∧ x.2.2.betTablePos = some 100#64 ∧ x.2.2.hetTablePos = some 200#64)) (by decide +kernel)
    have h2 := of_decide_eq_true h2
    dsimp only at h2
    obtain ⟨rfl, h3⟩ := h2
    exact ⟨ud, h, h1, h3⟩
  · obtain ⟨⟨o, ud, h⟩, h1, h2⟩ := look (findHeader endlessHet) (fun x => decide (x.1 = 0 ∧ x.2.2.formatVersion = .v4 ∧
      x.2.2.hetTablePos = some 200#64 ∧ x.2.2.v4Data.map (·.hetTableSize64) = some 0x8000000000000000#64)) (by decide +kernel)
    have h2 := of_decide_eq_true h2
    dsimp only at h2
    obtain ⟨rfl, h2, h3, h4⟩ := h2
    cases hv : h.v4Data with
    | none => rw [hv] at h4; cases h4
    | some v =>
      rw [hv] at h4
      exact ⟨ud, h, v, h1, h2, h3, hv, by simpa using h4⟩

/-- The two headers alone make opening panic. -/
example (e : Env) : openArchive e behindHash = .error .panic ∧ openArchive e endlessHet = .error .panic := by
  obtain ⟨⟨ud, h, h1, h2, h3, h4, h5⟩, ⟨ud', h', v, k1, k2, k3, k4, k5⟩⟩ := cases_found
  constructor
  · refine (C75_violated_het_place e behindHash (openedFrom behindHash 0 ud h none none none none none)
      (by unfold openArchive; rw [h1]; rfl) 200#64 h5 (by decide)).1 h2 ?_ ?_
    · dsimp only [openedFrom]; rw [h3]; decide
    · intro b hb
      dsimp only [openedFrom] at hb
      rw [h4] at hb
      cases hb
      decide
  · refine (C75_violated_het_place e endlessHet (openedFrom endlessHet 0 ud' h' none none none none none)
      (by unfold openArchive; rw [k1]; rfl) 200#64 k3 (by decide)).2.1 v k2 k4 ?_ ?_
    · rw [k5]; decide
    · dsimp only [openedFrom]; decide

/-- The tables that C74 cuts, with anything behind them: no entry is named `(attributes)`. -/
example (x1 x2 : U32) (f1 : x1 = hashString (ascii "a") 1) (f2 : x2 = hashString (ascii "a") 2) (more : List Byte)
    (hlen : (frontTables ⟨x1, x2, 0, 0, 0⟩ ++ more).length < 2 ^ 63) :
    Gives Told (openArchive toyEnv (frontTables ⟨x1, x2, 0, 0, 0⟩ ++ more)) := by
  obtain ⟨a, ha, _, hv, _, ht⟩ := front_opens x1 x2 f1 f2 more
  generalize frontTables ⟨x1, x2, 0, 0, 0⟩ ++ more = f at ha hlen ⊢
  rw [openArchive_tables] at ha
  obtain ⟨a', h1, ha⟩ := bind_eq_ok.1 ha
  obtain ⟨t, _, ha⟩ := bind_eq_ok.1 ha
  cases ha
  refine C75_classic_opening_ends toyEnv f hlen (fun b hb => .inl ?_) fun b t en hb hbt hen => ?_
  · have := openArchive_header hb
    rw [(openTables_classic h1).2.2.2.2] at this
    injection this with this
    injection this with _ e2
    injection e2 with _ e3
    rw [← e3]
    exact hv
  · rw [h1] at hb
    cases hb
    dsimp only at ht
    rw [ht] at hbt
    cases hbt
    cases List.mem_singleton.1 hen
    dsimp only
    rw [f1]
    exact fun h => attributes_not_a h.1.symm

theorem parseEntries_ok : ∀ (n : Nat) (raw : List Byte), 16 * n ≤ raw.length →
    ∃ t, parseEntries HashEntry.fromBytes n raw = .ok t := by
  intro n
  induction n with
  | zero => intro raw _; exact ⟨[], rfl⟩
  | succ n ih =>
    intro raw h
    obtain ⟨t, ht⟩ := ih (raw.drop 16) (by rw [List.length_drop]; omega)
    obtain ⟨x, hx⟩ : ∃ x, HashEntry.fromBytes (raw.take 16) = .ok x := by
      unfold HashEntry.fromBytes
      rw [if_neg (by rw [List.length_take]; omega)]
      exact ⟨_, rfl⟩
    exact ⟨x :: t, by rw [parseEntries, hx, ht]⟩

/-- A hash table can be read wherever there are enough bytes. -/
theorem readHashTable_there (f : List Byte) (off : Nat) (n : U32) (hn : isPowerOfTwo n = true) (h : off + n.toNat * 16 ≤ f.length) :
    ∃ t, readHashTable f off n = .ok t := by
  unfold readHashTable
  rw [if_neg (by rw [hn]; decide), readAt_ok h]
  refine parseEntries_ok _ _ ?_
  rw [ofDwords_length, decryptBlock_length, toDwords_length, slice_length _ _ _ h]
  omega

/-- A hash table of one entry, none of the block table, and a hi-block table at the very end of the 64-bit range. The archive
stands behind 512 other bytes. -/
def farHiBlock : List Byte :=
  List.replicate 512 0 ++ (le32 mpqSignature ++ le32 44 ++ le32 60 ++ le16 1 ++ le16 3 ++ le32 44 ++ le32 60 ++ le32 1 ++ le32 0 ++
  (le64 0xFFFFFFFFFFFFFFFF ++ le16 0 ++ le16 0)) ++ List.replicate 16 0

/-- Opening it panics. -/
example (e : Env) : openArchive e farHiBlock = .error .panic := by
  have h : (match findHeader farHiBlock with
      | .ok x => decide (x.1 = 512 ∧ x.2.2.formatVersion = .v2 ∧ x.2.2.getHashTablePos = 44#64 ∧ x.2.2.getBlockTablePos = 60#64 ∧
          x.2.2.hashTableSize = 1#32 ∧ x.2.2.blockTableSize = 0#32 ∧ x.2.2.hiBlockTablePos = some 0xFFFFFFFFFFFFFFFF#64)
      | .error _ => false) = true := by decide +kernel
  cases hf : findHeader farHiBlock with
  | error x => rw [hf] at h; cases h
  | ok x =>
    obtain ⟨off, ud, hdr⟩ := x
    rw [hf] at h
    obtain ⟨h1, h2, h3, h4, h5, h6, h7⟩ := of_decide_eq_true h
    dsimp only at h1 h2 h3 h4 h5 h6 h7
    subst h1
    have hlen : farHiBlock.length = 572 := by decide +kernel
    obtain ⟨t, ht⟩ := readHashTable_there farHiBlock 556 1#32 (by decide) (by rw [hlen]; decide)
    refine C75_violated_hi_place e farHiBlock (openedFrom farHiBlock 512 ud hdr none none none none none)
      (by unfold openArchive; rw [hf]; rfl) h2 t [] ?_ ?_ 0xFFFFFFFFFFFFFFFF#64 h7 (by dsimp only [openedFrom]; decide) (by rw [hlen]; decide)
    · dsimp only [openedFrom]; rw [h3, h5]; exact ht
    · dsimp only [openedFrom]; rw [h4, h6]; rfl

/-- A header of version 3 with the HET table at 68, the BET table at 112 and no hash table, which would be at 200. -/
def extOnly : List Byte :=
  le32 mpqSignature ++ le32 68 ++ le32 200 ++ le16 2 ++ le16 3 ++ le32 200 ++ le32 200 ++ le32 0 ++ le32 0 ++
  (le64 0 ++ le16 0 ++ le16 0) ++ (le64 200 ++ le64 112 ++ le64 68)

/-- A HET table for one file, with entries of no bits. -/
def emptyHet : HetHeader := ⟨44, 1, 0, 0, 0, 0, 0, 0⟩
/-- A BET table with one file. -/
def emptyBet : BetHeader := ⟨88, 1, 0, 0, 0, 0, 0, 0, 0, 0, 0, 0, 0, 0, 0, 0, 0, 0, 0⟩

/-- A file with these tables, which have been encrypted to `het` and `bet`. -/
def extFile (het bet : List Byte) : List Byte :=
  extOnly ++ (extHeaderBytes 0x1A544548#32 32 ++ het) ++ (extHeaderBytes 0x1A544542#32 76 ++ bet)

theorem asRead_dwords (t : List Byte) (key : U32) (hk : key ≠ 0) (h : t.length % 4 = 0) : asRead t key = t := by
  have : t.length / 4 * 4 = t.length := by omega
  rw [asRead, decryptTable_encrypt t key hk, this, List.take_length, List.drop_eq_nil_of_le (by rw [encryptData_length]; omega),
    List.append_nil]

theorem extOnly_header : ∃ ud h, findHeader extOnly = .ok (0, ud, h) ∧ h.formatVersion = .v3 ∧ h.getHashTablePos = 200#64 ∧
    h.hetTablePos = some 68#64 ∧ h.hashTableSize = 0#32 ∧ h.betTablePos = some 112#64 ∧ h.hiBlockTablePos = some 0#64 ∧
    h.v4Data = none := by
  have h : (match findHeader extOnly with
      | .ok x => decide (x.1 = 0 ∧ x.2.2.formatVersion = .v3 ∧ x.2.2.getHashTablePos = 200#64 ∧ x.2.2.hetTablePos = some 68#64 ∧
          x.2.2.hashTableSize = 0#32 ∧ x.2.2.betTablePos = some 112#64 ∧ x.2.2.hiBlockTablePos = some 0#64)
      | .error _ => false) = true := by decide +kernel
  cases hf : findHeader extOnly with
  | error x => rw [hf] at h; cases h
  | ok x =>
    obtain ⟨off, ud, hdr⟩ := x
    rw [hf] at h
    obtain ⟨h1, h2, h3, h4, h5, h6, h7⟩ := of_decide_eq_true h
    dsimp only at h1 h2 h3 h4 h5 h6 h7
    subst h1
    exact ⟨ud, hdr, rfl, h2, h3, h4, h5, h6, h7, (findHeader_fields hf).2.2.2 (by rw [h2]; decide)⟩

theorem ext_load (e : Env) (F : List Byte) (hdr : MpqHeader) (h2 : hdr.formatVersion = .v3) (h3 : hdr.getHashTablePos = 200#64)
    (h4 : hdr.hetTablePos = some 68#64) (h6 : hdr.betTablePos = some 112#64) (hv4 : hdr.v4Data = none) (het : HetTable) (bet : BetTable)
    (rhet : readHetTable e.codecs F 68 44 hashTableKey = .ok het)
    (rbet : readBetTable e.codecs F 112 88 blockTableKey = .ok bet) :
    loadHet e F 0 hdr = .ok (some het) ∧ loadBet e F 0 hdr = .ok (some bet) := by
  unfold loadHet loadBet
  generalize hashTableKey = key1 at rhet ⊢
  generalize blockTableKey = key2 at rbet ⊢
  rw [h4, h6]
  dsimp only
  constructor
  · rw [if_neg (by decide), hv4, h2, e1_res, if_pos (by decide)]
    unfold hetTableSizeOf
    rw [h6, h3]
    show tolerate (readHetTable e.codecs F 68 44 key1) = _
    rw [rhet]
    rfl
  · rw [if_neg (by decide), hv4, h2, e1_res, if_pos (by decide)]
    unfold betTableSizeOf
    rw [h3]
    show tolerate (readBetTable e.codecs F 112 88 key2) = _
    rw [rbet]
    rfl

theorem ext_tables (e : Env) (E1 E2 : List Byte) (hE1 : E1 = encryptData emptyHet.toBytes hashTableKey)
    (hE2 : E2 = encryptData emptyBet.toBytes blockTableKey) : ∃ a, openTables e (extFile E1 E2) = .ok a ∧
    usableHetBet a.hetTable a.betTable = some (⟨emptyHet, [], []⟩, ⟨emptyBet, [], [], []⟩) := by
  have hlen : extOnly.length = 68 := by decide +kernel
  obtain ⟨ud, hdr, hf, h2, h3, h4, h5, h6, h7, hv4⟩ := extOnly_header
  have k1 : hashTableKey ≠ 0 := by rw [hashTableKey_eq]; decide
  have k2 : blockTableKey ≠ 0 := by rw [blockTableKey_eq]; decide
  have hhet := readExt_written e.codecs extOnly (extHeaderBytes 0x1A544542#32 76 ++ E2)
    0x1A544548#32 32 emptyHet.toBytes hashTableKey k1 (by rw [HetHeader.toBytes_length]; decide)
    (by rw [HetHeader.toBytes_length]; decide) (by intro hh; have := emptyHet.toBytes_length; rw [hh] at this; cases this)
  have hbet := readExt_written e.codecs (extOnly ++ (extHeaderBytes 0x1A544548#32 32 ++ E1)) []
    0x1A544542#32 76 emptyBet.toBytes blockTableKey k2 (by rw [BetHeader.toBytes_length]; decide)
    (by rw [BetHeader.toBytes_length]; decide) (by intro hh; have := emptyBet.toBytes_length; rw [hh] at this; cases this)
  have hl1 := encryptData_length emptyHet.toBytes hashTableKey
  rw [← hE1] at hhet hl1
  rw [← hE2] at hbet
  have hkeep := findHeader_keeps ((extHeaderBytes 0x1A544548#32 32 ++ E1) ++ (extHeaderBytes 0x1A544542#32 76 ++ E2)) _ _ _ _ hf
    (fun o _ _ ho => absurd ho (Nat.not_lt_zero o))
  have n1 : 12 + 32 = 44 := rfl
  have n2 : 12 + 76 = 88 := rfl
  have n3 : 68 + 44 = 112 := rfl
  rw [List.append_nil] at hbet
  rw [asRead_dwords _ _ k1 (by rw [HetHeader.toBytes_length]), hlen, HetHeader.toBytes_length, n1] at hhet
  rw [asRead_dwords _ _ k2 (by rw [BetHeader.toBytes_length]), List.length_append, List.length_append, extHeaderBytes_length,
    hl1, hlen, HetHeader.toBytes_length, BetHeader.toBytes_length, n1, n2, n3] at hbet
  rw [← List.append_assoc] at hkeep
  unfold extFile
  generalize extOnly ++ (extHeaderBytes 0x1A544548#32 32 ++ E1) ++ (extHeaderBytes 0x1A544542#32 76 ++ E2) = F at hkeep hhet hbet ⊢
  have phet := parseHetHeader_toBytes emptyHet []
  have pbet := parseBetHeader_toBytes emptyBet []
  rw [List.append_nil] at phet pbet
  obtain ⟨lhet, lbet⟩ := ext_load e F hdr h2 h3 h4 h6 hv4 ⟨emptyHet, [], []⟩ ⟨emptyBet, [], [], []⟩
    (by
      unfold readHetTable
      refine bind_eq_ok.2 ⟨_, hhet, bind_eq_ok.2 ⟨_, phet, ?_⟩⟩
      decide)
    (by
      unfold readBetTable
      refine bind_eq_ok.2 ⟨_, hbet, bind_eq_ok.2 ⟨_, pbet, ?_⟩⟩
      decide)
  refine ⟨openedFrom F 0 ud hdr (some ⟨emptyHet, [], []⟩) (some ⟨emptyBet, [], [], []⟩) none none none, ?_, rfl⟩
  have hge : hdr.formatVersion.ge .v3 = true := by rw [h2]; decide
  unfold openTables
  refine bind_eq_ok.2 ⟨_, hkeep, ?_⟩
  dsimp only
  rw [e1_res, if_pos hge]
  refine bind_eq_ok.2 ⟨_, lhet, ?_⟩
  rw [e1_res, if_pos hge]
  refine bind_eq_ok.2 ⟨_, lbet, bind_eq_ok.2 ⟨none, ?_, bind_eq_ok.2 ⟨none, ?_, rfl⟩⟩⟩
  · unfold loadClassic
    rw [h5]
    rfl
  · unfold loadHiBlock
    rw [h7]
    rfl

/-- Opening it panics. -/
example (e : Env) (E1 E2 : List Byte) (hE1 : E1 = encryptData emptyHet.toBytes hashTableKey)
    (hE2 : E2 = encryptData emptyBet.toBytes blockTableKey) : openArchive e (extFile E1 E2) = .error .panic := by
  obtain ⟨a, h, hu⟩ := ext_tables e E1 E2 hE1 hE2
  exact C75_violated_het_entries e _ a h _ _ hu (.inl rfl)

end Mopaq
