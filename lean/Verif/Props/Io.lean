import Verif.Model.Io

/-! # Reading at a place (C78) -/

namespace Mopaq

theorem readExactFrom_ok (f : List Byte) : ∀ (answers : List Answer) (pos room : Nat) (bytes : List Byte) (pos' : Nat),
    readExactFrom f answers pos room = (.ok bytes, pos') →
    bytes = slice f pos room ∧ pos' = pos + room ∧ (room = 0 ∨ pos + room ≤ f.length) := by
  intro answers
  induction answers with
  | nil =>
    intro pos room bytes pos' h
    cases room with
    | zero => cases h; exact ⟨by simp [slice], rfl, .inl rfl⟩
    | succ room =>
      unfold readExactFrom at h
      split at h
      · cases h; exact ⟨rfl, rfl, .inr (by assumption)⟩
      · cases h
  | cons a rest ih =>
    intro pos room bytes pos' h
    cases room with
    | zero => cases a <;> (cases h; exact ⟨by simp [slice], rfl, .inl rfl⟩)
    | succ room =>
      cases a with
      | interrupted => exact ih pos (room + 1) bytes pos' h
      | fails => cases h
      | upTo n =>
        unfold readExactFrom at h
        dsimp only at h
        generalize hk : delivered f pos (room + 1) n = k at h
        have hk' : k ≤ room + 1 ∧ k ≤ f.length - pos := by unfold delivered at hk; omega
        split at h
        · cases h
        · rename_i h0
          cases hr : readExactFrom f rest (pos + k) (room + 1 - k) with
          | mk r p =>
            rw [hr] at h
            dsimp only at h
            cases r with
            | error err => cases h
            | ok more =>
              cases h
              obtain ⟨h1, h2, h3⟩ := ih _ _ _ _ hr
              refine ⟨?_, by omega, .inr (by omega)⟩
              rw [h1]
              unfold slice
              dsimp only
              conv => rhs; rw [show room + 1 = k + (room + 1 - k) by omega, List.take_add, List.drop_drop]

theorem readExactFrom_complete (f : List Byte) : ∀ (answers : List Answer) (pos room : Nat), .fails ∉ answers →
    (room = 0 ∨ pos + room ≤ f.length) → readExactFrom f answers pos room = (.ok (slice f pos room), pos + room) := by
  intro answers
  induction answers with
  | nil =>
    intro pos room _ h
    cases room with
    | zero => simp [readExactFrom, slice]
    | succ room => unfold readExactFrom; rw [if_pos (by omega)]
  | cons a rest ih =>
    intro pos room hf h
    have hrest : .fails ∉ rest := fun hm => hf (List.mem_cons_of_mem _ hm)
    cases room with
    | zero => cases a <;> simp [readExactFrom, slice]
    | succ room =>
      cases a with
      | interrupted => exact ih pos (room + 1) hrest h
      | fails => exact (hf List.mem_cons_self).elim
      | upTo n =>
        have hall : ∀ bytes pos', readExactFrom f (.upTo n :: rest) pos (room + 1) = (.ok bytes, pos') →
            readExactFrom f (.upTo n :: rest) pos (room + 1) = (.ok (slice f pos (room + 1)), pos + (room + 1)) := by
          intro bytes pos' he
          obtain ⟨h1, h2, _⟩ := readExactFrom_ok f _ _ _ _ _ he
          rw [he, h1, h2]
        have hk : 0 < delivered f pos (room + 1) n ∧ delivered f pos (room + 1) n ≤ room + 1 ∧
            delivered f pos (room + 1) n ≤ f.length - pos := by unfold delivered; omega
        have := ih (pos + delivered f pos (room + 1) n) (room + 1 - delivered f pos (room + 1) n) hrest (by omega)
        refine hall (slice f pos (delivered f pos (room + 1) n) ++
          slice f (pos + delivered f pos (room + 1) n) (room + 1 - delivered f pos (room + 1) n))
          (pos + delivered f pos (room + 1) n + (room + 1 - delivered f pos (room + 1) n)) ?_
        conv => lhs; unfold readExactFrom
        dsimp only
        rw [if_neg (by omega), this]
        rfl

theorem call_file (r : MpqReader) (c : ReaderCall) : (r.call c).2.file = r.file := by
  cases c with
  | readAt offset n answers =>
    unfold MpqReader.call MpqReader.readAt MpqReader.seek
    dsimp only
    split
    · rename_i h; split at h <;> (cases h)
      rfl
    · rename_i h; split at h <;> (cases h)
      rfl
  | read room answer =>
    unfold MpqReader.call MpqReader.read
    dsimp only
    split
    · rfl
    · split <;> rfl
  | seek s =>
    unfold MpqReader.call MpqReader.seek
    dsimp only
    split <;> split <;> rfl

theorem calls_file : ∀ (cs : List ReaderCall) (r : MpqReader), (r.calls cs).file = r.file
  | [], _ => rfl
  | c :: cs, r => by unfold MpqReader.calls; rw [calls_file cs, call_file]

theorem readAt_eq (r : MpqReader) (offset n : Nat) (answers : List Answer) : r.readAt offset n answers =
    if offset < 2 ^ 63 then ((readExactFrom r.file answers offset n).1,
      { r with pos := (readExactFrom r.file answers offset n).2 }) else (.error .io, r) := by
  unfold MpqReader.readAt MpqReader.seek
  dsimp only
  by_cases h : offset < 2 ^ 63
  · have h' : (0 : Int) ≤ (offset : Int) ∧ (offset : Int).toNat < 2 ^ 63 := ⟨Int.natCast_nonneg _, by rwa [Int.toNat_natCast]⟩
    rw [if_pos h', if_pos h]
    rfl
  · have h' : ¬ ((0 : Int) ≤ (offset : Int) ∧ (offset : Int).toNat < 2 ^ 63) := by rw [Int.toNat_natCast]; exact fun x => h x.2
    rw [if_neg h', if_neg h]

/-- C78: whatever was called before, and however the system splits the reads, interrupts them or fails: bytes that `read_at`
returns are those at the place asked for, as many as asked for. -/
theorem C78_read_at_never_wrong (r : MpqReader) (history : List ReaderCall) (offset n : Nat) (answers : List Answer)
    (bytes : List Byte) (h : ((r.calls history).readAt offset n answers).1 = .ok bytes) :
    bytes.length = n ∧ ∀ i < n, bytes[i]? = r.file[offset + i]? := by
  rw [readAt_eq, calls_file] at h
  split at h
  · obtain ⟨h1, _, h3⟩ := readExactFrom_ok r.file answers offset n bytes _ (Prod.ext h rfl)
    subst h1
    unfold slice
    refine ⟨by rw [List.length_take, List.length_drop]; omega, fun i hi => ?_⟩
    rw [List.getElem?_take_of_lt hi, List.getElem?_drop]
  · cases h

/-- C78: unless the system fails, `read_at` succeeds exactly if the file has the bytes asked for (or none are asked for), and is
what the model of the archive takes for reading at a place: this does not depend on the calls before, nor on how the reads are
split and interrupted. -/
theorem C78_read_at_succeeds (r : MpqReader) (history : List ReaderCall) (offset n : Nat) (hoff : offset < 2 ^ 63)
    (answers : List Answer) (hf : .fails ∉ answers) :
    ((r.calls history).readAt offset n answers).1 = Mopaq.readAt r.file offset n ∧
    ((∃ bytes, ((r.calls history).readAt offset n answers).1 = .ok bytes) ↔ n = 0 ∨ offset + n ≤ r.file.length) := by
  have key : ((r.calls history).readAt offset n answers).1 = Mopaq.readAt r.file offset n := by
    rw [readAt_eq, calls_file, if_pos hoff]
    dsimp only
    unfold Mopaq.readAt
    by_cases h : n = 0 ∨ offset + n ≤ r.file.length
    · rw [readExactFrom_complete r.file answers offset n hf h]
      by_cases h0 : n = 0
      · rw [if_pos h0, h0]; simp [slice]
      · rw [if_neg h0, if_pos (by omega)]
    · rw [if_neg (by omega), if_neg (by omega)]
      cases hr : readExactFrom r.file answers offset n with
      | mk x p =>
        cases x with
        | ok bytes => exact (h (readExactFrom_ok r.file answers offset n bytes p hr).2.2).elim
        | error err =>
          have : ∀ (as : List Answer) (pos room : Nat) (e : Err) (p : Nat), readExactFrom r.file as pos room = (.error e, p) →
              e = .io := by
            intro as
            induction as with
            | nil =>
              intro pos room e p h
              cases room with
              | zero => cases h
              | succ room => unfold readExactFrom at h; split at h <;> cases h; rfl
            | cons a rest ih =>
              intro pos room e p h
              cases room with
              | zero => cases a <;> cases h
              | succ room =>
                cases a with
                | interrupted => exact ih pos _ e p h
                | fails => cases h; rfl
                | upTo k =>
                  unfold readExactFrom at h
                  dsimp only at h
                  split at h
                  · cases h; rfl
                  · generalize hx : readExactFrom r.file rest _ _ = x at h
                    obtain ⟨y, q⟩ := x
                    cases y with
                    | ok _ => cases h
                    | error e' => cases h; exact ih _ _ _ _ hx
          rw [this answers offset n err p hr]
  refine ⟨key, ?_⟩
  rw [key]
  unfold Mopaq.readAt
  by_cases h0 : n = 0
  · rw [if_pos h0]; exact ⟨fun _ => .inl h0, fun _ => ⟨_, rfl⟩⟩
  · rw [if_neg h0]
    by_cases h : offset + n ≤ r.file.length
    · rw [if_pos h]; exact ⟨fun _ => .inr h, fun _ => ⟨_, rfl⟩⟩
    · rw [if_neg h]; exact ⟨fun ⟨_, h'⟩ => (nomatch h'), fun h' => (by omega : False).elim⟩

/-- C78: reading goes on behind the bytes that `read_at` returned, not where it would have gone on before. -/
theorem C78_read_at_moves (r : MpqReader) (offset n room m : Nat) (answers : List Answer) (bytes : List Byte)
    (h : (r.readAt offset n answers).1 = .ok bytes) (hr : 0 < room) :
    (((r.readAt offset n answers).2.read room (.upTo m)).1 =
      .ok (slice r.file (offset + n) (delivered r.file (offset + n) room m))) ∧
    (r.readAt offset n answers).2.pos = offset + n := by
  rw [readAt_eq] at h ⊢
  split at h
  · rename_i ho
    rw [if_pos ho]
    cases hx : readExactFrom r.file answers offset n with
    | mk x p =>
    rw [hx] at h
    dsimp only at h ⊢
    rw [h] at hx
    obtain ⟨_, rfl, _⟩ := readExactFrom_ok r.file answers offset n bytes _ hx
    refine ⟨?_, rfl⟩
    unfold MpqReader.read
    rw [if_neg (by omega)]
  · cases h

theorem readExactFrom_short (f : List Byte) (answers : List Answer) : ∀ (pos room : Nat), .fails ∉ answers → 0 < room →
    f.length < pos + room → readExactFrom f answers pos room = (.error .io, max pos f.length) := by
  induction answers with
  | nil =>
    intro pos room _ h0 h
    cases room with
    | zero => omega
    | succ room => unfold readExactFrom; rw [if_neg (by omega)]
  | cons a rest ih =>
    intro pos room hf h0 h
    have hrest : .fails ∉ rest := fun hm => hf (List.mem_cons_of_mem _ hm)
    cases room with
    | zero => omega
    | succ room =>
      cases a with
      | interrupted => exact ih pos (room + 1) hrest h0 h
      | fails => exact (hf List.mem_cons_self).elim
      | upTo n =>
        unfold readExactFrom
        dsimp only
        have hd : delivered f pos (room + 1) n = min (max n 1) (min (room + 1) (f.length - pos)) := rfl
        split
        · rename_i hk
          rw [Nat.max_eq_left (by omega)]
        · rw [ih _ _ hrest (by omega) (by omega)]
          refine Prod.ext rfl ?_
          show max _ _ = max _ _
          omega

/-- C78: if the file ends before the bytes asked for and the system does not fail, `read_at` fails, and has used up the file: the
reader stands at its end, or at the place asked for if that is behind the end, so that what is read next is nothing. -/
theorem C78_read_at_early_end (r : MpqReader) (offset n : Nat) (hoff : offset < 2 ^ 63) (answers : List Answer)
    (hf : .fails ∉ answers) (hn : 0 < n) (hend : r.file.length < offset + n) :
    (r.readAt offset n answers).1 = .error .io ∧
    (r.readAt offset n answers).2.pos = max offset r.file.length ∧
    ∀ room m, ((r.readAt offset n answers).2.read room (.upTo m)).1 = .ok [] := by
  rw [readAt_eq, if_pos hoff, readExactFrom_short r.file answers offset n hf hn hend]
  refine ⟨rfl, rfl, fun room m => ?_⟩
  unfold MpqReader.read
  dsimp only
  split
  · rfl
  · have hd : delivered r.file (max offset r.file.length) room m = 0 := by unfold delivered; omega
    rw [hd]
    simp [slice]

/-- The place a user asks for, counted from the start of the file. -/
def _root_.Spec.soughtPlace (s : SeekFrom) (position size : Nat) : Int :=
  match s with
  | .start n => n
  | .current d => position + d
  | .fromEnd d => size + d

/-- C78: seeking gives the place asked for, counted from the start, from the position or from the end of the file, and reading goes
on there; a place before the start (or one at 2^63 or behind) is refused and nothing moves. -/
theorem C78_seek (r : MpqReader) (s : SeekFrom) :
    (∀ place : Nat, Spec.soughtPlace s r.pos r.file.length = place → place < 2 ^ 63 →
      (r.seek s).1 = .ok place ∧
      ∀ room m, 0 < room → ((r.seek s).2.read room (.upTo m)).1 = .ok (slice r.file place (delivered r.file place room m))) ∧
    (Spec.soughtPlace s r.pos r.file.length < 0 ∨ 2 ^ 63 ≤ Spec.soughtPlace s r.pos r.file.length →
      r.seek s = (.error .io, r)) := by
  have he : r.seek s = if 0 ≤ Spec.soughtPlace s r.pos r.file.length ∧ (Spec.soughtPlace s r.pos r.file.length).toNat < 2 ^ 63
      then (.ok (Spec.soughtPlace s r.pos r.file.length).toNat,
        { r with pos := (Spec.soughtPlace s r.pos r.file.length).toNat }) else (.error .io, r) := by
    cases s <;> rfl
  rw [he]
  refine ⟨fun place hp hlt => ?_, fun h => ?_⟩
  · rw [hp, if_pos ⟨Int.natCast_nonneg _, by rwa [Int.toNat_natCast]⟩, Int.toNat_natCast]
    refine ⟨rfl, fun room m hr => ?_⟩
    unfold MpqReader.read
    rw [if_neg (by omega)]
  · rw [if_neg (by omega)]

/-- What a series of calls to `read` delivers, if none fails. -/
def MpqReader.stream (r : MpqReader) : List (Nat × Answer) → Res (List Byte)
  | [] => .ok []
  | (room, a) :: rest => do
    let bytes ← (r.read room a).1
    let more ← (r.read room a).2.stream rest
    .ok (bytes ++ more)

/-- C78: a series of calls to `read`, of whatever sizes and however split by the system, delivers the bytes of the file from
the position on, each once and in order. -/
theorem C78_reads_in_order : ∀ (calls : List (Nat × Answer)) (r : MpqReader) (bytes : List Byte),
    r.stream calls = .ok bytes → ∃ rest, r.file.drop r.pos = bytes ++ rest
  | [], r, bytes, h => by cases h; exact ⟨_, rfl⟩
  | (room, a) :: cs, r, bytes, h => by
    unfold MpqReader.stream at h
    cases h1 : (r.read room a).1 with
    | error err => rw [h1] at h; cases h
    | ok first =>
      rw [h1] at h
      cases h2 : (r.read room a).2.stream cs with
      | error err => rw [h2] at h; cases h
      | ok more =>
        rw [h2] at h
        cases h
        obtain ⟨rest, hrest⟩ := C78_reads_in_order cs _ more h2
        refine ⟨rest, ?_⟩
        have hfile : (r.read room a).2.file = r.file := call_file r (.read room a)
        rw [hfile] at hrest
        unfold MpqReader.read at h1 hrest
        split at h1
        · rename_i h0
          rw [if_pos h0] at hrest
          cases h1
          exact hrest
        · rename_i h0
          rw [if_neg h0] at hrest
          cases a with
          | upTo n =>
            cases h1
            dsimp only at hrest ⊢
            rw [List.append_assoc, ← hrest]
            unfold slice
            rw [← List.drop_drop, List.take_append_drop]
          | interrupted => cases h1
          | fails => cases h1

/-- Ten bytes, read at place 2 in pieces of one byte with an interruption, after the reader was somewhere else. -/
example : (((MpqReader.mk [0, 1, 2, 3, 4, 5, 6, 7, 8, 9] 0).calls [.seek (.fromEnd (-1)), .read 5 (.upTo 5)]).readAt 2 3
    [.upTo 1, .interrupted, .upTo 1]).1 = .ok [2, 3, 4] := by
  have := (C78_read_at_succeeds (MpqReader.mk [0, 1, 2, 3, 4, 5, 6, 7, 8, 9] 0) [.seek (.fromEnd (-1)), .read 5 (.upTo 5)] 2 3
    (by decide) [.upTo 1, .interrupted, .upTo 1] (by decide)).1
  exact this

/-- Two bytes before the end, one byte at a time: the second is the last. -/
example : ((((MpqReader.mk [0, 1, 2, 3] 1).seek (.fromEnd (-2))).2).stream [(1, .upTo 1), (4, .upTo 9), (1, .upTo 1)]) =
    .ok [2, 3] := rfl

example : ((MpqReader.mk [0, 1, 2, 3] 1).seek (.current (-2))) = (.error .io, MpqReader.mk [0, 1, 2, 3] 1) :=
  (C78_seek _ _).2 (.inl (by decide))

example : ((MpqReader.mk [0, 1, 2, 3] 1).readAt 2 5 [.upTo 1, .interrupted]).2.pos = 4 :=
  (C78_read_at_early_end _ 2 5 (by decide) _ (by decide) (by decide) (by decide)).2.1

example : (MpqReader.mk [0, 1, 2, 3] 1).stream [(2, .upTo 1), (0, .fails), (5, .upTo 9)] = .ok [1, 2, 3] := rfl

end Mopaq
