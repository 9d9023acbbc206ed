import Verif.Model.FfiFile
import Verif.Spec.Ffi
import Verif.Lemmas.HeaderAccept

/-! # Reading and seeking through the C API -/

namespace Mopaq

/-! ## C42 -/

/-- Calls on an open file that move its position. -/
inductive Move where
  | read (n : U32)
  | seek (low : BitVec 32) (high : Option (BitVec 32)) (method : U32)

/-- One such call: the handle afterwards and, for a read, the bytes. -/
def FileHandle.move (f : FileHandle) : Move → Res (List Byte × FileHandle)
  | .read n => f.read n
  | .seek low high method => do
    match ← f.seek low high method with
    | .ok f' => return ([], f')
    | .error _ => return ([], f)

/-- A sequence of calls: the bytes of each and the handle at the end. -/
def FileHandle.moves (f : FileHandle) : List Move → Res (List (List Byte) × FileHandle)
  | [] => .ok ([], f)
  | m :: ms => do
    let (bytes, f) ← f.move m
    let (rest, f) ← f.moves ms
    return (bytes :: rest, f)

/-- C42: one read, from any position within the file: it never fails, delivers the bytes at the position, as many as asked
for or as there are left, and moves the position behind them. Nothing else changes. -/
theorem C42_read_piece (f : FileHandle) (n : U32) (hp : f.position ≤ f.data.length) :
    f.read n = .ok ((f.data.drop f.position).take n.toNat,
      { f with position := min (f.position + n.toNat) f.data.length }) := by
  unfold FileHandle.read
  simp only []
  split
  · rename_i h0
    have h1 : n.toNat = 0 ∨ f.position = f.data.length := by omega
    have h2 : min (f.position + n.toNat) f.data.length = f.position := by omega
    have h3 : (f.data.drop f.position).take n.toNat = [] := by
      rcases h1 with h1 | h1 <;> simp [h1]
    rw [h2, h3]
  · rename_i h0
    rw [if_pos (by omega)]
    congr 2
    · rw [slice, List.take_eq_take_iff]; simp
    · congr 1; omega

theorem seek_position (f f' : FileHandle) (low : BitVec 32) (high : Option (BitVec 32)) (method : U32)
    (h : f.seek low high method = .ok (.ok f')) :
    f'.position ≤ f.data.length ∧ f' = { f with position := f'.position } := by
  unfold FileHandle.seek at h
  obtain ⟨target, _, h⟩ := bind_eq_ok.1 h
  cases target with
  | none => cases Except.ok.inj h
  | some pos =>
    have := Except.ok.inj (Except.ok.inj h)
    subst this
    exact ⟨by simp; omega, rfl⟩

/-- C42: whatever reads and seeks are made, the position never leaves the file and the content never changes. -/
theorem C42_position_in_file (ms : List Move) : ∀ (f f' : FileHandle) (out : List (List Byte)),
    f.position ≤ f.data.length → f.moves ms = .ok (out, f') →
    f'.position ≤ f'.data.length ∧ f' = { f with position := f'.position } := by
  induction ms with
  | nil => intro f f' out hp h; cases h; exact ⟨hp, rfl⟩
  | cons m ms ih =>
    intro f f' out hp h
    rw [FileHandle.moves] at h
    obtain ⟨⟨bytes, f1⟩, h1, h⟩ := bind_eq_ok.1 h
    obtain ⟨⟨rest, f2⟩, h2, h⟩ := bind_eq_ok.1 h
    have hf1 : f1.position ≤ f1.data.length ∧ f1 = { f with position := f1.position } := by
      cases m with
      | read n =>
        rw [FileHandle.move, C42_read_piece f n hp] at h1
        cases h1
        exact ⟨by simp; omega, rfl⟩
      | seek low high method =>
        rw [FileHandle.move] at h1
        obtain ⟨r, hr, h1⟩ := bind_eq_ok.1 h1
        cases r with
        | error c => cases h1; exact ⟨hp, rfl⟩
        | ok g =>
          cases h1
          have hs := seek_position f f1 low high method hr
          refine ⟨?_, hs.2⟩
          rw [hs.2]
          exact hs.1
    have hf2 := ih f1 f2 rest hf1.1 h2
    cases h
    refine ⟨hf2.1, ?_⟩
    rw [hf2.2, hf1.2]

/-- C42: sequential reads never fail and return consecutive pieces: put together they are the bytes from the position on,
as many as were asked for in all. Each piece has the size asked for, except at the end of the file. -/
theorem C42_sequential_reads (ns : List U32) : ∀ (f : FileHandle), f.position ≤ f.data.length →
    ∃ out f', f.moves (ns.map .read) = .ok (out, f') ∧ out.length = ns.length ∧
      out.flatten = (f.data.drop f.position).take (ns.map BitVec.toNat).sum ∧
      (∀ (i : Nat) (n : U32) (piece : List Byte), ns[i]? = some n → out[i]? = some piece →
        piece.length = n.toNat ∨ piece.length < n.toNat ∧ f'.position = f.data.length) ∧
      f'.position = min (f.position + (ns.map BitVec.toNat).sum) f.data.length := by
  induction ns with
  | nil =>
    intro f hp
    exact ⟨[], f, rfl, rfl, by simp, by simp, by simp; omega⟩
  | cons n ns ih =>
    intro f hp
    obtain ⟨out, f', h, hl, hfl, hpc, hpos⟩ := ih { f with position := min (f.position + n.toNat) f.data.length } (by simp; omega)
    simp only [] at hfl hpos
    refine ⟨(f.data.drop f.position).take n.toNat :: out, f', ?_, by simp [hl], ?_, ?_, ?_⟩
    · rw [List.map_cons, FileHandle.moves, FileHandle.move, C42_read_piece f n hp]
      simp only [bind, Except.bind, h]
      rfl
    · rw [List.flatten_cons, hfl, List.map_cons, List.sum_cons, List.take_add]
      congr 1
      rw [List.drop_drop]
      congr 1
      by_cases hle : f.position + n.toNat ≤ f.data.length
      · rw [Nat.min_eq_left hle]
      · rw [Nat.min_eq_right (by omega), List.drop_length, List.drop_eq_nil_of_le (by omega)]
    · intro i m piece hi hj
      cases i with
      | zero =>
        simp only [List.getElem?_cons_zero, Option.some.injEq] at hi hj
        subst hi hj
        simp only [List.length_take, List.length_drop]
        by_cases hle : f.position + n.toNat ≤ f.data.length
        · left; omega
        · right
          refine ⟨by omega, ?_⟩
          rw [hpos]; omega
      | succ i =>
        exact hpc i m piece (by simpa using hi) (by simpa using hj)
    · rw [hpos, List.map_cons, List.sum_cons]; omega

/-- Reading everything with enough room, piece by piece, reproduces the content. -/
theorem C42_reads_reproduce_file (ns : List U32) (f : FileHandle) (h0 : f.position = 0)
    (hn : f.data.length ≤ (ns.map BitVec.toNat).sum) :
    ∃ out f', f.moves (ns.map .read) = .ok (out, f') ∧ out.flatten = f.data := by
  obtain ⟨out, f', h, _, hfl, _⟩ := C42_sequential_reads ns f (by omega)
  refine ⟨out, f', h, ?_⟩
  rw [hfl, h0, List.drop_zero, List.take_of_length_le hn]

/-- An open file with five bytes. -/
def fiveBytes : FileHandle :=
  { archiveHandle := 1, filename := [0x61], data := [1, 2, 3, 4, 5], position := 0, size := 5 }

example : ∃ out f', fiveBytes.moves ([2#32, 0#32, 2#32, 9#32].map .read) = .ok (out, f') ∧ out = [[1, 2], [], [3, 4], [5]] :=
  ⟨_, _, by rfl, by rfl⟩

/-! ## C43 -/

theorem seekOffset_negative_low (low h : BitVec 32) (hlow : low.toInt < 0) :
    seekOffset low (some h) = seekOffset low none := by
  unfold seekOffset
  simp only []
  have hm : low.msb = true := by
    rw [BitVec.msb_eq_toInt]; simpa using hlow
  apply BitVec.eq_of_getLsbD_eq
  intro i hi
  simp only [BitVec.getLsbD_or, BitVec.getLsbD_signExtend, BitVec.getLsbD_shiftLeft]
  by_cases h32 : i < 32
  · simp [h32]
  · simp [h32, hi, hm]

theorem seekOffset_toInt_none (low : BitVec 32) : (seekOffset low none).toInt = Spec.distance low none := by
  unfold seekOffset Spec.distance
  simp only []
  exact BitVec.toInt_signExtend_of_le (by omega)

theorem seekOffset_toInt_some (low h : BitVec 32) (hlow : 0 ≤ low.toInt) :
    (seekOffset low (some h)).toInt = Spec.distance low (some h) := by
  unfold Spec.distance
  simp only []
  have hl : low.toNat < 2 ^ 31 := by
    rw [BitVec.toInt_eq_toNat_cond] at hlow
    split at hlow <;> omega
  have e : seekOffset low (some h) = h ++ low := by
    unfold seekOffset
    simp only []
    have hm : low.msb = false := by
      rw [BitVec.msb_eq_toInt]; simpa using hlow
    apply BitVec.eq_of_getLsbD_eq
    intro i hi
    simp only [BitVec.getLsbD_or, BitVec.getLsbD_signExtend, BitVec.getLsbD_shiftLeft, BitVec.getLsbD_append]
    by_cases h32 : i < 32
    · simp [h32, hi]
    · have : i - 32 < 32 := by omega
      simp [h32, hi, hm, this, show i - 32 < 64 by omega]
  rw [e, BitVec.toInt_append]
  simp
  omega

theorem addI64_eq (o : Nat) (d : BitVec 64) (ho : o < 2 ^ 63) :
    addI64 o d = if (o : Int) + d.toInt < 2 ^ 63 then
      .ok (if 0 ≤ (o : Int) + d.toInt then ((o : Int) + d.toInt).toNat else ((o : Int) + d.toInt + 2 ^ 64).toNat)
    else .error .panic := by
  have h1 : (BitVec.ofNat 64 o).toInt = (o : Int) := by
    rw [BitVec.toInt_ofNat']
    have : ((o : Int)).bmod (2 ^ 64) = o := by
      apply Int.bmod_eq_of_le <;> omega
    simpa using this
  have h2 : -2 ^ 63 ≤ d.toInt := by have := BitVec.le_toInt d; simpa using this
  unfold addI64
  simp only [h1]
  by_cases hlt : (o : Int) + d.toInt < 2 ^ 63
  · rw [if_pos ⟨by omega, hlt⟩, if_pos hlt]
    congr 1
    rw [BitVec.toNat_ofInt]
    split
    · congr 1
      apply Int.emod_eq_of_lt <;> omega
    · congr 1
      have : ((o : Int) + d.toInt) % ((2 ^ 64 : Nat) : Int) = (o : Int) + d.toInt + 2 ^ 64 := by
        have e : ((2 ^ 64 : Nat) : Int) = (18446744073709551616 : Int) := rfl
        rw [e]
        omega
      exact this
  · rw [if_neg (by omega), if_neg hlt]

/-- The position a seek leads to, for the offset the code computes. -/
theorem seek_eq (f : FileHandle) (low : BitVec 32) (high : Option (BitVec 32)) (method : U32) (o : Nat)
    (hlen : f.data.length < 2 ^ 63) (hp : f.position ≤ f.data.length)
    (ho : Spec.origin method.toNat f.position f.data.length = some o)
    (hsum : (o : Int) + (seekOffset low high).toInt < 2 ^ 63) :
    f.seek low high method = .ok (.ok { f with position :=
      if 0 ≤ (o : Int) + (seekOffset low high).toInt then Spec.clamp (o + (seekOffset low high).toInt) f.data.length
      else f.data.length }) := by
  generalize hd : seekOffset low high = d at hsum
  have h2 : -2 ^ 63 ≤ d.toInt := by have := BitVec.le_toInt d; simpa using this
  have hmin : ∀ (o : Nat), o < 2 ^ 63 → (o : Int) + d.toInt < 2 ^ 63 →
      min (if 0 ≤ (o : Int) + d.toInt then ((o : Int) + d.toInt).toNat else ((o : Int) + d.toInt + 2 ^ 64).toNat) f.data.length =
      if 0 ≤ (o : Int) + d.toInt then Spec.clamp (o + d.toInt) f.data.length else f.data.length := by
    intro o ho hs
    unfold Spec.clamp
    split <;> omega
  unfold FileHandle.seek
  rw [hd]
  unfold Spec.origin at ho
  match hm : method.toNat with
  | 0 =>
    rw [hm] at ho
    cases ho
    simp only [FileHandle.seekTarget, bind, Except.bind]
    have := hmin 0 (by omega) hsum
    have e : d.toNat = if 0 ≤ ((0 : Nat) : Int) + d.toInt then (((0 : Nat) : Int) + d.toInt).toNat
        else (((0 : Nat) : Int) + d.toInt + 2 ^ 64).toNat := by
      have := BitVec.toInt_eq_toNat_cond d
      split at this <;> split <;> omega
    rw [e, this]; rfl
  | 1 =>
    rw [hm] at ho
    cases ho
    simp only [FileHandle.seekTarget, addI64_eq f.position d (by omega), if_pos hsum]
    rw [← hmin f.position (by omega) hsum]
    rfl
  | 2 =>
    rw [hm] at ho
    cases ho
    simp only [FileHandle.seekTarget, addI64_eq f.data.length d hlen, if_pos hsum]
    rw [← hmin f.data.length hlen hsum]
    rfl
  | n + 3 => rw [hm] at ho; cases ho

/-- C43, where it holds: if the target is not before the start of the file and the low half is not negative when a high
half is given, the position becomes the target, clamped to the file. (Contents have less than 2^63 bytes, as any vector
in Rust does.) -/
theorem C43_seek_partial (f : FileHandle) (low : BitVec 32) (high : Option (BitVec 32)) (method : U32) (o : Nat)
    (hlen : f.data.length < 2 ^ 63) (hp : f.position ≤ f.data.length)
    (ho : Spec.origin method.toNat f.position f.data.length = some o)
    (hhigh : high = none ∨ 0 ≤ low.toInt)
    (hstart : 0 ≤ (o : Int) + Spec.distance low high) (hsum : (o : Int) + Spec.distance low high < 2 ^ 63) :
    f.seek low high method = .ok (.ok { f with position := Spec.clamp (o + Spec.distance low high) f.data.length }) := by
  have e : (seekOffset low high).toInt = Spec.distance low high := by
    cases high with
    | none => exact seekOffset_toInt_none low
    | some h => exact seekOffset_toInt_some low h (by simpa using hhigh)
  have := seek_eq f low high method o hlen hp ho (by rw [e]; exact hsum)
  rw [e, if_pos hstart] at this
  exact this

/-- C43 is false: seeking to a target before the start goes to the end of the file instead of the start. -/
theorem C43_before_start_goes_to_end (f : FileHandle) (low : BitVec 32) (high : Option (BitVec 32)) (method : U32) (o : Nat)
    (hlen : f.data.length < 2 ^ 63) (hp : f.position ≤ f.data.length)
    (ho : Spec.origin method.toNat f.position f.data.length = some o)
    (hhigh : high = none ∨ 0 ≤ low.toInt) (hstart : (o : Int) + Spec.distance low high < 0) :
    f.seek low high method = .ok (.ok { f with position := f.data.length }) := by
  have e : (seekOffset low high).toInt = Spec.distance low high := by
    cases high with
    | none => exact seekOffset_toInt_none low
    | some h => exact seekOffset_toInt_some low h (by simpa using hhigh)
  have := seek_eq f low high method o hlen hp ho (by rw [e]; omega)
  rw [e, if_neg (by omega)] at this
  exact this

/-- C43 is false: when the low half has its top bit set, the high half is ignored, so positions between 2 GB and 4 GB (and
so on) cannot be reached. -/
theorem C43_high_half_ignored (f : FileHandle) (low h : BitVec 32) (method : U32) (hlow : low.toInt < 0) :
    f.seek low (some h) method = f.seek low none method := by
  unfold FileHandle.seek
  rw [seekOffset_negative_low low h hlow]

/-- C43: an unknown origin is refused with the code for a wrong parameter (87), whatever the distance. -/
theorem C43_unknown_origin (f : FileHandle) (low : BitVec 32) (high : Option (BitVec 32)) (method : U32)
    (hm : Spec.origin method.toNat f.position f.data.length = none) : f.seek low high method = .ok (.error 87#32) := by
  unfold FileHandle.seek
  match h : method.toNat with
  | 0 | 1 | 2 => rw [h] at hm; cases hm
  | n + 3 => rfl

example : Spec.origin (3#32).toNat fiveBytes.position fiveBytes.data.length = none := rfl

/-- C43 is false: a target of 2^63 or more, counted from the position or the end, panics instead of going to the end. -/
theorem C43_far_target_panics (f : FileHandle) (low h : BitVec 32) (method : U32) (o : Nat)
    (hlen : f.data.length < 2 ^ 63) (hp : f.position ≤ f.data.length)
    (ho : Spec.origin method.toNat f.position f.data.length = some o) (hm : method ≠ 0#32)
    (hlow : 0 ≤ low.toInt) (hsum : 2 ^ 63 ≤ (o : Int) + Spec.distance low (some h)) :
    f.seek low (some h) method = .error .panic := by
  have e := seekOffset_toInt_some low h hlow
  generalize hd : seekOffset low (some h) = d at e
  unfold FileHandle.seek
  rw [hd]
  unfold Spec.origin at ho
  have hm0 : method.toNat ≠ 0 := fun h0 => hm (BitVec.eq_of_toNat_eq (by simpa using h0))
  match hmm : method.toNat with
  | 0 => exact absurd hmm hm0
  | 1 =>
    rw [hmm] at ho
    cases ho
    simp only [FileHandle.seekTarget, addI64_eq f.position d (by omega)]
    rw [if_neg (by rw [e]; omega)]
    rfl
  | 2 =>
    rw [hmm] at ho
    cases ho
    simp only [FileHandle.seekTarget, addI64_eq f.data.length d hlen]
    rw [if_neg (by rw [e]; omega)]
    rfl
  | n + 3 => rw [hmm] at ho; cases ho

/-- Two bytes before the end: position 3 of 5. -/
example : fiveBytes.seek (BitVec.ofInt 32 (-2)) none 2#32 = .ok (.ok { fiveBytes with position := 3 }) :=
  C43_seek_partial fiveBytes (BitVec.ofInt 32 (-2)) none 2#32 5 (by decide) (by decide) rfl (.inl rfl) (by decide) (by decide)

/-- Ten bytes before the end: the end. -/
example : fiveBytes.seek (BitVec.ofInt 32 (-10)) none 2#32 = .ok (.ok { fiveBytes with position := 5 }) :=
  C43_before_start_goes_to_end fiveBytes (BitVec.ofInt 32 (-10)) none 2#32 5 (by decide) (by decide) rfl (.inl rfl) (by decide)

/-- Position 3 GB + 4 GB of a large file, given as two halves, leads to its end, because the distance becomes -1 GB. -/
example : fiveBytes.seek 0xC0000000#32 (some 1#32) 0#32 = fiveBytes.seek (BitVec.ofInt 32 (-1073741824)) none 0#32 :=
  C43_high_half_ignored fiveBytes _ _ _ (by decide)

/-- A file of more than 2 GB and a distance that is just representable. -/
example (f : FileHandle) (hd : f.data = List.replicate (2 ^ 31 + 1) 0#8) (hp : f.position = 0) :
    f.seek 0x7FFFFFFF#32 (some 0x7FFFFFFF#32) 2#32 = .error .panic := by
  have hl : f.data.length = 2 ^ 31 + 1 := by rw [hd, List.length_replicate]
  apply C43_far_target_panics f _ _ _ (2 ^ 31 + 1) (by omega) (by omega) (by rw [hl]; rfl) (by decide) (by decide)
  decide +kernel

end Mopaq
