import Verif.Props.Format
import Verif.Spec.SectorDamage

/-! # Damage to a sector of a file (C85) -/

namespace Mopaq

/-- `readSectors_pieces` for the sectors from number `k` on. -/
theorem readSectors_from {e : Env} {m : Spec.Methods} (hu : ∀ k b n d, m.unpack k b n = some d → decompress e.codecs b k n = .ok d)
    {f : List Byte} {info : FileInfo} {key : U32} {ss : Nat} (hss : 0 < ss) {data : List Byte} (hd : data.length = info.fileSize)
    {packed : Nat → List Byte} {offs : List U32} (himp : Spec.imploded info.flags = false) (hc : info.isCompressed = true)
    (ho : offs.length = (info.fileSize + ss - 1) / ss + 1) (k : Nat)
    (hp : ∀ i, k ≤ i → i * ss < info.fileSize → Spec.Packs m info.flags (Spec.piece ss data i) (packed i) ∧
      (offs.getD (i + 1) 0).toNat = (offs.getD i 0).toNat + (packed i).length ∧
      ∃ raw, readAt f (info.filePos + (offs.getD i 0).toNat) (packed i).length = .ok raw ∧
        (if info.isEncrypted then decryptFileData raw (key + BitVec.ofNat 32 i) else raw) = packed i) :
    ∀ (l : List U32) (i : Nat), k ≤ i → offs.drop i = l → l ≠ [] →
      readSectors e f info key ss i (min (i * ss) info.fileSize) l = .ok (data.drop (i * ss)) := by
  intro l
  induction l with
  | nil => intro i _ _ h; exact absurd rfl h
  | cons o0 tail ih =>
    intro i hki hi _
    have hlen : (offs.drop i).length = tail.length + 1 := by rw [hi]; rfl
    rw [List.length_drop] at hlen
    cases tail with
    | nil =>
      have hi' : i = (info.fileSize + ss - 1) / ss := by simp only [List.length_nil] at hlen; omega
      have : info.fileSize ≤ i * ss := by
        rw [hi']
        have h1 := Nat.div_add_mod (info.fileSize + ss - 1) ss
        have h2 := Nat.mod_lt (info.fileSize + ss - 1) hss
        rw [Nat.mul_comm] at h1
        omega
      rw [List.drop_eq_nil_of_le (by omega)]
      rfl
    | cons o1 rest =>
      have hlt : i * ss < info.fileSize := by
        simp only [List.length_cons] at hlen
        have h1 : i + 1 ≤ (info.fileSize + ss - 1) / ss := by omega
        rw [Nat.le_div_iff_mul_le hss, Nat.add_mul, Nat.one_mul] at h1
        omega
      have g0 : offs.getD i 0 = o0 := by
        rw [List.getD_eq_getElem?_getD, ← List.head?_drop, hi]; rfl
      have g1 : offs.getD (i + 1) 0 = o1 := by
        rw [List.getD_eq_getElem?_getD, ← List.head?_drop, ← List.drop_drop, hi]; rfl
      obtain ⟨h1, h2, raw, h3, h4⟩ := hp i hki hlt
      rw [g0, g1] at h2
      rw [g0] at h3
      have hpl : (Spec.piece ss data i).length = min (info.fileSize - i * ss) ss := by
        unfold Spec.piece
        rw [List.length_take, List.length_drop, hd, Nat.min_comm]
      unfold readSectors
      rw [if_neg (by omega), if_neg (by omega), Nat.min_eq_left (show i * ss ≤ info.fileSize by omega), ← hpl,
        show o1.toNat - o0.toNat = (packed i).length from by omega]
      refine bind_eq_ok.2 ⟨_, readSector_piece hu h1 himp hc h3 h4, bind_eq_ok.2 ⟨data.drop ((i + 1) * ss), ?_, ?_⟩⟩
      · rw [hpl]
        have := ih (i + 1) (by omega) (by rw [← List.drop_drop, hi]; rfl) (by simp)
        rw [show i * ss + min (info.fileSize - i * ss) ss = min ((i + 1) * ss) info.fileSize from by
          rw [Nat.add_mul, Nat.one_mul]; omega]
        exact this
      · show Except.ok _ = _
        congr 1
        unfold Spec.piece
        rw [Nat.add_mul, Nat.one_mul, ← List.drop_drop]
        exact List.take_append_drop ..

theorem split_piece {α : Type} (d : List α) {a n b : Nat} (h : a + n ≤ b) :
    (d.take b).drop a = (d.drop a).take n ++ (d.take b).drop (a + n) := by
  rw [← List.drop_drop, List.drop_take]
  conv => lhs; rw [← List.take_append_drop n ((d.drop a).take (b - a))]
  rw [List.take_take, Nat.min_eq_left (by omega)]

/-- The sectors up to number `k` give their pieces; what sector `k` and the ones behind it give is left open. -/
theorem readSectors_upto {e : Env} {m : Spec.Methods} (hu : ∀ k b n d, m.unpack k b n = some d → decompress e.codecs b k n = .ok d)
    {f : List Byte} {info : FileInfo} {key : U32} {ss : Nat} {data : List Byte} (hd : data.length = info.fileSize)
    {packed : Nat → List Byte} {offs : List U32} (himp : Spec.imploded info.flags = false) (hc : info.isCompressed = true)
    (k : Nat) (hk : k * ss < info.fileSize) (ho : k + 1 < offs.length)
    (hp : ∀ i, i < k → Spec.Packs m info.flags (Spec.piece ss data i) (packed i) ∧
      (offs.getD (i + 1) 0).toNat = (offs.getD i 0).toNat + (packed i).length ∧
      ∃ raw, readAt f (info.filePos + (offs.getD i 0).toNat) (packed i).length = .ok raw ∧
        (if info.isEncrypted then decryptFileData raw (key + BitVec.ofNat 32 i) else raw) = packed i) :
    ∀ (n i : Nat), i + n = k → readSectors e f info key ss i (i * ss) (offs.drop i) =
      (readSectors e f info key ss k (k * ss) (offs.drop k)).map fun r => (data.take (k * ss)).drop (i * ss) ++ r := by
  intro n
  induction n with
  | zero =>
    intro i hi
    obtain rfl : i = k := by omega
    have hnil : (data.take (i * ss)).drop (i * ss) = [] := List.drop_eq_nil_of_le (by rw [List.length_take]; omega)
    rw [hnil]
    generalize readSectors e f info key ss i (i * ss) (offs.drop i) = r
    cases r <;> rfl
  | succ n ih =>
    intro i hi
    have hik : i < k := by omega
    have hmul : (i + 1) * ss ≤ k * ss := Nat.mul_le_mul_right _ hik
    rw [Nat.add_mul, Nat.one_mul] at hmul
    obtain ⟨o0, l0, hl0⟩ : ∃ o0 l0, offs.drop i = o0 :: l0 :=
      ⟨_, _, List.drop_eq_getElem_cons (show i < offs.length by omega)⟩
    obtain ⟨o1, rest, hl1⟩ : ∃ o1 rest, offs.drop (i + 1) = o1 :: rest :=
      ⟨_, _, List.drop_eq_getElem_cons (show i + 1 < offs.length by omega)⟩
    have e0 : l0 = o1 :: rest := by
      rw [← hl1, ← List.drop_drop, hl0]
      rfl
    have g0 : offs.getD i 0 = o0 := by
      rw [List.getD_eq_getElem?_getD, ← List.head?_drop, hl0]; rfl
    have g1 : offs.getD (i + 1) 0 = o1 := by
      rw [List.getD_eq_getElem?_getD, ← List.head?_drop, hl1]; rfl
    obtain ⟨h1, h2, raw, h3, h4⟩ := hp i hik
    rw [g0, g1] at h2
    rw [g0] at h3
    have hpl : (Spec.piece ss data i).length = ss := by
      unfold Spec.piece
      rw [List.length_take, List.length_drop, hd]
      omega
    have := ih (i + 1) (by omega)
    rw [hl1] at this
    rw [hl0, e0]
    conv => lhs; unfold readSectors
    rw [if_neg (by omega), if_neg (by omega), show min (info.fileSize - i * ss) ss = (Spec.piece ss data i).length by omega,
      show o1.toNat - o0.toNat = (packed i).length from by omega, readSector_piece hu h1 himp hc h3 h4]
    show (readSectors e f info key ss (i + 1) (i * ss + (Spec.piece ss data i).length) (o1 :: rest) >>= fun more =>
      Except.ok (Spec.piece ss data i ++ more)) = _
    rw [hpl, show i * ss + ss = (i + 1) * ss by rw [Nat.add_mul, Nat.one_mul], this]
    have hsplit : (data.take (k * ss)).drop (i * ss) = Spec.piece ss data i ++ (data.take (k * ss)).drop ((i + 1) * ss) := by
      unfold Spec.piece
      rw [Nat.add_mul, Nat.one_mul]
      exact split_piece data hmul
    rw [hsplit]
    cases readSectors e f info key ss k (k * ss) (offs.drop k) with
    | error err => rfl
    | ok r =>
      show Except.ok _ = Except.ok _
      dsimp only
      rw [List.append_assoc]

/-- How a file of several sectors is read: the offset table, then the sectors. -/
theorem sectored_start {e : Env} {m : Spec.Methods} {a : Archive} {name : List Byte} {info : FileInfo}
    (hf : a.findFile name = .ok (some info)) (hbs : a.header.blockSize.toNat < 55) {data : List Byte} {packed : Nat → List Byte}
    (hs : Spec.Stores m (512 * 2 ^ a.header.blockSize.toNat) a.file (a.entryOf name info) data packed)
    (himp : Spec.imploded info.flags = false) (hquad : Spec.encrypted info.flags = true → ∀ i, (packed i).length % 4 = 0)
    (hsu : Spec.singleUnit info.flags = false) (hcm : Spec.compressed info.flags = true) :
    ∃ (ss : Nat) (offs : List U32), ss = 512 * 2 ^ a.header.blockSize.toNat ∧ 0 < ss ∧ data.length = info.fileSize ∧
      offs.length = (info.fileSize + ss - 1) / ss + 1 ∧
      (∀ i, i * ss < info.fileSize → Spec.Packs m info.flags (Spec.piece ss data i) (packed i) ∧
        (offs.getD (i + 1) 0).toNat = (offs.getD i 0).toNat + (packed i).length ∧
        Spec.Stands a.file info.flags (((a.entryOf name info).key + i) % 2 ^ 32) (info.filePos + (offs.getD i 0).toNat) (packed i)) ∧
      ∀ f' lo hi, Spec.Damaged a.file f' lo hi → Spec.Apart lo hi info.filePos (4 * ((info.fileSize + ss - 1) / ss + 1)) →
        ({ a with file := f' } : Archive).readFile e name = readSectors e f' info
          (readerKey name a.archiveOffset info (BitVec.ofNat 32 info.fileSize)) ss 0 0 offs := by
  have h64 : (2 : Nat) ^ 64 = 512 * 2 ^ 55 := by decide
  have hpw : 2 ^ a.header.blockSize.toNat < 2 ^ 55 := Nat.pow_lt_pow_right (by decide) hbs
  have hpos : 0 < 2 ^ a.header.blockSize.toNat := Nat.pow_pos (by decide)
  have hse : sectorSizeOf a.header.blockSize = .ok (512 * 2 ^ a.header.blockSize.toNat) := by
    unfold sectorSizeOf
    rw [if_pos (by omega), Nat.mod_eq_of_lt (by omega)]
  generalize hssdef : 512 * 2 ^ a.header.blockSize.toNat = ss at *
  have hss0 : 0 < ss := by omega
  have hsz : data.length = info.fileSize := hs.1
  obtain ⟨_, hs2, _⟩ := stores_cases hs
  have hke := spec_key name a.archiveOffset info
  have henc := spec_encrypted info
  have hkey : (a.entryOf name info).key = Spec.fileKey name info.flags (info.filePos - a.archiveOffset) info.fileSize := rfl
  have hs2 : ∃ table, table.length = 4 * ((info.fileSize + ss - 1) / ss + 1) ∧
        Spec.Stands a.file info.flags (((a.entryOf name info).key + (2 ^ 32 - 1)) % 2 ^ 32) info.filePos table ∧
        ∀ i, i * ss < info.fileSize → Spec.Packs m info.flags (Spec.piece ss data i) (packed i) ∧
          (Spec.dwords table).getD (i + 1) 0 = (Spec.dwords table).getD i 0 + (packed i).length ∧
          Spec.Stands a.file info.flags (((a.entryOf name info).key + i) % 2 ^ 32)
            (info.filePos + (Spec.dwords table).getD i 0) (packed i) :=
    hs2 hsu (by show (Spec.compressed info.flags || Spec.imploded info.flags) = true; rw [hcm]; rfl)
  obtain ⟨table, htl, htab, hp⟩ := hs2
  have hget : ∀ i, (Spec.dwords table).getD i 0 = ((toDwords table).getD i 0).toNat := by
    intro i
    rw [dwords_eq, List.getD_eq_getElem?_getD, List.getD_eq_getElem?_getD, List.getElem?_map]
    cases (toDwords table)[i]? <;> rfl
  have hol : (toDwords table).length = (info.fileSize + ss - 1) / ss + 1 := by
    rw [toDwords_length, htl]; omega
  have hp' : ∀ i, i * ss < info.fileSize → Spec.Packs m info.flags (Spec.piece ss data i) (packed i) ∧
      ((toDwords table).getD (i + 1) 0).toNat = ((toDwords table).getD i 0).toNat + (packed i).length ∧
      Spec.Stands a.file info.flags (((a.entryOf name info).key + i) % 2 ^ 32)
        (info.filePos + ((toDwords table).getD i 0).toNat) (packed i) := by
    intro i hi
    obtain ⟨h1, h2, h3⟩ := hp i hi
    rw [hget, hget] at h2
    rw [hget] at h3
    exact ⟨h1, h2, h3⟩
  refine ⟨ss, toDwords table, rfl, hss0, hsz, hol, hp', fun f' lo hi hd hap => ?_⟩
  have hf' : ({ a with file := f' } : Archive).findFile name = .ok (some info) := hf
  rw [readFile_found hf']
  show readFileData e f' a.archiveOffset a.header.blockSize name info _ _ = _
  unfold readFileData
  dsimp only
  rw [spec_singleUnit, hsu, spec_compressed, hcm, Bool.true_or, if_neg (by decide)]
  unfold readSectoredFile
  rw [hse]
  show (divCeil info.fileSize ss >>= _) = _
  have hdc : divCeil info.fileSize ss = .ok ((info.fileSize + ss - 1) / ss) := by
    unfold divCeil
    rw [if_neg (by omega)]
  rw [hdc]
  obtain ⟨raw, hraw, hdec⟩ := read_stands (key := readerKey name a.archiveOffset info (BitVec.ofNat 32 info.fileSize) - 1) htab
    (fun _ => by omega) henc (fun h => by rw [BitVec.toNat_sub, hke h, Nat.add_comm]; rfl)
  rw [htl] at hraw
  rw [← readAt_apart hd hap, Nat.mul_comm] at hraw
  show (readAt f' info.filePos (((info.fileSize + ss - 1) / ss + 1) * 4) >>= _) = _
  rw [hraw]
  show (if _ then _ else _) = _
  rw [hdec]
  split
  · rename_i hx
    rw [Bool.and_eq_true, decide_eq_true_eq] at hx
    have hin : info.filePos + ((info.fileSize + ss - 1) / ss + 1) * 4 + (info.fileSize + ss - 1) / ss * 4 ≤ f'.length ∨
        (info.fileSize + ss - 1) / ss * 4 = 0 := by
      by_cases h0 : info.fileSize = 0
      · have : (info.fileSize + ss - 1) / ss = 0 := by rw [h0, Nat.zero_add]; exact Nat.div_eq_of_lt (by omega)
        right; omega
      · left
        obtain ⟨h1, h2, h3⟩ := hp' 0 (by omega)
        have hne : (packed 0).length ≠ 0 := by
          rcases h1 with h1 | ⟨_, ⟨_, _, _, h1, _⟩ | ⟨_, h1, _⟩⟩
          · rw [h1]
            unfold Spec.piece
            rw [Nat.zero_mul, List.drop_zero, List.length_take]
            omega
          · rw [h1]; simp
          · rw [himp] at h1; cases h1
        obtain ⟨raw0, h3, _⟩ := read_stands (key := readerKey name a.archiveOffset info (BitVec.ofNat 32 info.fileSize)) h3
          (fun h => hquad h 0) henc (fun h => by
            rw [hke h, hkey, Nat.add_zero, Nat.mod_eq_of_lt (by rw [← hke h]; exact BitVec.isLt _)])
        unfold readAt at h3
        rw [if_neg hne] at h3
        split at h3
        · rename_i hle
          rw [hd.length]
          have hhd : (toDwords table).headD 0 = (toDwords table).getD 0 0 := by cases toDwords table <;> rfl
          rw [hhd] at hx
          omega
        · cases h3
    have hr : ∃ r, readAt f' (info.filePos + ((info.fileSize + ss - 1) / ss + 1) * 4) ((info.fileSize + ss - 1) / ss * 4) = .ok r := by
      rcases hin with h | h
      · exact ⟨_, readAt_ok h⟩
      · rw [h]; exact ⟨_, rfl⟩
    obtain ⟨r, hr⟩ := hr
    rw [hr]
    rfl
  · rfl

/-- Where one sector ends the next begins. -/
theorem offsets_ordered {offs : List U32} {ss size : Nat} {packed : Nat → List Byte}
    (hp : ∀ i, i * ss < size → (offs.getD (i + 1) 0).toNat = (offs.getD i 0).toNat + (packed i).length) :
    ∀ n i, (i + n) * ss < size → (offs.getD i 0).toNat + (if n = 0 then 0 else (packed i).length) ≤ (offs.getD (i + n) 0).toNat := by
  intro n
  induction n with
  | zero => intro i _; rw [if_pos rfl]; exact Nat.le_refl _
  | succ n ih =>
    intro i h
    have hm : (i + n) * ss ≤ (i + (n + 1)) * ss := Nat.mul_le_mul_right _ (by omega)
    have h1 := ih i (by omega)
    have h2 := hp (i + n) (by omega)
    rw [if_neg (by omega)]
    rw [show i + (n + 1) = i + n + 1 by omega, h2]
    by_cases h0 : n = 0
    · subst h0
      rw [Nat.add_zero]
      omega
    · rw [if_neg h0] at h1
      omega

/-- Bytes elsewhere do not change what stands at a place. -/
theorem stands_apart {f f' : List Byte} {lo hi : Nat} (hd : Spec.Damaged f f' lo hi) {flags : BitVec 32} {key place : Nat}
    {packed : List Byte} (ha : Spec.Apart lo hi place packed.length) (h : Spec.Stands f flags key place packed) :
    Spec.Stands f' flags key place packed := by
  unfold Spec.Stands at h ⊢
  split
  · rename_i hx
    rw [if_pos hx] at h
    obtain ⟨c, h1, h2⟩ := h
    refine ⟨c, h1, ?_⟩
    unfold Spec.StandsAt at h2 ⊢
    have := slice_apart hd (o := place) (n := c.length) (by rw [h1.1]; exact ha)
    unfold slice at this
    rw [this, h2]
  · rename_i hx
    rw [if_neg hx] at h
    unfold Spec.StandsAt at h ⊢
    have := slice_apart hd ha
    unfold slice at this
    rw [this, h]

/-- What stands at a place that is inside the file. -/
theorem stands_something (f : List Byte) (flags : BitVec 32) (key : U32) (place n : Nat) (h : place + n ≤ f.length)
    (hq : Spec.encrypted flags = true → n % 4 = 0) : ∃ y, y.length = n ∧ Spec.Stands f flags key.toNat place y := by
  have hl : (slice f place n).length = n := by
    unfold slice
    rw [List.length_take, List.length_drop]
    omega
  have hst : Spec.StandsAt f place (slice f place n) := by
    unfold Spec.StandsAt
    rw [hl]
    rfl
  unfold Spec.Stands
  cases hx : Spec.encrypted flags with
  | false =>
    exact ⟨_, hl, hst⟩
  | true =>
    have h2 := C02_byte_round_trip key (slice f place n)
    refine ⟨decryptFileData (slice f place n) key, by rw [h2.2.2.2, hl], slice f place n, ?_, hst⟩
    have h3 := enciphers_encryptData key (decryptFileData (slice f place n) key) (by rw [h2.2.2.2, hl]; exact hq hx)
    rw [h2.2.1] at h3
    exact h3

/-- If all sectors are full, the sectors from number `k` on give their pieces even after fewer bytes than there should be. -/
theorem readSectors_late {e : Env} {m : Spec.Methods} (hu : ∀ k b n d, m.unpack k b n = some d → decompress e.codecs b k n = .ok d)
    {f : List Byte} {info : FileInfo} {key : U32} {ss : Nat} (hss : 0 < ss) {data : List Byte} (hd : data.length = info.fileSize)
    {packed : Nat → List Byte} {offs : List U32} (himp : Spec.imploded info.flags = false) (hc : info.isCompressed = true)
    (hw : info.fileSize % ss = 0) (ho : offs.length = (info.fileSize + ss - 1) / ss + 1) (k : Nat)
    (hp : ∀ i, k ≤ i → i * ss < info.fileSize → Spec.Packs m info.flags (Spec.piece ss data i) (packed i) ∧
      (offs.getD (i + 1) 0).toNat = (offs.getD i 0).toNat + (packed i).length ∧
      ∃ raw, readAt f (info.filePos + (offs.getD i 0).toNat) (packed i).length = .ok raw ∧
        (if info.isEncrypted then decryptFileData raw (key + BitVec.ofNat 32 i) else raw) = packed i) :
    ∀ (l : List U32) (i done : Nat), k ≤ i → done ≤ i * ss → offs.drop i = l → l ≠ [] →
      readSectors e f info key ss i done l = .ok (data.drop (i * ss)) := by
  intro l
  induction l with
  | nil => intro i _ _ _ _ h; exact absurd rfl h
  | cons o0 tail ih =>
    intro i done hki hdone hi _
    have hlen : (offs.drop i).length = tail.length + 1 := by rw [hi]; rfl
    rw [List.length_drop] at hlen
    cases tail with
    | nil =>
      have hi' : i = (info.fileSize + ss - 1) / ss := by simp only [List.length_nil] at hlen; omega
      have : info.fileSize ≤ i * ss := by
        rw [hi']
        have h1 := Nat.div_add_mod (info.fileSize + ss - 1) ss
        have h2 := Nat.mod_lt (info.fileSize + ss - 1) hss
        rw [Nat.mul_comm] at h1
        omega
      rw [List.drop_eq_nil_of_le (by omega)]
      rfl
    | cons o1 rest =>
      have hlt : i * ss < info.fileSize := by
        simp only [List.length_cons] at hlen
        have h1 : i + 1 ≤ (info.fileSize + ss - 1) / ss := by omega
        rw [Nat.le_div_iff_mul_le hss, Nat.add_mul, Nat.one_mul] at h1
        omega
      have hfull : i * ss + ss ≤ info.fileSize := by
        obtain ⟨c, hc⟩ := Nat.dvd_of_mod_eq_zero hw
        rw [hc, Nat.mul_comm] at hlt ⊢
        have := Nat.lt_of_mul_lt_mul_left hlt
        have := Nat.mul_le_mul_left ss (show i + 1 ≤ c by omega)
        rw [Nat.mul_add, Nat.mul_one] at this
        exact this
      have g0 : offs.getD i 0 = o0 := by
        rw [List.getD_eq_getElem?_getD, ← List.head?_drop, hi]; rfl
      have g1 : offs.getD (i + 1) 0 = o1 := by
        rw [List.getD_eq_getElem?_getD, ← List.head?_drop, ← List.drop_drop, hi]; rfl
      obtain ⟨h1, h2, raw, h3, h4⟩ := hp i hki hlt
      rw [g0, g1] at h2
      rw [g0] at h3
      have hpl : (Spec.piece ss data i).length = ss := by
        unfold Spec.piece
        rw [List.length_take, List.length_drop, hd]
        omega
      have hmin : min (info.fileSize - done) ss = (Spec.piece ss data i).length := by rw [hpl]; omega
      unfold readSectors
      rw [if_neg (by omega), if_neg (by omega), hmin, show o1.toNat - o0.toNat = (packed i).length from by omega]
      refine bind_eq_ok.2 ⟨_, readSector_piece hu h1 himp hc h3 h4, bind_eq_ok.2 ⟨data.drop ((i + 1) * ss), ?_, ?_⟩⟩
      · rw [hpl]
        exact ih (i + 1) _ (by omega) (by rw [Nat.add_mul, Nat.one_mul]; omega) (by rw [← List.drop_drop, hi]; rfl) (by simp)
      · show Except.ok _ = _
        congr 1
        unfold Spec.piece
        rw [Nat.add_mul, Nat.one_mul, ← List.drop_drop]
        exact List.take_append_drop ..

/-- C85: other bytes in one sector of a file. For every file of several sectors stored as the format says (with compression, and
not in the ways that C81 proves unreadable) there are places where its sectors stand, and if bytes change within one of these
places, the content that is read changes only there, up to what decompressing the changed bytes does. The content up to
the sector is never affected. But if decompressing gives fewer bytes and all sectors are full, reading does not fail, and the
content behind the sector moves. -/
theorem C85_sector_damage (e : Env) (m : Spec.Methods)
    (hu : ∀ k b n d, m.unpack k b n = some d → decompress e.codecs b k n = .ok d) (a : Archive) (name : List Byte) (info : FileInfo)
    (hf : a.findFile name = .ok (some info)) (hbs : a.header.blockSize.toNat < 55) (data : List Byte) (packed : Nat → List Byte)
    (hs : Spec.Stores m (512 * 2 ^ a.header.blockSize.toNat) a.file (a.entryOf name info) data packed)
    (himp : Spec.imploded info.flags = false) (hquad : Spec.encrypted info.flags = true → ∀ i, (packed i).length % 4 = 0)
    (hsu : Spec.singleUnit info.flags = false) (hcm : Spec.compressed info.flags = true)
    (ss : Nat) (hss : ss = 512 * 2 ^ a.header.blockSize.toNat) :
    ∃ places : Nat → Nat,
      (∀ i, i * ss < data.length →
        Spec.Stands a.file info.flags (((a.entryOf name info).key + i) % 2 ^ 32) (places i) (packed i)) ∧
      ∀ (k lo hi : Nat) (f' : List Byte), k * ss < data.length → Spec.Damaged a.file f' lo hi →
        places k ≤ lo → hi ≤ places k + (packed k).length →
        Spec.Apart lo hi info.filePos (4 * ((data.length + ss - 1) / ss + 1)) →
        (∃ y, y.length = (packed k).length ∧ Spec.Stands f' info.flags (((a.entryOf name info).key + k) % 2 ^ 32) (places k) y) ∧
        ∀ y, y.length = (packed k).length →
          Spec.Stands f' info.flags (((a.entryOf name info).key + k) % 2 ^ 32) (places k) y →
          Spec.SectorDamage (fun m b n => decompress e.codecs b m n) (data.length % ss = 0) (packed k) (Spec.piece ss data k) y (data.take (k * ss))
            (data.drop ((k + 1) * ss)) (({ a with file := f' } : Archive).readFile e name) := by
  obtain ⟨ss', offs, hss', hss0, hsz, hol, hp, hread⟩ := sectored_start (e := e) hf hbs hs himp hquad hsu hcm
  obtain rfl : ss = ss' := hss.trans hss'.symm
  refine ⟨fun i => info.filePos + (offs.getD i 0).toNat, fun i hi => (hp i (by omega)).2.2, ?_⟩
  intro k lo hi f' hk hd hlo hhi hap
  rw [hsz] at hk hap
  dsimp only at hlo hhi ⊢
  have hc : info.isCompressed = true := by rw [spec_compressed, hcm]; rfl
  have henc := spec_encrypted info
  obtain ⟨key, hkd⟩ : ∃ key, key = readerKey name a.archiveOffset info (BitVec.ofNat 32 info.fileSize) := ⟨_, rfl⟩
  have hke : info.isEncrypted = true → key.toNat = (a.entryOf name info).key := by
    rw [hkd]; exact spec_key name a.archiveOffset info
  have hki : ∀ i : Nat, info.isEncrypted = true → (key + BitVec.ofNat 32 i).toNat = ((a.entryOf name info).key + i) % 2 ^ 32 := by
    intro i h
    rw [BitVec.toNat_add, BitVec.toNat_ofNat, hke h, Nat.add_mod_mod]
  have hord := offsets_ordered (fun i hi => (hp i hi).2.1)
  -- the other sectors are apart from the damage
  have hother : ∀ i, i ≠ k → i * ss < info.fileSize → Spec.Packs m info.flags (Spec.piece ss data i) (packed i) ∧
      (offs.getD (i + 1) 0).toNat = (offs.getD i 0).toNat + (packed i).length ∧
      ∃ raw, readAt f' (info.filePos + (offs.getD i 0).toNat) (packed i).length = .ok raw ∧
        (if info.isEncrypted then decryptFileData raw (key + BitVec.ofNat 32 i) else raw) = packed i := by
    intro i hik hi
    obtain ⟨h1, h2, h3⟩ := hp i hi
    refine ⟨h1, h2, read_stands (stands_apart hd ?_ h3) (fun h => hquad h i) henc (hki i)⟩
    unfold Spec.Apart
    rcases Nat.lt_or_gt_of_ne hik with h | h
    · have := hord (k - i) i (by rw [show i + (k - i) = k by omega]; exact hk)
      rw [if_neg (by omega), show i + (k - i) = k by omega] at this
      omega
    · have := hord (i - k) k (by rw [show k + (i - k) = i by omega]; exact hi)
      rw [if_neg (by omega), show k + (i - k) = i by omega] at this
      omega
  have hlen : k + 1 < offs.length := by
    have h1 : k + 1 ≤ (info.fileSize + ss - 1) / ss := by
      rw [Nat.le_div_iff_mul_le hss0, Nat.add_mul, Nat.one_mul]
      omega
    omega
  obtain ⟨hpk, hnext, hstk⟩ := hp k hk
  have hpl : (Spec.piece ss data k).length = min (info.fileSize - k * ss) ss := by
    unfold Spec.piece
    rw [List.length_take, List.length_drop, hsz, Nat.min_comm]
  have hin : info.filePos + (offs.getD k 0).toNat + (packed k).length ≤ f'.length := by
    have hne : (packed k).length ≠ 0 := by
      rcases hpk with h1 | ⟨_, ⟨_, _, _, h1, _⟩ | ⟨_, h1, _⟩⟩
      · rw [h1, hpl]; omega
      · rw [h1]; simp
      · rw [himp] at h1; cases h1
    obtain ⟨raw, hraw, _⟩ := read_stands hstk (fun h => hquad h k) henc (hki k)
    unfold readAt at hraw
    rw [if_neg hne] at hraw
    rw [hd.length]
    split at hraw
    · assumption
    · cases hraw
  constructor
  · cases hx : info.isEncrypted with
    | true =>
      obtain ⟨y, h1, h2⟩ := stands_something f' info.flags (key + BitVec.ofNat 32 k) _ _ hin (fun h => hquad h k)
      rw [hki k hx] at h2
      exact ⟨y, h1, h2⟩
    | false =>
      obtain ⟨y, h1, h2⟩ := stands_something f' info.flags 0 _ _ hin (fun h => hquad h k)
      refine ⟨y, h1, ?_⟩
      rw [henc] at hx
      unfold Spec.Stands at h2 ⊢
      rw [hx] at h2 ⊢
      exact h2
  intro y hyl hy
  obtain ⟨raw, hraw, hdec⟩ := read_stands hy (fun h => by rw [hyl]; exact hquad h k) henc (hki k)
  rw [hyl] at hraw
  have hupto := readSectors_upto hu (f := f') (key := key) hsz himp hc k hk hlen
    (fun i hi => hother i (by omega) (Nat.lt_of_le_of_lt (Nat.mul_le_mul_right ss (show i ≤ k by omega)) hk)) k 0 (by omega)
  rw [Nat.zero_mul, List.drop_zero, List.drop_zero] at hupto
  have hr := hread f' lo hi hd hap
  rw [← hkd, hupto] at hr
  obtain ⟨l, hl⟩ : ∃ l, offs.drop (k + 1) = l := ⟨_, rfl⟩
  have hlne : l ≠ [] := by
    intro h0
    have := congrArg List.length hl
    rw [h0, List.length_drop] at this
    simp only [List.length_nil] at this
    omega
  have hdk : offs.drop k = offs.getD k 0 :: l := by
    rw [← hl, List.drop_eq_getElem_cons (show k < offs.length by omega), List.getD_eq_getElem?_getD,
      List.getElem?_eq_getElem (show k < offs.length by omega)]
    rfl
  obtain ⟨rest, hrest⟩ : ∃ rest, l = offs.getD (k + 1) 0 :: rest := by
    rw [← hl, List.drop_eq_getElem_cons (show k + 1 < offs.length by omega), List.getD_eq_getElem?_getD,
      List.getElem?_eq_getElem (show k + 1 < offs.length by omega)]
    exact ⟨_, rfl⟩
  -- the damaged sector
  obtain ⟨got, hgot⟩ : ∃ got, readSector e f' info key k (info.filePos + (offs.getD k 0).toNat) (packed k).length
      (Spec.piece ss data k).length = got := ⟨_, rfl⟩
  have hstep : readSectors e f' info key ss k (k * ss) (offs.drop k) = got >>= fun s =>
      readSectors e f' info key ss (k + 1) (k * ss + s.length) l >>= fun more => Except.ok (s ++ more) := by
    rw [hdk, hrest]
    conv => lhs; unfold readSectors
    rw [if_neg (by omega), if_neg (by omega), show (offs.getD (k + 1) 0).toNat - (offs.getD k 0).toNat = (packed k).length by omega,
      ← hpl, hgot]
    rfl
  rw [hstep] at hr
  have hafter : ∀ s : List Byte, s.length = (Spec.piece ss data k).length →
      readSectors e f' info key ss (k + 1) (k * ss + s.length) l = .ok (data.drop ((k + 1) * ss)) := by
    intro s hs'
    have := readSectors_from hu (f := f') (key := key) hss0 hsz himp hc hol (k + 1) (fun i hi => hother i (by omega)) l (k + 1)
      (Nat.le_refl _) hl hlne
    rw [show min ((k + 1) * ss) info.fileSize = k * ss + s.length by rw [hs', hpl, Nat.add_mul, Nat.one_mul]; omega] at this
    exact this
  have hsector : got = if (packed k).length < (Spec.piece ss data k).length then
      (if y ≠ [] then splitMethod y >>= fun mb => decompress e.codecs mb.2 mb.1 (Spec.piece ss data k).length
        else .error .compression)
      else .ok (y.take (min (Spec.piece ss data k).length y.length)) := by
    rw [← hgot]
    unfold readSector
    rw [hraw]
    show (if (info.isCompressed && decide ((packed k).length < (Spec.piece ss data k).length)) = true then _ else _) = _
    rw [hdec, hc, Bool.true_and]
    by_cases hlt : (packed k).length < (Spec.piece ss data k).length
    · rw [if_pos (by simpa using hlt), if_pos hlt]
      rfl
    · rw [if_neg (by simpa using hlt), if_neg hlt]
      rfl
  have hcons : ∀ (method : Byte) (body : List Byte), y = method :: body → (packed k).length < (Spec.piece ss data k).length →
      got = decompress e.codecs body method (Spec.piece ss data k).length := by
    intro method body hy hlt
    rw [hsector, if_pos hlt, hy, if_pos (List.cons_ne_nil _ _)]
    rfl
  constructor
  · intro heq
    rw [if_neg (by omega), List.take_of_length_le (by omega)] at hsector
    rw [hr, hsector]
    show Except.map _ (readSectors e f' info key ss (k + 1) (k * ss + y.length) l >>= _) = _
    rw [hafter y (by omega)]
    show Except.ok _ = _
    dsimp only
    rw [List.append_assoc]
  · intro hlt method body err hyc herr
    rw [hr, hcons method body hyc hlt]
    rw [herr]
    rfl
  · intro hlt method body x' hyc hx hxl
    rw [hr, hcons method body hyc hlt]
    rw [hx]
    show Except.map _ (readSectors e f' info key ss (k + 1) (k * ss + x'.length) l >>= _) = _
    rw [hafter x' hxl]
    show Except.ok _ = _
    dsimp only
    rw [List.append_assoc]
  · intro hlt method body x' hyc hx data' hdata
    rw [hr, hcons method body hyc hlt] at hdata
    rw [hx] at hdata
    have hdata : Except.map (fun r => data.take (k * ss) ++ r)
      (readSectors e f' info key ss (k + 1) (k * ss + x'.length) l >>= fun more => Except.ok (x' ++ more)) = .ok data' := hdata
    cases hmore : readSectors e f' info key ss (k + 1) (k * ss + x'.length) l with
    | error err => rw [hmore] at hdata; cases hdata
    | ok more =>
      rw [hmore] at hdata
      refine ⟨more, ?_⟩
      have := Except.ok.inj hdata
      rw [List.append_assoc]
      exact this
  · intro hlt method body x' hyc hx hxl hw
    rw [hsz] at hw
    rw [hr, hcons method body hyc hlt]
    rw [hx]
    show Except.map _ (readSectors e f' info key ss (k + 1) (k * ss + x'.length) l >>= _) = _
    rw [readSectors_late hu (f := f') (key := key) hss0 hsz himp hc hw hol (k + 1) (fun i hi => hother i (by omega)) l (k + 1) _
      (Nat.le_refl _) (by rw [Nat.add_mul, Nat.one_mul]; omega) hl hlne]
    show Except.ok _ = _
    dsimp only
    rw [List.append_assoc]

theorem encrypts_causal {s : Spec.Stream} {p c : List Nat} (h : Spec.Encrypts s p c) : ∀ {p' c' : List Nat} (j : Nat),
    Spec.Encrypts s p' c' → c.take j = c'.take j → p.take j = p'.take j := by
  induction h with
  | nil s =>
    intro p' c' j h' he
    cases h' with
    | nil => rfl
    | cons _ q qs ds h' =>
      cases j with
      | zero => rfl
      | succ j => cases he
  | cons s p ps cs h ih =>
    intro p' c' j h' he
    cases j with
    | zero => rfl
    | succ j =>
      cases h' with
      | nil => cases he
      | cons _ q qs ds h' =>
        rw [List.take_succ_cons, List.take_succ_cons] at he
        obtain ⟨h0, h1⟩ := List.cons.inj he
        have hpq : p = q := by
          have := congrArg (· ^^^ s.mask) h0
          simpa [Nat.xor_assoc] using this
        subst hpq
        rw [List.take_succ_cons, List.take_succ_cons, ih j h' h1]

/-- C85: in encrypted data, damage does not reach back. If two encrypted texts agree in the first `j` dwords, so do the texts
that are encrypted. -/
theorem C85_damage_goes_forward (key j : Nat) (plain plain' cipher cipher' : List Byte) (h : Spec.Enciphers key plain cipher)
    (h' : Spec.Enciphers key plain' cipher') (hj : 4 * j ≤ cipher.length) (hj' : 4 * j ≤ cipher'.length)
    (he : cipher.take (4 * j) = cipher'.take (4 * j)) : plain.take (4 * j) = plain'.take (4 * j) := by
  obtain ⟨l1, _, h⟩ := h
  obtain ⟨l2, _, h'⟩ := h'
  have hc : (Spec.dwords cipher).take j = (Spec.dwords cipher').take j := by rw [← dwords_take, ← dwords_take, he]
  have hp : (Spec.dwords plain).take j = (Spec.dwords plain').take j := by
    by_cases hk : key = 0
    · rw [if_pos hk] at h h'
      rw [← h, ← h', hc]
    · rw [if_neg hk] at h h'
      exact encrypts_causal h j h' hc
  rw [← dwords_take, ← dwords_take, dwords_eq, dwords_eq] at hp
  refine toDwords_inj ?_ ?_ (List.map_inj_right (fun _ _ h => BitVec.eq_of_toNat_eq h) |>.1 hp)
  · rw [List.length_take, Nat.min_eq_left (by omega)]; omega
  · rw [List.length_take, Nat.min_eq_left (by omega)]; omega

/-! ## Cases -/

/-- A file of two sectors of 512 bytes, each of them compressed to three bytes. `m` is the first byte of the first sector and `b`
the last. -/
def sparsePair (m b : Byte) : List Byte := [12, 0, 0, 0, 15, 0, 0, 0, 18, 0, 0, 0, m, 1, b, 0x20, 1, 9]

def sparsePairPacked (i : Nat) : List Byte := if i = 0 then [0x20, 1, 7] else [0x20, 1, 9]

def sparsePairData : List Byte := 7 :: List.replicate 511 0 ++ 9 :: List.replicate 511 0

theorem sparsePair_stores (k1 k2 : U32) (name : List Byte) :
    Spec.Stores toyMethods 512 (storedOne k1 k2 (sparsePair 0x20 7) 18 1024 0x80000200).file
      ((storedOne k1 k2 (sparsePair 0x20 7) 18 1024 0x80000200).entryOf name ⟨0, 0, 0, 18, 1024, 0x80000200, 0⟩) sparsePairData
      sparsePairPacked := by
  refine ⟨by show sparsePairData.length = 1024; decide +kernel, ?_⟩
  rw [if_neg (by show ¬ Spec.singleUnit 0x80000200 = true; decide),
    if_pos (by show (Spec.compressed 0x80000200 || Spec.imploded 0x80000200) = true; decide)]
  refine ⟨[12, 0, 0, 0, 15, 0, 0, 0, 18, 0, 0, 0], by show 12 = 4 * ((1024 + 512 - 1) / 512 + 1); decide, ?_, ?_⟩
  · unfold Spec.Stands
    rw [if_neg (by show ¬ Spec.encrypted 0x80000200 = true; decide)]
    rfl
  · intro i hi
    have hi' : i * 512 < 1024 := hi
    rcases (show i = 0 ∨ i = 1 by omega) with rfl | rfl
    · refine ⟨Or.inr ⟨by decide +kernel, Or.inl ⟨by show Spec.compressed 0x80000200 = true; decide, 0x20, [1, 7], rfl, by decide +kernel⟩⟩,
        by decide, ?_⟩
      unfold Spec.Stands
      rw [if_neg (by show ¬ Spec.encrypted 0x80000200 = true; decide)]
      rfl
    · refine ⟨Or.inr ⟨by decide +kernel, Or.inl ⟨by show Spec.compressed 0x80000200 = true; decide, 0x20, [1, 9], rfl, by decide +kernel⟩⟩,
        by decide, ?_⟩
      unfold Spec.Stands
      rw [if_neg (by show ¬ Spec.encrypted 0x80000200 = true; decide)]
      rfl

theorem sparsePair_damage (k1 k2 : U32) (name : List Byte) (h1 : hashString name htNameA = k1) (h2 : hashString name htNameB = k2)
    (m b : Byte) : Spec.SectorDamage (fun m b n => decompress toyEnv.codecs b m n) (sparsePairData.length % 512 = 0) [0x20, 1, 7]
      (Spec.piece 512 sparsePairData 0) [m, 1, b] (sparsePairData.take 0) (sparsePairData.drop 512)
      ((storedOne k1 k2 (sparsePair m b) 18 1024 0x80000200).readFile toyEnv name) := by
  have hf := storedOne_find h1 h2 (sparsePair 0x20 7) 18 1024 0x80000200
  obtain ⟨places, hplaces, h⟩ := C85_sector_damage toyEnv toyMethods toyMethods_agree _ name _ hf
    (by show (0 : Nat) < 55; decide) sparsePairData sparsePairPacked (sparsePair_stores k1 k2 name)
    (by show Spec.imploded 0x80000200 = false; decide)
    (fun h => by revert h; show Spec.encrypted 0x80000200 = true → _; intro h; exact absurd h (by decide))
    (by show Spec.singleUnit 0x80000200 = false; decide) (by show Spec.compressed 0x80000200 = true; decide) 512 rfl
  have hl : sparsePairData.length = 1024 := by decide +kernel
  have hp := hplaces 0 (by rw [hl]; decide)
  have h12 : places 0 = 12 := by
    unfold Spec.Stands at hp
    rw [if_neg (by show ¬ Spec.encrypted 0x80000200 = true; decide)] at hp
    have hp : ((sparsePair 0x20 7).drop (places 0)).take 3 = [0x20, 1, 7] := hp
    have hlt : places 0 < 18 := by
      rcases Nat.lt_or_ge (places 0) 18 with h | h
      · exact h
      · rw [List.drop_eq_nil_of_le h] at hp
        cases hp
    have hall : ∀ p, p < 18 → ((sparsePair 0x20 7).drop p).take 3 = [0x20, 1, 7] → p = 12 := by decide +kernel
    exact hall _ hlt hp
  have hd : Spec.Damaged (sparsePair 0x20 7) (sparsePair m b) 12 15 := by
    refine ⟨rfl, fun i hi => ?_⟩
    match i, hi with
    | 0, _ | 1, _ | 2, _ | 3, _ | 4, _ | 5, _ | 6, _ | 7, _ | 8, _ | 9, _ | 10, _ | 11, _ => rfl
    | 12, h | 13, h | 14, h => omega
    | j + 15, _ => rfl
  refine (h 0 12 15 (sparsePair m b) (by rw [hl]; decide) hd (by rw [h12]; exact Nat.le_refl _) (by rw [h12]; decide)
    (by rw [hl]; right; left; decide)).2 [m, 1, b] rfl ?_
  unfold Spec.Stands
  rw [if_neg (by show ¬ Spec.encrypted 0x80000200 = true; decide), h12]
  rfl

/-- Another byte in a compressed sector: the content is different in this sector only. -/
example (k1 k2 : U32) (name : List Byte) (h1 : hashString name htNameA = k1) (h2 : hashString name htNameB = k2) :
    (storedOne k1 k2 (sparsePair 0x20 8) 18 1024 0x80000200).readFile toyEnv name =
      .ok (8 :: List.replicate 511 0 ++ 9 :: List.replicate 511 0) :=
  ((sparsePair_damage k1 k2 name h1 h2 0x20 8).sameLength (by decide +kernel) 0x20 [1, 8] (8 :: List.replicate 511 0) rfl
    (by decide +kernel) (by decide +kernel)).trans (by decide +kernel)

/-- Another method, by which the bytes cannot be decompressed: reading fails. -/
example (k1 k2 : U32) (name : List Byte) (h1 : hashString name htNameA = k1) (h2 : hashString name htNameB = k2) :
    ∃ err, (storedOne k1 k2 (sparsePair 0x02 7) 18 1024 0x80000200).readFile toyEnv name = .error err :=
  ⟨_, (sparsePair_damage k1 k2 name h1 h2 0x02 7).broken (by decide +kernel) 0x02 [1, 7] .compression rfl (by decide +kernel)⟩

/-- C85: one byte is changed, and a file is read with 514 bytes in place of 1024, without an error: the size of the file that the
archive records is not compared with what was read. -/
theorem C85_silently_shorter (name : List Byte) : ∃ (a : Archive) (info : FileInfo) (data : List Byte) (packed : Nat → List Byte)
    (f' data' : List Byte), Spec.Stores toyMethods 512 a.file (a.entryOf name info) data packed ∧
      a.findFile name = .ok (some info) ∧ a.readFile toyEnv name = .ok data ∧ Spec.Damaged a.file f' 12 13 ∧
      ({ a with file := f' } : Archive).readFile toyEnv name = .ok data' ∧ data.length = 1024 ∧ info.fileSize = 1024 ∧
      data'.length = 514 := by
  obtain ⟨k1, h1⟩ : ∃ k, hashString name htNameA = k := ⟨_, rfl⟩
  obtain ⟨k2, h2⟩ : ∃ k, hashString name htNameB = k := ⟨_, rfl⟩
  refine ⟨storedOne k1 k2 (sparsePair 0x20 7) 18 1024 0x80000200, _, sparsePairData, sparsePairPacked, sparsePair 0 7,
    [1, 7] ++ sparsePairData.drop 512, sparsePair_stores k1 k2 name, storedOne_find h1 h2 _ _ _ _, ?_, ?_, ?_,
    by decide +kernel, rfl, by decide +kernel⟩
  · exact ((sparsePair_damage k1 k2 name h1 h2 0x20 7).sameLength (by decide +kernel) 0x20 [1, 7] (7 :: List.replicate 511 0) rfl
      (by decide +kernel) (by decide +kernel)).trans (by decide +kernel)
  · refine ⟨rfl, fun i hi => ?_⟩
    match i, hi with
    | 0, _ | 1, _ | 2, _ | 3, _ | 4, _ | 5, _ | 6, _ | 7, _ | 8, _ | 9, _ | 10, _ | 11, _ => rfl
    | 12, h => omega
    | j + 13, _ => rfl
  · exact (sparsePair_damage k1 k2 name h1 h2 0 7).shorter (by decide +kernel) 0 [1, 7] [1, 7] rfl (by decide +kernel)
      (by decide +kernel) (by decide +kernel)

/-- Two encrypted texts that agree in their first dword. -/
example (key : U32) (p p' : List Byte) (hp : p.length = 8) (hp' : p'.length = 8)
    (h : (encryptData p key).take 4 = (encryptData p' key).take 4) : p.take 4 = p'.take 4 :=
  C85_damage_goes_forward key.toNat 1 p p' _ _ (enciphers_encryptData key p (by omega)) (enciphers_encryptData key p' (by omega))
    (by rw [encryptData_length]; omega) (by rw [encryptData_length]; omega) h

end Mopaq
