import Verif.Props.Format

/-! # Files are written as the format stores them (C82) -/

namespace Mopaq

/-- The entry of a file in an archive that starts at `ao`, as the block table describes it: its key is computed from it as the
format says. -/
def writtenEntry (ao : Nat) (p : FileWriteParams) (w : Written) : Spec.Stored where
  place := ao + p.filePos
  storedSize := w.size
  size := p.data.length
  flags := w.flags ||| 0x80000000#32
  key := Spec.fileKey p.name (w.flags ||| 0x80000000#32) p.filePos p.data.length

/-- `x` is stored by itself: a sector, or the whole of a file that is not longer than one. -/
def Spec.IsPiece (ss : Nat) (data x : List Byte) : Prop :=
  if data.length ≤ ss then x = data else _root_.Spec.IsSector ss data x

theorem mkFlags_spec (single crc comp enc fix : Bool) :
    Spec.singleUnit (mkFlags single crc comp enc fix ||| 0x80000000#32) = single ∧
    Spec.compressed (mkFlags single crc comp enc fix ||| 0x80000000#32) = comp ∧
    Spec.imploded (mkFlags single crc comp enc fix ||| 0x80000000#32) = false ∧
    Spec.encrypted (mkFlags single crc comp enc fix ||| 0x80000000#32) = enc ∧
    Spec.fixKey (mkFlags single crc comp enc fix ||| 0x80000000#32) = hasBits (mkFlags single crc comp enc fix) 0x20000#32 := by
  revert single crc comp enc fix; decide

theorem writer_key {single crc comp enc fix : Bool} (p : FileWriteParams) (w : Written) (ao : Nat)
    (hf : w.flags = mkFlags single crc comp enc fix) :
    (calculateFileKey p.name p.filePos (BitVec.ofNat 32 p.data.length) w.flags).toNat = (writtenEntry ao p w).key := by
  rw [C24_key_value]
  unfold writtenEntry Spec.fileKey
  dsimp only
  rw [hf, (mkFlags_spec single crc comp enc fix).2.2.2.2]

theorem final_stands {f : List Byte} {flags : U32} {enc : Bool} (hfl : Spec.encrypted flags = enc) {key : U32} {k place : Nat}
    (hk : key.toNat = k) {b : List Byte} (hq : enc = true → b.length % 4 = 0)
    (h : Spec.StandsAt f place (if enc then encryptData b key else b)) : Spec.Stands f flags k place b := by
  unfold Spec.Stands
  rw [hfl]
  cases enc with
  | true =>
    rw [if_pos rfl] at h ⊢
    refine ⟨_, ?_, h⟩
    rw [← hk]
    exact enciphers_encryptData key b (hq rfl)
  | false =>
    rw [if_neg (by decide)] at h ⊢
    exact h

theorem standsAt_mid (pre b post : List Byte) : Spec.StandsAt (pre ++ b ++ post) pre.length b := by
  unfold Spec.StandsAt
  rw [List.append_assoc, List.drop_left' rfl, List.take_left' rfl]

theorem offsetsFrom_getD : ∀ (bs : List (List Byte)) (start i : Nat), i ≤ bs.length → start + bs.flatten.length < 2 ^ 32 →
    ((offsetsFrom start bs).getD i 0).toNat = start + (bs.take i).flatten.length
  | bs, start, 0, _, h => by
    obtain ⟨rest, hr⟩ := offsetsFrom_cons start bs
    rw [hr]
    show (BitVec.ofNat 32 start).toNat = _
    rw [ofNat32_toNat (by omega)]
    rfl
  | [], _, i + 1, h, _ => by simp at h
  | b :: bs, start, i + 1, h, hs => by
    rw [List.flatten_cons, List.length_append] at hs
    show ((offsetsFrom (start + b.length) bs).getD i 0).toNat = _
    rw [offsetsFrom_getD bs (start + b.length) i (by simpa using h) (by omega), List.take_succ_cons, List.flatten_cons,
      List.length_append]
    omega

theorem finals_getElem (enc : Bool) (key : U32) : ∀ (bs : List (List Byte)) (j i : Nat) (hi : i < bs.length),
    Spec.StandsAt (finals enc key j bs).flatten (bs.take i).flatten.length
      (if enc then encryptData bs[i] (key + BitVec.ofNat 32 (j + i)) else bs[i])
  | [], _, _, hi => by simp at hi
  | b :: bs, j, 0, _ => by
    unfold Spec.StandsAt
    rw [finals, List.flatten_cons]
    simp only [List.take_zero, List.flatten_nil, List.length_nil, List.drop_zero, Nat.add_zero, List.getElem_cons_zero]
    exact List.take_left' rfl
  | b :: bs, j, i + 1, hi => by
    have ih := finals_getElem enc key bs (j + 1) i (by simpa using hi)
    unfold Spec.StandsAt at ih ⊢
    rw [finals, List.flatten_cons, List.take_succ_cons, List.flatten_cons, List.length_append, ← List.drop_drop,
      List.drop_left' (final_length ..)]
    rw [show j + 1 + i = j + (i + 1) from by omega] at ih
    exact ih

theorem standsAt_in {f g : List Byte} {place off : Nat} {b : List Byte} (h : Spec.StandsAt f place g) (h2 : Spec.StandsAt g off b)
    (hb : b ≠ []) : Spec.StandsAt f (place + off) b := by
  unfold Spec.StandsAt at *
  rw [← List.drop_drop]
  have hl := congrArg List.length h2
  rw [List.length_take, List.length_drop] at hl
  have hp : 0 < b.length := List.length_pos_iff.2 hb
  rw [← h] at h2
  rw [List.drop_take, List.take_take, Nat.min_eq_left (by omega)] at h2
  exact h2

theorem pairwise₂_get {α β : Type} {R : α → β → Prop} {xs : List α} {ys : List β} (h : Pairwise₂ R xs ys) :
    ∀ i (hx : i < xs.length) (hy : i < ys.length), R xs[i] ys[i] := by
  induction h with
  | nil => intro i hx; simp at hx
  | cons h _ ih =>
    intro i hx hy
    cases i with
    | zero => exact h
    | succ i => exact ih i (by simpa using hx) (by simpa using hy)

/-- What is stored for a piece, under the conditions of C82. -/
theorem stored_packs {e : Env} (he : e.codecs.Lawful) {m : Spec.Methods}
    (hu : ∀ k b n d, decompress e.codecs b k n = .ok d → m.unpack k b n = some d) {method : Byte} {x s : List Byte} {b : Bool}
    (hl : Spec.LosslessMethod method x) (hs : storeUnit e method x = .ok (s, b)) {flags : U32}
    (hc : b = true → Spec.compressed flags = true)
    (hshort : ∀ c, CompressedSector e.codecs method x c → c.length < x.length) : Spec.Packs m flags x s := by
  rcases storeUnit_stored (roundTrips_of_lossless he hl) hs with ⟨_, h⟩ | ⟨hb, hne, _, body, hbody, hd⟩
  · exact Or.inl h
  · refine Or.inr ⟨?_, Or.inl ⟨hc hb, method, body, hbody, hu _ _ _ _ hd⟩⟩
    rcases storeUnit_cases hs with ⟨h0, _⟩ | ⟨_, _, _, _, h1⟩
    · rw [hb] at h0; cases h0
    · exact hshort s ⟨h1, hne⟩

theorem stored_quad {e : Env} {method : Byte} {x s : List Byte} {b : Bool} (hs : storeUnit e method x = .ok (s, b))
    (hq : ∀ c, compress e.codecs x method = .ok c → c.length % 4 = 0) : s.length % 4 = 0 := by
  unfold storeUnit at hs
  split at hs
  · obtain ⟨c, hc, hs⟩ := bind_eq_ok.1 hs
    have := hq c hc
    split at hs
    · injection hs with hs; injection hs with h1 h2; subst h1; exact this
    · rename_i h
      have h : c = x := Classical.not_not.1 h
      injection hs with hs; injection hs with h1 h2; subst h1 h; exact this
  · rename_i h
    injection hs with hs; injection hs with h1 h2; subst h1
    by_cases h0 : x = []
    · rw [h0]; rfl
    · have hm : method = 0#8 := Classical.not_not.1 fun h1 => h ⟨h1, h0⟩
      exact hq x (by rw [hm]; exact compress_zero ..)

/-- C82: what the builder writes for a file is what the format prescribes for it, so that other software which follows the format and
understands the method reads it: for every name, place, content, method that loses nothing, sector size and option, if
– of a file of several sectors, at least one is stored compressed;
– no sector, or file of one sector, is stored compressed with just as many bytes;
– of encrypted files, the length of everything stored is a multiple of four.
Without these it is not, see below. The checksums are not part of this. -/
theorem C82_written_as_stored_partial (e : Env) (he : e.codecs.Lawful) (m : Spec.Methods)
    (hu : ∀ k b n d, decompress e.codecs b k n = .ok d → m.unpack k b n = some d) (crcs : Bool) (p : FileWriteParams) (w : Written)
    (hw : writeFile e crcs p = .ok w) (hss : 512 ≤ p.sectorSize) (hsize : p.data.length + p.data.length / 64 + 12 < 2 ^ 32)
    (hm : Spec.LosslessMethod p.compression p.data) (ao : Nat) (pre post : List Byte) (hpre : pre.length = ao + p.filePos)
    (hsome : p.sectorSize < p.data.length →
      ∃ x c, _root_.Spec.IsSector p.sectorSize p.data x ∧ CompressedSector e.codecs p.compression x c)
    (hshort : ∀ x c, Spec.IsPiece p.sectorSize p.data x → CompressedSector e.codecs p.compression x c → c.length < x.length)
    (hquad : p.encrypt = true → ∀ x c, Spec.IsPiece p.sectorSize p.data x → compress e.codecs x p.compression = .ok c →
      c.length % 4 = 0) :
    ∃ packed, Spec.Stores m p.sectorSize (pre ++ w.bytes ++ post) (writtenEntry ao p w) p.data packed := by
  unfold writeFile at hw
  split at hw
  · rename_i hlen
    obtain ⟨s, b, hs, hf, hsz, hb⟩ := writeSingle_eq hw
    obtain ⟨f1, f2, f3, f4, f5⟩ := mkFlags_spec true crcs b p.encrypt p.useFixKey
    rw [← hf] at f1 f2 f3 f4 f5
    have hk := writer_key p w ao hf
    refine ⟨fun _ => s, rfl, ?_⟩
    rw [if_pos (show Spec.singleUnit (writtenEntry ao p w).flags = true from f1)]
    have hpc : Spec.IsPiece p.sectorSize p.data p.data := by unfold Spec.IsPiece; rw [if_pos hlen]
    refine ⟨stored_packs he hu hm hs (fun hb' => by show Spec.compressed (w.flags ||| _) = true; rw [f2, hb']) (fun c => hshort _ c hpc),
      hsz.symm, ?_⟩
    refine final_stands (enc := p.encrypt) f4 hk (fun h => stored_quad hs (fun c => hquad h _ c hpc)) ?_
    show Spec.StandsAt _ (ao + p.filePos) _
    rw [← hpre, hb, ← List.append_assoc, List.append_assoc]
    exact standsAt_mid ..
  · rename_i hlen
    have hlen : p.sectorSize < p.data.length := by omega
    obtain ⟨count, stored, hc, hs, hf, hrest⟩ := writeSectored_eq hw
    obtain ⟨hss0, hcount, hle, hpos, hge⟩ := divCeil_ok hc
    obtain ⟨f1, f2, f3, f4, f5⟩ := mkFlags_spec false crcs (stored.any (·.2)) p.encrypt p.useFixKey
    rw [← hf] at f1 f2 f3 f4 f5
    have hk := writer_key p w ao hf
    have hpw := mapM_ok hs
    have hsl : (sectorsOf p.data p.sectorSize count).length = count := by
      unfold sectorsOf
      rw [List.length_map, List.length_range]
    have hstl : stored.length = count := by rw [← pairwise₂_length hpw, hsl]
    obtain ⟨hflat, _⟩ := sectorsOf_spec p.sectorSize count p.data 0 hle
    have hfl := flatten_stored_le hpw
    rw [hflat] at hfl
    have hcl : (count - 1) * 512 ≤ p.data.length := Nat.le_trans (Nat.mul_le_mul_left _ hss) hge
    have hbound : (count + 1) * 4 + (if crcs then count * 4 else 0) + (stored.map (·.1)).flatten.length < 2 ^ 32 := by
      have : (if crcs then count * 4 else 0) ≤ count * 4 := by split <;> omega
      omega
    obtain ⟨hsz, hb⟩ := hrest hbound
    clear hrest
    generalize hkd : calculateFileKey p.name p.filePos (BitVec.ofNat 32 p.data.length) w.flags = key at *
    generalize hst : (count + 1) * 4 + (if crcs then count * 4 else 0) = start at *
    have hcr : (if crcs then ofDwords ((sectorsOf p.data p.sectorSize count).map e.adler) else []).length = start - (count + 1) * 4 := by
      rw [← hst]
      split
      · rw [ofDwords_length, List.length_map, hsl]; omega
      · simp
    generalize (if crcs then ofDwords ((sectorsOf p.data p.sectorSize count).map e.adler) else []) = crcBytes at *
    generalize hbl : stored.map (·.1) = blobs at *
    have hbll : blobs.length = count := by rw [← hbl, List.length_map, hstl]
    have hany : stored.any (·.2) = true := by
      obtain ⟨x, c, hx, hxc⟩ := hsome hlen
      exact (any_stored hpw).2 ⟨x, (mem_sectorsOf hc x).2 hx, c, (storeUnit_true (isSector_ne hss0 hx)).2 hxc⟩
    have htab : (if p.encrypt then encryptData (ofDwords (offsetsFrom start blobs)) (key - 1) else ofDwords (offsetsFrom start blobs)) =
        ofDwords (if p.encrypt then encryptBlock (offsetsFrom start blobs) (key - 1) else offsetsFrom start blobs) := by
      rw [encryptData_ofDwords]
      split <;> rfl
    have htl : (ofDwords (offsetsFrom start blobs)).length = (count + 1) * 4 := by
      rw [ofDwords_length, offsetsFrom_length, hbll]; omega
    have hdw : Spec.dwords (ofDwords (offsetsFrom start blobs)) = (offsetsFrom start blobs).map BitVec.toNat := by
      rw [dwords_eq, toDwords_ofDwords]
    have hget : ∀ i, i ≤ count → (Spec.dwords (ofDwords (offsetsFrom start blobs))).getD i 0 = start + (blobs.take i).flatten.length := by
      intro i hi
      rw [hdw, ← offsetsFrom_getD blobs start i (by omega) hbound, List.getD_eq_getElem?_getD, List.getD_eq_getElem?_getD,
        List.getElem?_map]
      cases (offsetsFrom start blobs)[i]? <;> rfl
    dsimp only at hb
    rw [← htab] at hb
    have htl' : (if p.encrypt then encryptData (ofDwords (offsetsFrom start blobs)) (key - 1)
        else ofDwords (offsetsFrom start blobs)).length = (count + 1) * 4 := by
      rw [final_length, htl]
    refine ⟨fun i => blobs.getD i [], rfl, ?_⟩
    rw [if_neg (show ¬ Spec.singleUnit (writtenEntry ao p w).flags = true from by
        show ¬ Spec.singleUnit (w.flags ||| _) = true; rw [f1]; decide),
      if_pos (show (Spec.compressed (writtenEntry ao p w).flags || Spec.imploded (writtenEntry ao p w).flags) = true from by
        show (Spec.compressed (w.flags ||| _) || _) = true; rw [f2, hany]; rfl)]
    refine ⟨ofDwords (offsetsFrom start blobs), ?_, ?_, ?_⟩
    · rw [htl, hcount, Nat.mul_comm]
      rfl
    · refine final_stands (enc := p.encrypt) f4 (key := key - 1) ?_ (fun _ => by rw [htl]; omega) ?_
      · rw [BitVec.toNat_sub, hk, Nat.add_comm]
        rfl
      · show Spec.StandsAt _ (ao + p.filePos) _
        rw [← hpre, hb]
        have h2 := standsAt_mid pre (if p.encrypt then encryptData (ofDwords (offsetsFrom start blobs)) (key - 1)
          else ofDwords (offsetsFrom start blobs)) (crcBytes ++ (finals p.encrypt key 0 blobs).flatten ++ post)
        simpa only [List.append_assoc] using h2
    · intro i hi
      have hi : i * p.sectorSize < p.data.length := hi
      have hic : i < count := by
        rw [hcount, Nat.lt_iff_add_one_le, Nat.le_div_iff_mul_le hss0, Nat.add_one_mul]
        omega
      have hbi : blobs.getD i [] = (stored[i]'(hstl ▸ hic)).1 := by
        clear hbound hsz hb hbll htab htl hdw hget htl' hfl
        rw [List.getD_eq_getElem?_getD, ← hbl, List.getElem?_map, List.getElem?_eq_getElem (by omega)]
        rfl
      have hbe : blobs.getD i [] = blobs[i]'(by omega) := by
        rw [List.getD_eq_getElem?_getD, List.getElem?_eq_getElem (by omega)]
        rfl
      have hsi : (sectorsOf p.data p.sectorSize count)[i]'(by omega) = Spec.piece p.sectorSize p.data i := by
        unfold sectorsOf
        rw [List.getElem_map, List.getElem_range]
        rfl
      have hstore := pairwise₂_get hpw i (by omega) (by omega)
      rw [hsi] at hstore
      have hsec : _root_.Spec.IsSector p.sectorSize p.data (Spec.piece p.sectorSize p.data i) :=
        ⟨i, hi, rfl⟩
      have hpc : Spec.IsPiece p.sectorSize p.data (Spec.piece p.sectorSize p.data i) := by
        unfold Spec.IsPiece
        rw [if_neg (by omega)]
        exact hsec
      have hquad' : p.encrypt = true → (blobs.getD i []).length % 4 = 0 := by
        intro h
        rw [hbi]
        exact stored_quad hstore (fun c => hquad h _ c hpc)
      have hpk : Spec.Packs m (writtenEntry ao p w).flags (Spec.piece p.sectorSize p.data i) (blobs.getD i []) := by
        rw [hbi]
        refine stored_packs he hu ?_ hstore (fun _ => ?_) (fun c => hshort _ c hpc)
        · refine ⟨hm.1, hm.2.1, hm.2.2.1, fun h => noLongZeroRun_sector (hm.2.2.2.1 h) hsec, ?_⟩
          have h61 := hm.2.2.2.2
          unfold Spec.piece
          rw [List.length_take, List.length_drop]
          omega
        · show Spec.compressed (w.flags ||| _) = true
          rw [f2, hany]
      refine ⟨hpk, ?_, ?_⟩
      · rw [hget i (by omega), hget (i + 1) (by omega), ← List.take_append_getElem (show i < blobs.length by omega),
          List.flatten_append, List.length_append]
        dsimp only
        rw [hbe]
        simp [Nat.add_assoc]
      · rw [hget i (by omega)]
        refine final_stands (enc := p.encrypt) f4 (key := key + BitVec.ofNat 32 i) ?_ hquad' ?_
        · rw [BitVec.toNat_add, BitVec.toNat_ofNat, hk, Nat.add_mod_mod]
        · have h1 := finals_getElem p.encrypt key blobs 0 i (by omega)
          rw [Nat.zero_add] at h1
          show Spec.StandsAt _ (ao + p.filePos + (start + (blobs.take i).flatten.length))
            (if p.encrypt = true then encryptData (blobs.getD i []) (key + BitVec.ofNat 32 i) else blobs.getD i [])
          rw [hbe, ← Nat.add_assoc]
          refine standsAt_in (g := (finals p.encrypt key 0 blobs).flatten) ?_ h1 ?_
          · have hlen1 : start = (if p.encrypt then encryptData (ofDwords (offsetsFrom start blobs)) (key - 1)
                else ofDwords (offsetsFrom start blobs)).length + crcBytes.length := by
              rw [htl', hcr, ← hst]; omega
            rw [hb, ← hpre]
            generalize (if p.encrypt then encryptData (ofDwords (offsetsFrom start blobs)) (key - 1)
                else ofDwords (offsetsFrom start blobs)) = t at hlen1 ⊢
            have h2 := standsAt_mid (pre ++ t ++ crcBytes) (finals p.encrypt key 0 blobs).flatten post
            rw [List.length_append, List.length_append, Nat.add_assoc, ← hlen1] at h2
            simpa only [List.append_assoc] using h2
          · intro h0
            have h3 := congrArg List.length h0
            rw [final_length, ← hbe] at h3
            have h4 := isSector_ne hss0 hsec
            rcases hpk with h5 | ⟨_, ⟨_, _, _, h5, _⟩ | ⟨h5, _⟩⟩
            · rw [h5] at h3
              exact h4 (List.length_eq_zero_iff.1 h3)
            · rw [h5] at h3; simp at h3
            · have : Spec.compressed (w.flags ||| 0x80000000#32) = false := h5
              rw [f2, hany] at this
              cases this

/-! ## The exceptions -/

theorem none_stored {e : Env} {m : Byte} : ∀ {sectors : List (List Byte)} {stored : List (List Byte × Bool)},
    Pairwise₂ (fun x y => storeUnit e m x = .ok y) sectors stored → stored.any (·.2) = false → stored.map (·.1) = sectors := by
  intro sectors stored hp
  induction hp with
  | nil => intro _; rfl
  | @cons x y xs ys hxy hp ih =>
    obtain ⟨s, b⟩ := y
    intro h
    rw [List.any_cons, Bool.or_eq_false_iff] at h
    rw [List.map_cons, ih h.2]
    rcases storeUnit_cases hxy with ⟨_, h1⟩ | ⟨h1, _⟩
    · rw [h1]
    · have h2 : b = false := h.1
      rw [h2] at h1; cases h1

/-- C82 fails for files of several sectors of which none is compressed, whatever the options: they are written with a table of
offsets although their flags say that there is none, so for other software the table is the beginning of the content. -/
theorem C82_uncompressed_sectors (e : Env) (m : Spec.Methods) (crcs : Bool) (p : FileWriteParams) (w : Written)
    (hw : writeFile e crcs p = .ok w) (hss : 512 ≤ p.sectorSize) (hsize : p.data.length + p.data.length / 64 + 12 < 2 ^ 32)
    (hlen : p.sectorSize < p.data.length)
    (hnone : ∀ x c, _root_.Spec.IsSector p.sectorSize p.data x → ¬ CompressedSector e.codecs p.compression x c) (ao : Nat)
    (f : List Byte) (packed : Nat → List Byte) : ¬ Spec.Stores m p.sectorSize f (writtenEntry ao p w) p.data packed := by
  intro hst
  unfold writeFile at hw
  rw [if_neg (by omega)] at hw
  obtain ⟨count, stored, hc, hs, hf, hrest⟩ := writeSectored_eq hw
  obtain ⟨hss0, hcount, hle, hpos, hge⟩ := divCeil_ok hc
  have hpw := mapM_ok hs
  obtain ⟨hflat, _⟩ := sectorsOf_spec p.sectorSize count p.data 0 hle
  have hany : stored.any (·.2) = false := by
    cases h : stored.any (·.2) with
    | false => rfl
    | true =>
      obtain ⟨x, hx, c, hc'⟩ := (any_stored hpw).1 h
      have hx' := (mem_sectorsOf hc x).1 hx
      exact absurd ((storeUnit_true (isSector_ne hss0 hx')).1 hc') (hnone x c hx')
  rw [none_stored hpw hany, hflat] at hrest
  have hcl : (count - 1) * 512 ≤ p.data.length := Nat.le_trans (Nat.mul_le_mul_left _ hss) hge
  obtain ⟨hsz, _⟩ := hrest (by split <;> omega)
  obtain ⟨f1, f2, f3, f4, f5⟩ := mkFlags_spec false crcs (stored.any (·.2)) p.encrypt p.useFixKey
  rw [← hf] at f1 f2 f3 f4 f5
  have h := ((stores_cases hst).2.2 f1 (by
    show (Spec.compressed (w.flags ||| _) || Spec.imploded (w.flags ||| _)) = false
    rw [f2, f3, hany]; rfl)).1
  have h : w.size = p.data.length := h
  omega

/-- C82 fails for a file of one sector whose compressed form has just as many bytes: it is stored compressed, but for other
software data that did not become shorter are not compressed. -/
theorem C82_equal_length (e : Env) (m : Spec.Methods) (crcs : Bool) (p : FileWriteParams) (w : Written)
    (hw : writeFile e crcs p = .ok w) (hlen : p.data.length ≤ p.sectorSize) (hdata : p.data ≠ []) (henc : p.encrypt = false) (c : List Byte)
    (hc : CompressedSector e.codecs p.compression p.data c) (hcl : c.length = p.data.length)
    (ao : Nat) (pre post : List Byte) (hpre : pre.length = ao + p.filePos) (packed : Nat → List Byte) :
    ¬ Spec.Stores m p.sectorSize (pre ++ w.bytes ++ post) (writtenEntry ao p w) p.data packed := by
  intro hst
  unfold writeFile at hw
  rw [if_pos hlen] at hw
  obtain ⟨s, b, hs, hf, hsz, hb⟩ := writeSingle_eq hw
  rw [(storeUnit_true hdata).2 hc] at hs
  injection hs with hs; injection hs with h1 h2; subst h1 h2
  obtain ⟨f1, f2, f3, f4, f5⟩ := mkFlags_spec true crcs true p.encrypt p.useFixKey
  rw [← hf] at f1 f2 f3 f4 f5
  obtain ⟨hp, hl, hstands⟩ := (stores_cases hst).1 f1
  unfold Spec.Stands at hstands
  rw [if_neg (show ¬ Spec.encrypted (writtenEntry ao p w).flags = true from by
    show ¬ Spec.encrypted (w.flags ||| _) = true; rw [f4, henc]; decide)] at hstands
  have hl : (packed 0).length = w.size := hl
  have hst2 : ((pre ++ w.bytes ++ post).drop (ao + p.filePos)).take (packed 0).length = packed 0 := hstands
  rw [← hpre, hb, henc, if_neg (by decide), List.append_assoc, List.drop_left' rfl, List.append_assoc, hl, hsz, List.take_left' rfl] at hst2
  rcases hp with h | ⟨h, _⟩
  · exact hc.2 (hst2.trans h)
  · omega

/-- Encryption is as published exactly if the mask for the odd bytes at the end is zero there. -/
theorem enciphers_iff (key : U32) (hk : key ≠ 0) (data : List Byte) :
    Spec.Enciphers key.toNat data (encryptData data key) ↔
      ((key.toNat + data.length / 4) % 2 ^ 32 = 0 ∨
        (Spec.Stream.start ((key.toNat + data.length / 4) % 2 ^ 32)).mask % 256 ^ (data.length % 4) = 0) := by
  have htl : (data.drop (data.length / 4 * 4)).length = data.length % 4 := by rw [List.length_drop]; omega
  have h1 := odd_right key (data.length / 4) (data.drop (data.length / 4 * 4)) (by omega)
  rw [htl] at h1
  rw [← h1]
  have hx : ∀ v k, encryptBlock [v] k = [decryptDword v k] := by
    intro v k
    obtain ⟨m, h1, h2⟩ := encryptBlock_single_xor k
    rw [h1, h2]
  have hhl : (ofDwords (encryptBlock (toDwords (data.take (data.length / 4 * 4))) key)).length = data.length / 4 * 4 := by
    simp [toDwords_length]; omega
  have hdrop : (encryptData data key).drop (data.length / 4 * 4) =
      (le32 (decryptDword (padDword (data.drop (data.length / 4 * 4))) (key + BitVec.ofNat 32 (data.length / 4)))).take (data.length % 4) := by
    rw [encryptData_eq data key hk, List.drop_left' hhl, hx]
    simp only [ofDwords, List.append_nil]
  unfold Spec.Enciphers
  rw [hdrop, if_neg (show ¬ key.toNat = 0 from fun h => hk (BitVec.eq_of_toNat_eq h)), dwords_eq, dwords_eq]
  exact ⟨fun h => h.2.1, fun h => ⟨encryptData_length .., h, C03_byte_cipher key hk data⟩⟩

/-- C82 fails for encrypted files with odd bytes at the end: the last one to three bytes are encrypted too, which the format does not do.
A file of one sector that is not compressed is stored as the format says exactly if the mask for these bytes happens to be zero. -/
theorem C82_odd_bytes (e : Env) (m : Spec.Methods) (crcs : Bool) (p : FileWriteParams) (w : Written)
    (hw : writeFile e crcs p = .ok w) (hlen : p.data.length ≤ p.sectorSize) (henc : p.encrypt = true)
    (hnone : ∀ c, ¬ CompressedSector e.codecs p.compression p.data c)
    (ao : Nat) (pre post : List Byte) (hpre : pre.length = ao + p.filePos) :
    (∃ packed, Spec.Stores m p.sectorSize (pre ++ w.bytes ++ post) (writtenEntry ao p w) p.data packed) ↔
      let key := (writtenEntry ao p w).key
      let last := (key + p.data.length / 4) % 2 ^ 32
      key = 0 ∨ last = 0 ∨ (Spec.Stream.start last).mask % 256 ^ (p.data.length % 4) = 0 := by
  unfold writeFile at hw
  rw [if_pos hlen] at hw
  obtain ⟨s, b, hs, hf, hsz, hb⟩ := writeSingle_eq hw
  have hsb : b = false ∧ s = p.data := by
    rcases storeUnit_cases hs with h | ⟨_, h1, _, _, h2⟩
    · exact h
    · exact absurd ⟨h2, h1⟩ (hnone s)
  obtain ⟨rfl, rfl⟩ := hsb
  obtain ⟨f1, f2, f3, f4, f5⟩ := mkFlags_spec true crcs false p.encrypt p.useFixKey
  rw [← hf] at f1 f2 f3 f4 f5
  have hk := writer_key p w ao hf
  generalize calculateFileKey p.name p.filePos (BitVec.ofNat 32 p.data.length) w.flags = key at hb hk
  rw [henc, if_pos rfl] at hb
  have hkey : (writtenEntry ao p w).key = key.toNat := hk.symm
  have hat : ∀ cipher : List Byte, cipher.length = p.data.length →
      (Spec.StandsAt (pre ++ w.bytes ++ post) (ao + p.filePos) cipher ↔ cipher = encryptData p.data key) := by
    intro cipher hcl
    unfold Spec.StandsAt
    rw [← hpre, hb, List.append_assoc, List.drop_left' rfl, List.append_assoc, hcl,
      List.take_left' (encryptData_length ..)]
    exact eq_comm
  have hsto : (∃ packed, Spec.Stores m p.sectorSize (pre ++ w.bytes ++ post) (writtenEntry ao p w) p.data packed) ↔
      Spec.Enciphers key.toNat p.data (encryptData p.data key) := by
    constructor
    · rintro ⟨packed, hst⟩
      obtain ⟨hp, hl, hstands⟩ := (stores_cases hst).1 f1
      have hp0 : packed 0 = p.data := by
        rcases hp with h | ⟨_, ⟨h, _⟩ | ⟨_, h, _⟩⟩
        · exact h
        · have : Spec.compressed (w.flags ||| 0x80000000#32) = true := h
          rw [f2] at this; cases this
        · have : Spec.imploded (w.flags ||| 0x80000000#32) = true := h
          rw [f3] at this; cases this
      unfold Spec.Stands at hstands
      rw [if_pos (show Spec.encrypted (writtenEntry ao p w).flags = true from f4.trans henc), hp0, hkey] at hstands
      obtain ⟨cipher, h1, h2⟩ := hstands
      have := (hat cipher h1.1).1 h2
      rw [this] at h1
      exact h1
    · intro h
      refine ⟨fun _ => p.data, rfl, ?_⟩
      rw [if_pos (show Spec.singleUnit (writtenEntry ao p w).flags = true from f1)]
      refine ⟨Or.inl rfl, hsz.symm, ?_⟩
      unfold Spec.Stands
      rw [if_pos (show Spec.encrypted (writtenEntry ao p w).flags = true from f4.trans henc), hkey]
      exact ⟨_, h, (hat _ (encryptData_length ..)).2 rfl⟩
  rw [hsto]
  dsimp only
  rw [hkey]
  by_cases h0 : key = 0
  · refine ⟨fun _ => Or.inl (by rw [h0]; rfl), fun _ => ⟨encryptData_length .., ?_⟩⟩
    have : encryptData p.data key = p.data := by unfold encryptData; rw [if_pos (Or.inr h0)]
    rw [this, if_pos (by rw [h0]; rfl)]
    exact ⟨rfl, rfl⟩
  · rw [enciphers_iff key h0]
    exact ⟨Or.inr, fun h => h.resolve_left fun h => h0 (BitVec.eq_of_toNat_eq h)⟩

/-! ## Cases -/

theorem toyMethods_understand (k : Byte) (b : List Byte) (n : Nat) (d : List Byte) (h : decompress toyEnv.codecs b k n = .ok d) :
    toyMethods.unpack k b n = some d := by
  unfold toyMethods
  dsimp only
  rw [h]
  rfl

theorem writeFile_single {e : Env} {crcs : Bool} {p : FileWriteParams} (h : p.data.length ≤ p.sectorSize) :
    writeFile e crcs p = writeSingle e crcs p := by
  unfold writeFile
  rw [if_pos h]

/-- Writing several sectors encrypted succeeds as soon as the sectors can be stored and offsets have 32 bits. -/
theorem writeSectored_succeeds {e : Env} {crcs : Bool} {p : FileWriteParams} {count : Nat} {stored}
    (hc : divCeil p.data.length p.sectorSize = .ok count)
    (hs : (sectorsOf p.data p.sectorSize count).mapM (storeUnit e p.compression) = .ok stored)
    (hb : (count + 1) * 4 + (if crcs then count * 4 else 0) + (stored.map (·.1)).flatten.length < 2 ^ 32) :
    ∃ w, writeSectored e crcs p = .ok w := by
  cases henc : p.encrypt with
  | false => exact writeSectored_unencrypted henc hc hs
  | true =>
    unfold writeSectored
    rw [hc]
    simp only [bind, Except.bind]
    rw [hs, henc]
    have := fun k => encryptSectors_ok ((count + 1) * 4 + (if crcs then count * 4 else 0)) k (stored.map (·.1)) [] 0 (by simpa using hb)
    simp only [List.nil_append, List.length_nil, Nat.add_zero] at this
    dsimp only
    rw [this]
    exact ⟨_, rfl⟩

theorem two_pieces {P : List Byte → Prop} {g : List Byte → Res (List Byte)} {r₁ r₂ c₂ : List Byte}
    (hp : ∀ x, P x → x = r₁ ∨ x = r₂) (h1 : g r₁ = .ok r₁) (h2 : g r₂ = .ok c₂) (hl : c₂.length < r₂.length)
    (hq1 : r₁.length % 4 = 0) (hq2 : c₂.length % 4 = 0) :
    (∀ x c, P x → g x = .ok c ∧ c ≠ x → c.length < x.length) ∧ ∀ x c, P x → g x = .ok c → c.length % 4 = 0 := by
  constructor
  · rintro x c hx ⟨hc, hne⟩
    rcases hp x hx with h | h
    · subst h
      exact absurd (Except.ok.inj (hc.symm.trans h1)) hne
    · subst h
      rw [Except.ok.inj (hc.symm.trans h2)]
      exact hl
  · intro x c hx hc
    rcases hp x hx with h | h
    · subst h
      rw [Except.ok.inj (hc.symm.trans h1)]
      exact hq1
    · subst h
      rw [Except.ok.inj (hc.symm.trans h2)]
      exact hq2

/-- A file of 612 bytes, encrypted, of whose two sectors the second is compressed. -/
def twoSecret : FileWriteParams := { twoSectors 100 0x02#8 with encrypt := true, useFixKey := true }

set_option linter.constructorNameAsVariable false in
example : ∃ w packed, writeFile toyEnv true twoSecret = .ok w ∧
    Spec.Stores toyMethods 512 (List.replicate 40 0#8 ++ w.bytes ++ [1#8, 2#8]) (writtenEntry 8 twoSecret w) twoSecret.data packed := by
  have hs : (sectorsOf (twoSectors 100 0x02#8).data 512 2).mapM (storeUnit toyEnv 0x02#8) =
      .ok [(List.replicate 512 7#8, false), ([2#8, 1#8, 7#8, 100#8], true)] := by decide +kernel
  obtain ⟨w, hw⟩ : ∃ w, writeFile toyEnv true twoSecret = .ok w := by
    unfold writeFile
    rw [if_neg (by decide +kernel)]
    exact writeSectored_succeeds (p := twoSecret) (count := 2) (by decide +kernel) hs (by decide +kernel)
  have h1 : compress toyCodecs (List.replicate 512 7#8) 0x02#8 = .ok (List.replicate 512 7#8) := by decide +kernel
  have h2 : compress toyCodecs (List.replicate 100 7#8) 0x02#8 = .ok [2#8, 1#8, 7#8, 100#8] := by decide +kernel
  have hp : ∀ x, Spec.IsPiece twoSecret.sectorSize twoSecret.data x → x = List.replicate 512 7#8 ∨ x = List.replicate 100 7#8 := by
    intro x hx
    unfold Spec.IsPiece at hx
    rw [if_neg (by decide +kernel)] at hx
    exact (twoSectors_isSector 0x02#8 (by decide) (by decide) x).1 hx
  obtain ⟨hshort, hquad⟩ := two_pieces (g := fun x => compress toyCodecs x 0x02#8) hp h1 h2 (by decide +kernel) (by decide +kernel)
    (by decide +kernel)
  clear hp
  obtain ⟨packed, h⟩ := C82_written_as_stored_partial toyEnv toyCodecs_lawful toyMethods toyMethods_understand true twoSecret w hw
    (by decide) (by decide +kernel) ⟨by decide, by decide, by decide, fun h => by rcases h with h | h <;> exact absurd h (by decide),
      by decide +kernel⟩ 8 (List.replicate 40 0#8) [1#8, 2#8] (by decide)
    (fun _ => ⟨List.replicate 100 7#8, [2#8, 1#8, 7#8, 100#8], (twoSectors_isSector 0x02#8 (by decide) (by decide) _).2 (.inr rfl),
      h2, by decide +kernel⟩)
    hshort (fun _ => hquad)
  exact ⟨w, packed, hw, h⟩

/-- The same file without compression is not stored as the format says. -/
example : ∃ w, writeFile toyEnv true (twoSectors 100 0) = .ok w ∧
    ∀ f packed, ¬ Spec.Stores toyMethods 512 f (writtenEntry 0 (twoSectors 100 0) w) (twoSectors 100 0).data packed := by
  have hs : (sectorsOf (twoSectors 100 0).data 512 2).mapM (storeUnit toyEnv 0) =
      .ok [(List.replicate 512 7#8, false), (List.replicate 100 7#8, false)] := by decide +kernel
  obtain ⟨w, hw⟩ : ∃ w, writeFile toyEnv true (twoSectors 100 0) = .ok w := by
    unfold writeFile
    rw [if_neg (by decide +kernel)]
    exact writeSectored_succeeds (p := twoSectors 100 0) (count := 2) (by decide +kernel) hs (by decide +kernel)
  refine ⟨w, hw, C82_uncompressed_sectors toyEnv toyMethods true (twoSectors 100 0) w hw (by decide) (by decide +kernel) (by decide +kernel) ?_ 0⟩
  rintro x c _ ⟨hc, hne⟩
  rw [show (twoSectors 100 0).compression = 0#8 from rfl, compress_zero] at hc
  injection hc with hc
  exact hne hc.symm

/-- Four equal bytes, compressed to four others. -/
example (name : List Byte) : ∃ w, writeFile toyEnv false ⟨[7, 7, 7, 7], name, 2, false, false, 512, 0⟩ = .ok w ∧
    ∀ packed, ¬ Spec.Stores toyMethods 512 (w.bytes ++ []) (writtenEntry 0 ⟨[7, 7, 7, 7], name, 2, false, false, 512, 0⟩ w) [7, 7, 7, 7] packed := by
  have hs : storeUnit toyEnv 2 [7, 7, 7, 7] = .ok ([2, 1, 7, 4], true) := by decide +kernel
  obtain ⟨w, hw⟩ : ∃ w, writeFile toyEnv false ⟨[7, 7, 7, 7], name, 2, false, false, 512, 0⟩ = .ok w := by
    rw [writeFile_single (p := ⟨[7, 7, 7, 7], name, 2, false, false, 512, 0⟩) (show 4 ≤ 512 by decide)]
    unfold writeSingle
    dsimp only
    rw [hs]
    exact ⟨_, rfl⟩
  exact ⟨w, hw, C82_equal_length toyEnv toyMethods false _ w hw (show 4 ≤ 512 by decide) (List.cons_ne_nil _ _) rfl [2, 1, 7, 4]
    ⟨by show compress toyEnv.codecs [7, 7, 7, 7] 2 = _; decide +kernel, by show [2, 1, 7, 4] ≠ ([7, 7, 7, 7] : List Byte); decide⟩ rfl
    0 [] [] rfl⟩

/-- Five bytes, encrypted, of which the last is not stored as the format says. -/
example : ∃ w, writeFile toyEnv false ⟨[1, 2, 3, 4, 5], ascii "a.txt", 0, true, false, 512, 0⟩ = .ok w ∧
    ¬ ∃ packed, Spec.Stores toyMethods 512 (w.bytes ++ []) (writtenEntry 0 ⟨[1, 2, 3, 4, 5], ascii "a.txt", 0, true, false, 512, 0⟩ w)
      [1, 2, 3, 4, 5] packed := by
  have hb := key_base (ascii "a.txt")
  have hlit : hashString (ascii "a.txt") htFileKey = BitVec.ofNat 32 (hashLit 3 0x7FED7FED 0xEEEEEEEE ((ascii "a.txt").map BitVec.toNat)) :=
    hashString_lit 3 (by decide) _
  have hk : ∃ k : U32, k = BitVec.ofNat 32 (hashLit 3 0x7FED7FED 0xEEEEEEEE ((ascii "a.txt").map BitVec.toNat)) ∧ k.toNat ≠ 0 ∧
      (k.toNat + 1) % 2 ^ 32 ≠ 0 ∧
      ((k.toNat + 1) % 2 ^ 32 + (0xEEEEEEEE + entryLit (0x400 + (k.toNat + 1) % 2 ^ 32 % 256)) % 2 ^ 32) % 2 ^ 32 % 256 ≠ 0 :=
    ⟨_, rfl, by decide +kernel⟩
  obtain ⟨key, hk, hk0, hk1, hm⟩ := hk
  rw [← hk] at hlit
  rw [hlit] at hb
  generalize ascii "a.txt" = name at *
  have hs : storeUnit toyEnv 0 [1, 2, 3, 4, 5] = .ok ([1, 2, 3, 4, 5], false) := by decide +kernel
  obtain ⟨w, hws⟩ : ∃ w, writeSingle toyEnv false ⟨[1, 2, 3, 4, 5], name, 0, true, false, 512, 0⟩ = .ok w := by
    unfold writeSingle
    dsimp only
    rw [hs]
    exact ⟨_, rfl⟩
  have hw : writeFile toyEnv false ⟨[1, 2, 3, 4, 5], name, 0, true, false, 512, 0⟩ = .ok w := by
    rw [writeFile_single (p := ⟨[1, 2, 3, 4, 5], name, 0, true, false, 512, 0⟩) (show 5 ≤ 512 by decide)]
    exact hws
  refine ⟨w, hw, fun hst => ?_⟩
  have hiff := (C82_odd_bytes toyEnv toyMethods false _ w hw (show 5 ≤ 512 by decide) rfl (fun c ⟨hc, hne⟩ =>
    hne (Except.ok.inj (hc.symm.trans (compress_zero ..)))) 0 [] [] rfl).1 hst
  obtain ⟨s, b, hs', hf, _⟩ := writeSingle_eq hws
  rw [hs] at hs'
  injection hs' with hs'; injection hs' with h1 h2; subst h1 h2
  have hkey : (writtenEntry 0 ⟨[1, 2, 3, 4, 5], name, 0, true, false, 512, 0⟩ w).key = key.toNat := by
    rw [hb]
    unfold writtenEntry Spec.fileKey
    dsimp only at hf ⊢
    rw [hf, if_neg (by decide)]
  dsimp only at hiff
  rw [hkey] at hiff
  rcases hiff with h3 | h3 | h3
  · exact hk0 h3
  · exact hk1 h3
  · rw [mask_lit] at h3
    exact hm h3

end Mopaq
