import Verif.Lemmas.ExtOk

/-! # Archives with zlib-compressed extended tables, as opened -/

namespace Mopaq

theorem tolerate_calm {α : Type} {r : Res α} {errs : List Err} (h : Fails r errs) (hp : Err.panic ∉ errs)
    (hd : Err.diverge ∉ errs) : ∃ o, tolerate r = .ok o := by
  cases hr : r with
  | ok v => exact ⟨some v, rfl⟩
  | error err =>
    have := h err hr
    cases err <;> first | exact ⟨none, rfl⟩ | exact absurd this hp | exact absurd this hd

theorem rd32s_fails : ∀ (n : Nat) (r : List Byte), Fails (rd32s n r) [.io]
  | 0, _ => .ok _ _
  | n + 1, r => by
    unfold rd32s
    exact .bind (rd32_fails _) fun _ _ => .bind (rd32s_fails n _) fun _ _ => .pure _ _

theorem rd64s_fails : ∀ (n : Nat) (r : List Byte), Fails (rd64s n r) [.io]
  | 0, _ => .ok _ _
  | n + 1, r => by
    unfold rd64s
    exact .bind (rd64_fails _) fun _ _ => .bind (rd64s_fails n _) fun _ _ => .pure _ _

theorem parseBetHeader_fails (r : List Byte) : Fails (parseBetHeader r) [.io, .invalidFormat] := by
  unfold parseBetHeader
  split
  · exact .throw _ _ (by simp)
  refine Fails.mono (a := [.io]) ?_ (by simp)
  exact .bind (rd32_fails _) fun _ _ => .bind (rd32_fails _) fun _ _ => .bind (rd32_fails _) fun _ _ =>
    .bind (rd32_fails _) fun _ _ => .bind (rd32_fails _) fun _ _ => .bind (rd32_fails _) fun _ _ =>
    .bind (rd32_fails _) fun _ _ => .bind (rd32_fails _) fun _ _ => .bind (rd32_fails _) fun _ _ =>
    .bind (rd32_fails _) fun _ _ => .bind (rd32_fails _) fun _ _ => .bind (rd32_fails _) fun _ _ =>
    .bind (rd32_fails _) fun _ _ => .bind (rd32_fails _) fun _ _ => .bind (rd32_fails _) fun _ _ =>
    .bind (rd32_fails _) fun _ _ => .bind (rd32_fails _) fun _ _ => .bind (rd32_fails _) fun _ _ =>
    .bind (rd32_fails _) fun _ _ => .pure _ _

/-- A table written with zlib table compression is read back, or not, but reading it does not panic. -/
theorem readExt_zlib_calm (e : Codecs) (pre post data written : List Byte) (s key : U32) (hk : key ≠ 0)
    (htwo : ∀ x c, e.deflate x = some c → 2 ≤ c.length) (hlong : 15 ≤ data.length)
    (hw : writeExtTable e ⟨true, 0x02#8⟩ data key = .ok written) (hlt : written.length < 2 ^ 63) :
    Fails (readExtTable e (pre ++ written ++ post) pre.length written.length s key) [.io, .invalidFormat, .compression] := by
  unfold writeExtTable at hw
  rw [if_neg (by omega)] at hw
  obtain ⟨c, hc, hw⟩ := bind_eq_ok.1 hw
  have hw := Except.ok.inj hw
  dsimp only at hw
  subst hw
  have hcl : 3 ≤ c.length := by
    dsimp only at hc
    unfold compress compressInternal at hc
    rw [show Method.fromFlags 0x02#8 = .zlib by decide] at hc
    unfold zlibCompress at hc
    cases hd : e.deflate (data.drop 12) with
    | none => rw [hd] at hc; cases hc
    | some stream =>
      rw [hd] at hc
      simp only [liftCodec, bind, Except.bind, pure, Except.pure] at hc
      have h2 := htwo _ _ hd
      split at hc
      · have := Except.ok.inj hc
        rw [← this, List.length_drop]; omega
      · have := Except.ok.inj hc
        rw [← this, List.length_cons]; omega
  have h12 : (data.take 12).length = 12 := by rw [List.length_take]; omega
  have hel := encryptData_length (0x02#8 :: c) key
  have hwl : (data.take 12 ++ encryptData (0x02#8 :: c) key).length = 13 + c.length := by
    rw [List.length_append, h12, hel, List.length_cons]; omega
  have hr := readAt_mid pre (data.take 12 ++ encryptData (0x02#8 :: c) key) post pre.length _ rfl rfl
  unfold readExtTable
  rw [readVec_eq _ _ _ hlt, hr]
  simp only [bind, Except.bind]
  rw [if_neg (by omega)]
  split
  · exact .throw _ _ (by simp)
  · have hd : key ≠ 0 ∧ (data.take 12 ++ encryptData (0x02#8 :: c) key).length > 12 := ⟨hk, by omega⟩
    simp only [if_pos hd, List.drop_left' h12]
    obtain ⟨b', hb', this⟩ := asRead_prefix [0x02#8] c key hk (by simp; omega)
    unfold asRead at this
    simp only [List.cons_append, List.nil_append] at this
    rw [this]
    split
    · dsimp only
      unfold decompress
      split
      · exact .error _ _ (by simp)
      · rw [if_neg (by decide), if_neg (fits _ (by omega)), show Method.fromFlags 0x02#8 = .zlib by decide]
        unfold zlibDecompress
        dsimp only
        cases e.inflate b' with
        | none => exact .error _ _ (by simp)
        | some x => exact .ok _ _
    · exact .pure _ _

theorem readBet_zlib_calm (e : Codecs) (pre post data written : List Byte) (key : U32) (hk : key ≠ 0)
    (htwo : ∀ x c, e.deflate x = some c → 2 ≤ c.length) (hlong : 15 ≤ data.length)
    (hw : writeExtTable e ⟨true, 0x02#8⟩ data key = .ok written) (hlt : written.length < 2 ^ 63) :
    ∃ o, tolerate (readBetTable e (pre ++ written ++ post) pre.length written.length key) = .ok o := by
  have m : ∀ x ∈ [Err.io], x ∈ [Err.io, .invalidFormat, .compression] := by simp
  refine tolerate_calm (errs := [.io, .invalidFormat, .compression]) ?_ (by simp) (by simp)
  unfold readBetTable
  exact .bind (readExt_zlib_calm e pre post data written _ key hk htwo hlong hw hlt) fun _ _ =>
    .bind ((parseBetHeader_fails _).mono (by simp)) fun _ _ => .bind ((rd32s_fails _ _).mono m) fun _ _ =>
    .bind ((rdBytes_fails _ _).mono m) fun _ _ => .bind ((rd64s_fails _ _).mono m) fun _ _ => .pure _ _

/-- What is known of zlib as a table compressor: every stream has at least two bytes, none starts with `0x02`, and the
HET table of the given names becomes shorter by more than two bytes. -/
structure ZlibTables (e : Codecs) (names : List (List Byte)) : Prop where
  two : ∀ x c, e.deflate x = some c → 2 ≤ c.length
  rejects : ∀ r, e.inflate (0x02#8 :: r) = none
  shrinks : ∀ c, hetContent names = .ok c →
    ∃ stream, e.deflate (c.header.toBytes ++ (c.hashArea ++ c.indexArea)) = some stream ∧ stream.length + 2 < c.dataSize

variable {e : Env} {md5 : Md5} {b : Builder} {f : List Byte}

/-- With zlib table compression the HET table is not loaded. -/
theorem Layout.zlib_tables (L : Layout e md5 b f) (hmd : ∀ x, (md5 x).length = 16) (before after : List Byte)
    (hlen : f.length < addressable b.version) (hfit : before.length + f.length < 2 ^ 64) (hv : b.version.ge .v3 = true)
    (ho : b.tables = ⟨true, 0x02#8⟩) (hz : ZlibTables e.codecs (L.pending.map (·.name))) :
    Mopaq.loadHet e (before ++ f ++ after) before.length L.hdr = .ok none ∧
    ∃ bet, Mopaq.loadBet e (before ++ f ++ after) before.length L.hdr = .ok bet := by
  obtain ⟨hd, bd, hhd, hwh, hbd, hwb⟩ := L.extended hv
  rw [ho] at hwh hwb
  obtain ⟨hc, hcc⟩ := createHet_content hhd
  obtain ⟨bc, hbc⟩ := createBet_content hbd
  obtain ⟨pre, post, hF, hh⟩ := L.loadHet hmd before after hlen hfit hv
  obtain ⟨pre', post', hF', hb⟩ := L.loadBet hmd before after hlen hfit hv
  have hkh : hashTableKey ≠ 0 := by rw [hashTableKey_eq]; decide
  have hkb : blockTableKey ≠ 0 := by rw [blockTableKey_eq]; decide
  have hfacts := hetContent_facts hcc
  obtain ⟨stream, hst, hsl⟩ := hz.shrinks hc hcc
  have htl : (hc.header.toBytes ++ (hc.hashArea ++ hc.indexArea)).length = 32 + hc.hashArea.length + hc.indexArea.length := by
    simp only [List.length_append, hc.header.toBytes_length]; omega
  have hle : hc.header.hashTableSize.toNat ≤ hc.hashArea.length := by
    obtain ⟨k, _, _, hts, _, _, hha⟩ := hfacts.entries
    rw [hts, hha, Nat.mul_add]
    exact Nat.div_le_div_right (by omega)
  constructor
  · have hd' : hd = extHeaderBytes 0x1A544548#32 hc.dataSize ++ (hc.header.toBytes ++ (hc.hashArea ++ hc.indexArea)) := by
      unfold createHetTable at hhd
      rw [hcc] at hhd
      exact (Except.ok.inj hhd).symm
    rw [hd'] at hwh
    have := (C33_compressed_tables_do_not_load e.codecs pre post _ stream L.het _ hashTableKey hkh hc.dataSize
      (by have := hfacts.bound; omega) hst (by rw [htl]; have := hfacts.size; omega) hsl (hz.two _ _ hst) hz.rejects hwh).1 rfl
    rw [hh, hF, this]
    rfl
  · have hd' : bd = extHeaderBytes 0x1A544542#32 bc.dataSize ++
        (bc.header.toBytes ++ (ofDwords bc.flags ++ (bc.fileTable ++ bc.hashBytes))) := by
      unfold createBetTable at hbd
      rw [hbc] at hbd
      exact (Except.ok.inj hbd).symm
    rw [hb, hF']
    refine readBet_zlib_calm e.codecs pre' post' bd L.bet blockTableKey hkb hz.two ?_ hwb ?_
    · rw [hd', List.length_append, List.length_append, extHeaderBytes_length, bc.header.toBytes_length]
      omega
    · have h1 := congrArg List.length L.bytes
      simp only [List.length_append] at h1
      have h2 : addressable b.version ≤ 2 ^ 63 := by cases b.version <;> decide
      omega

end Mopaq
