import Verif.Lemmas.Sparse
import Verif.Lemmas.Huffman
import Verif.Lemmas.Adpcm
import Verif.Spec.Compression

/-! # Properties C14-C20, C49: compression

Hypotheses `hbig` say that the size asked for is one that fits into the address space, at four times the size (2^61
bytes, and 2^63 for audio compression alone). Data has such lengths in any run; from 2^63 on, sizes in damaged archives
make reserving the buffer panic, see `C25_declared_size_panics`. -/

namespace Mopaq

/-! ## Assumptions about the external codecs -/

/-- What is assumed of the external codecs: decompressing what was compressed gives the data back, and compressing
data never gives an empty stream. -/
structure Codecs.Lawful (e : Codecs) : Prop where
  zlib : ∀ d c, e.deflate d = some c → c ≠ [] ∧ e.inflate c = some d
  bzip2 : ∀ d c, e.bzCompress d = some c → c ≠ [] ∧ e.bzDecompress c = some d
  lzma : ∀ d c, e.lzmaCompress d = some c → c ≠ [] ∧ e.lzmaDecompress c = some d
  pkware : ∀ d c, d ≠ [] → e.implode d = some c → c ≠ [] ∧ e.explode c = some d

/-- A toy compressor: runs of one byte become three bytes, anything else grows by one byte. -/
def toyPack (d : List Byte) : Option (List Byte) :=
  match d with
  | b :: _ => if d = List.replicate d.length b ∧ d.length < 256 then some [1#8, b, BitVec.ofNat 8 d.length]
    else some (2#8 :: d)
  | [] => some [2#8]

/-- The inverse of `toyPack`. -/
def toyUnpack (c : List Byte) : Option (List Byte) :=
  match c with
  | t :: rest =>
    if t = 1#8 then
      match rest with
      | [b, n] => some (List.replicate n.toNat b)
      | _ => none
    else if t = 2#8 then some rest else none
  | [] => none

/-- Codecs used to show that the assumptions can be met. -/
def toyCodecs : Codecs :=
  { deflate := toyPack, inflate := toyUnpack, bzCompress := toyPack, bzDecompress := toyUnpack,
    lzmaCompress := toyPack, lzmaDecompress := toyUnpack, xzDecompress := fun _ => none,
    implode := toyPack, explode := toyUnpack }

theorem toy_round_trip (d c : List Byte) (h : toyPack d = some c) : c ≠ [] ∧ toyUnpack c = some d := by
  unfold toyPack at h
  split at h
  · split at h
    · rename_i b rest hc
      injection h with h
      subst h
      refine ⟨by simp, ?_⟩
      have : (BitVec.ofNat 8 (b :: rest).length).toNat = (b :: rest).length := by
        rw [BitVec.toNat_ofNat]; exact Nat.mod_eq_of_lt hc.2
      simp only [toyUnpack, if_true, this]
      rw [← hc.1]
    · injection h with h; subst h
      exact ⟨by simp, rfl⟩
  · injection h with h; subst h
    exact ⟨by simp, rfl⟩

theorem toyCodecs_lawful : toyCodecs.Lawful :=
  ⟨toy_round_trip, toy_round_trip, toy_round_trip, fun d c _ => toy_round_trip d c⟩

/-! ## C14 -/

/-- C14: whatever the method and whatever the codecs do, compression returns the data itself or at most as many bytes,
the first of them the method byte. -/
theorem C14_never_grows (e : Codecs) (d c : List Byte) (m : Byte) (h : compress e d m = .ok c) :
    c = d ∨ (c.length ≤ d.length ∧ ∃ body, c = m :: body) := by
  unfold compress at h
  cases hi : compressInternal e d m with
  | error x => rw [hi] at h; cases h
  | ok k =>
    rw [hi] at h
    simp only [bind, Except.bind] at h
    split at h
    · injection h with h; exact .inl h.symm
    · injection h with h; subst h
      exact .inr ⟨by simp; omega, k, rfl⟩

example : compress toyCodecs (List.replicate 9 7#8) 0x02#8 = .ok [0x02#8, 1#8, 7#8, 9#8] := by decide +kernel

/-- The result may be exactly as long as the data although it is compressed: length alone does not tell a reader
whether there is a method byte. -/
theorem C14_same_length_ambiguous :
    ∃ d c, compress toyCodecs d 0x02#8 = .ok c ∧ c ≠ d ∧ c.length = d.length :=
  ⟨List.replicate 4 7#8, [0x02#8, 1#8, 7#8, 4#8], by decide +kernel, by decide, by decide⟩

/-! ## C16 -/

theorem zeroRunAt_iff (d : List Byte) (i : Nat) :
    ZeroRunAt d i ↔ ∃ p s, d = p ++ List.replicate 127 0#8 ++ s ∧ p.length = i := by
  constructor
  · intro h
    have hlen : i + 127 ≤ d.length := by
      have := h 126 (by omega)
      rcases Nat.lt_or_ge (i + 126) d.length with h1 | h1
      · omega
      · rw [List.getElem?_eq_none h1] at this; cases this
    refine ⟨d.take i, d.drop (i + 127), ?_, by simp; omega⟩
    have hmid : (d.drop i).take 127 = List.replicate 127 0#8 := by
      apply List.ext_getElem?
      intro j
      rcases Nat.lt_or_ge j 127 with hj | hj
      · rw [List.getElem?_take_of_lt hj, List.getElem?_drop, h j hj, List.getElem?_replicate, if_pos hj]
      · rw [List.getElem?_eq_none (by rw [List.length_take]; omega),
          List.getElem?_eq_none (by rw [List.length_replicate]; omega)]
    rw [← hmid, List.append_assoc, ← List.drop_drop]
    rw [List.take_append_drop, List.take_append_drop]
  · rintro ⟨p, s, rfl, rfl⟩ j hj
    rw [List.append_assoc, List.getElem?_append_right (by omega), Nat.add_sub_cancel_left,
      List.getElem?_append_left (by rw [List.length_replicate]; exact hj), List.getElem?_replicate, if_pos hj]

theorem sparse_iff (d c : List Byte) (h : sparseCompress d = .ok c) :
    sparseDecompress c d.length = .ok d ↔ Spec.NoLongZeroRun d := by
  obtain ⟨c', p, s, hc, hps, hdec, hs, hmin⟩ := sparse_codec d d.length (Nat.le_refl _)
  rw [h] at hc; injection hc with hc; subst hc
  have hsl : d.length - p.length = s.length := by rw [hps]; simp
  rw [hdec, hsl]
  have key : (Except.ok (p ++ List.replicate s.length 0#8) : Res (List Byte)) = .ok d ↔ ∀ b ∈ s, b = 0#8 := by
    constructor
    · intro he
      injection he with he
      rw [hps] at he
      have := List.append_cancel_left he
      intro b hb
      rw [← this] at hb
      exact List.eq_of_mem_replicate hb
    · intro hb
      rw [← List.eq_replicate_iff.mpr ⟨rfl, hb⟩, ← hps]
  rw [key]
  constructor
  · intro hz before after hd b hb
    have hrun := (zeroRunAt_iff d before.length).mpr ⟨before, after, hd, rfl⟩
    have hle := hmin _ hrun
    -- everything from `p.length` on is zero
    obtain ⟨k, hk⟩ := List.getElem?_of_mem hb
    have h1 : d[before.length + 127 + k]? = some b := by
      rw [hd, List.getElem?_append_right (by rw [List.length_append, List.length_replicate]; omega),
        List.length_append, List.length_replicate, Nat.add_sub_cancel_left, hk]
    rw [hps, List.getElem?_append_right (by omega)] at h1
    exact hz b (List.mem_of_getElem? h1)
  · intro hn b hb
    rcases hs with rfl | ⟨s', rfl⟩
    · simp at hb
    · rcases List.mem_append.mp hb with hb | hb
      · exact List.eq_of_mem_replicate hb
      · exact hn p s' (by rw [List.append_assoc]; exact hps) b hb

/-- C16, full statement: sparse decompression inverts sparse compression on every input. It is false: 127 zero
bytes are written as the end marker, and whatever follows is lost. -/
theorem C16_sparse_loses_data :
    ¬ ∀ d c, compress toyCodecs d 0x20#8 = .ok (0x20#8 :: c) → decompress toyCodecs c 0x20#8 d.length = .ok d := by
  intro h
  have h1 : compress toyCodecs (List.replicate 127 0#8 ++ [1#8]) 0x20#8 = .ok (0x20#8 :: [0xFF#8, 1#8, 1#8, 0xFF#8]) := by
    decide +kernel
  have h2 := h _ _ h1
  have h3 : decompress toyCodecs [0xFF#8, 1#8, 1#8, 0xFF#8] 0x20#8 (List.replicate 127 0#8 ++ [1#8]).length
      ≠ .ok (List.replicate 127 0#8 ++ [1#8]) := by decide +kernel
  exact h3 h2

/-- C16, partial: sparse compression round trips exactly for the inputs in which no non-zero byte follows 127 zero
bytes in a row (for data below 2^61 bytes). Missing: all other inputs, for which it is false. -/
theorem C16_sparse_round_trip_partial (e : Codecs) (d c : List Byte) (h : compress e d 0x20#8 = .ok (0x20#8 :: c))
    (hbig : d.length < 2 ^ 61) (hc : 0x20#8 :: c ≠ d) :
    decompress e c 0x20#8 d.length = .ok d ↔ Spec.NoLongZeroRun d := by
  unfold compress at h
  have hm : Method.fromFlags 0x20#8 = .sparse := by decide
  simp only [compressInternal, hm] at h
  obtain ⟨k, hk⟩ : ∃ k, sparseCompress d = .ok k := ⟨_, rfl⟩
  rw [hk] at h
  simp only [bind, Except.bind] at h
  split at h
  · injection h with h; exact absurd h.symm hc
  · injection h with h; injection h with _ h; subst h
    rw [← sparse_iff d k hk]
    have hne : k ≠ [] := by
      have : sparseCompress d = .ok (sparseCompressLoop d.length d ++ [0xFF#8]) := rfl
      rw [this] at hk; injection hk with hk; subst hk; simp
    unfold decompress
    rw [if_neg hne, if_neg (by decide), if_neg (fits _ hbig)]
    simp only [hm]

example : compress toyCodecs (List.replicate 126 0#8 ++ [5#8] ++ List.replicate 300 0#8) 0x20#8
      = .ok (0x20#8 :: [0xFE#8, 1#8, 5#8, 0xFF#8, 0xFF#8, 0xAE#8, 0xFF#8]) ∧
    decompress toyCodecs [0xFE#8, 1#8, 5#8, 0xFF#8, 0xFF#8, 0xAE#8, 0xFF#8] 0x20#8 427
      = .ok (List.replicate 126 0#8 ++ [5#8] ++ List.replicate 300 0#8) := by decide +kernel

/-! ## C17 -/

/-- C17, full statement: sparse decompression fails or yields exactly the expected number of bytes. It is false: the
last run is not cut at the expected size. -/
theorem C17_sparse_overshoots :
    ¬ ∀ e data n out, decompress e data 0x20#8 n = .ok out → out.length = n := by
  intro h
  have := h toyCodecs [0xFE#8] 1 (List.replicate 126 0#8) (by decide +kernel)
  rw [List.length_replicate] at this
  omega

/-- C17, partial: sparse decompression of any data either reports a compression error or yields at least the expected
number of bytes and at most 126 more (none at all when nothing is expected). It never panics for sizes below 2^61.
Missing: exactness. -/
theorem C17_sparse_output_size_partial (e : Codecs) (data : List Byte) (n : Nat) (hbig : n < 2 ^ 61) :
    decompress e data 0x20#8 n = .error .compression ∨
    ∃ out, decompress e data 0x20#8 n = .ok out ∧ n ≤ out.length ∧ out.length ≤ n + 126 ∧ (n = 0 → out = []) := by
  have hm : Method.fromFlags 0x20#8 = .sparse := by decide
  unfold decompress
  split
  · exact .inl rfl
  · rw [if_neg (by decide), if_neg (fits _ hbig)]
    simp only [hm]
    unfold sparseDecompress
    rcases sparseDecompressLoop_total n data.length data 0 with ⟨out, ho, hb⟩ | he
    · right
      rw [ho]
      refine ⟨_, rfl, ?_, ?_, ?_⟩
      · simp; omega
      · rcases hb with rfl | hb
        · simp
        · simp only [List.length_append, List.length_replicate]; omega
      · intro hn
        subst hn
        have : out = [] := by
          cases data with
          | nil => simp only [List.length_nil, sparseDecompressLoop] at ho; injection ho with ho; exact ho.symm
          | cons b bs =>
            simp only [List.length_cons, sparseDecompressLoop, Nat.lt_irrefl, if_false] at ho
            injection ho with ho; exact ho.symm
        simp [this]
    · left; rw [he]; rfl

example : decompress toyCodecs [3#8, 1#8] 0x20#8 5 = .error .compression ∧
    decompress toyCodecs [1#8, 9#8, 0x82#8] 0x20#8 5 = .ok [9#8, 0#8, 0#8, 0#8, 0#8] := by decide +kernel

/-! ## C20 -/

/-- C20, full statement: distinct streams decompress to distinct data. It is false, and completely so: the result
depends only on the low half of the first byte and the expected size (below 2^61), never on the stream. -/
theorem C20_huffman_ignores_stream (e : Codecs) (t : Byte) (rest : List Byte) (n : Nat) (hbig : n < 2 ^ 61) :
    decompress e (t :: rest) 0x01#8 n =
      if t.toNat % 16 = 0 then .ok []
      else if t.toNat % 16 = 1 then .ok (List.replicate (max n 1) 0x59#8)
      else if t.toNat % 16 = 2 then .ok (List.replicate (max n 1) 0x21#8)
      else .error .compression := by
  have hm : Method.fromFlags 0x01#8 = .huffman := by decide
  unfold decompress
  rw [if_neg (by simp), if_neg (by decide), if_neg (fits _ hbig)]
  simp only [hm]
  exact huffmanDecompress_eq t rest n

example : decompress toyCodecs [1#8, 0xAB#8, 0xCD#8] 0x01#8 3 = .ok [0x59#8, 0x59#8, 0x59#8] := by
  rw [C20_huffman_ignores_stream _ _ _ _ (by decide)]; decide

/-! ## C15 -/

theorem compress_cases {e : Codecs} {d c : List Byte} {m : Byte} (h : compress e d m = .ok c) :
    c = d ∨ ∃ body, c = m :: body ∧ compressInternal e d m = .ok body ∧ body.length < d.length := by
  unfold compress at h
  cases hi : compressInternal e d m with
  | error x => rw [hi] at h; cases h
  | ok k =>
    rw [hi] at h
    simp only [bind, Except.bind] at h
    split at h
    · injection h with h; exact .inl h.symm
    · injection h with h
      exact .inr ⟨k, h.symm, rfl, by omega⟩

theorem liftCodec_ok {o : Option (List Byte)} {c : List Byte} (h : liftCodec o = .ok c) : o = some c := by
  cases o with
  | none => cases h
  | some x => injection h with h; rw [h]

theorem sparseCompress_ne {d k : List Byte} (hk : sparseCompress d = .ok k) : k ≠ [] := by
  have : sparseCompress d = .ok (sparseCompressLoop d.length d ++ [0xFF#8]) := rfl
  rw [this] at hk; injection hk with hk; subst hk; simp

/-- The method bytes below 0x40 (no audio compression), sorted out. -/
theorem lossless_methods (m : Byte) (h : m.toNat < 64) :
    m = 0#8 ∨ m = 0x01#8 ∨ m = 0x02#8 ∨ m = 0x04#8 ∨ m = 0x05#8 ∨ m = 0x06#8 ∨ m = 0x08#8 ∨ m = 0x0C#8 ∨ m = 0x10#8 ∨
    m = 0x12#8 ∨ m = 0x14#8 ∨ m = 0x20#8 ∨ m = 0x24#8 ∨
    (Method.fromFlags m = .multiple m ∧ hasFlag m 0x40#8 = false ∧ hasFlag m 0x80#8 = false ∧
      1 < [hasFlag m 0x01#8, hasFlag m 0x02#8, hasFlag m 0x08#8, hasFlag m 0x10#8, hasFlag m 0x20#8].count true) := by
  revert m
  decide +kernel

/-- C15, partial: for every method byte without audio compression, except PKWARE combined with IMPLODE and BZIP2
combined with IMPLODE: if compression succeeds, it returns the data itself, or the method byte followed by something
that decompresses to the data (for SPARSE, provided no non-zero byte follows 127 zeros in a row, see C16).
Missing: the two excluded combinations, for which it is false, see below; audio compression is lossy, see C18 and
C49. -/
theorem C15_round_trip_partial (e : Codecs) (he : e.Lawful) (d c : List Byte) (m : Byte) (hm : m.toNat < 64)
    (h0C : m ≠ 0x0C#8) (h14 : m ≠ 0x14#8) (hsp : m = 0x20#8 ∨ m = 0x24#8 → Spec.NoLongZeroRun d)
    (hbig : d.length < 2 ^ 61) (h : compress e d m = .ok c) :
    c = d ∨ ∃ body, c = m :: body ∧ decompress e body m d.length = .ok d := by
  rcases compress_cases h with h | ⟨body, hc, hi, hlen⟩
  · exact .inl h
  have hd : d ≠ [] := by intro h; rw [h] at hlen; simp at hlen
  refine .inr ⟨body, hc, ?_⟩
  clear hc h
  unfold compressInternal at hi
  rcases lossless_methods m hm with rfl | rfl | rfl | rfl | rfl | rfl | rfl | rfl | rfl | rfl | rfl | rfl | rfl | ⟨h1, h2, h3, h4⟩
  · rw [show Method.fromFlags 0#8 = .none by decide] at hi
    injection hi with hi; subst hi; omega
  · rw [show Method.fromFlags 0x01#8 = .huffman by decide] at hi
    simp only [huffmanCompress, if_neg hd] at hi; cases hi
  · rw [show Method.fromFlags 0x02#8 = .zlib by decide] at hi
    obtain ⟨hne, hx⟩ := he.zlib d body (liftCodec_ok hi)
    unfold decompress
    rw [if_neg hne, if_neg (by decide), if_neg (fits _ hbig), show Method.fromFlags 0x02#8 = .zlib by decide]
    simp only [zlibDecompress, hx]; rfl
  · rw [show Method.fromFlags 0x04#8 = .implode by decide] at hi
    simp only [implodeCompress, if_neg hd] at hi; cases hi
  · rw [show Method.fromFlags 0x05#8 = .multiple 0x05#8 by decide] at hi
    change huffmanCompress d = .ok body at hi
    simp only [huffmanCompress, if_neg hd] at hi; cases hi
  · rw [show Method.fromFlags 0x06#8 = .multiple 0x06#8 by decide] at hi
    change zlibCompress e d = .ok body at hi
    obtain ⟨hne, hx⟩ := he.zlib d body (liftCodec_ok hi)
    unfold decompress
    rw [if_neg hne, if_neg (by decide), if_neg (fits _ hbig), show Method.fromFlags 0x06#8 = .multiple 0x06#8 by decide]
    simp only [decompressMultiple, if_neg hne]
    have : zlibDecompress e body (d.length * 4) = .ok d := by simp only [zlibDecompress, hx]; rfl
    change (do let _ ← zlibDecompress e body (d.length * 4)
               zlibDecompress e body d.length) = _
    rw [this]
    simp only [bind, Except.bind, zlibDecompress, hx]; rfl
  · rw [show Method.fromFlags 0x08#8 = .pkware by decide] at hi
    simp only [pkwareCompress, if_neg hd] at hi
    obtain ⟨hne, hx⟩ := he.pkware d body hd (liftCodec_ok hi)
    unfold decompress
    rw [if_neg hne, if_neg (by decide), if_neg (fits _ hbig), show Method.fromFlags 0x08#8 = .pkware by decide]
    simp only [pkwareDecompress, if_neg hne, hx]; rfl
  · exact absurd rfl h0C
  · rw [show Method.fromFlags 0x10#8 = .bzip2 by decide] at hi
    obtain ⟨hne, hx⟩ := he.bzip2 d body (liftCodec_ok hi)
    unfold decompress
    rw [if_neg hne, if_neg (by decide), if_neg (fits _ hbig), show Method.fromFlags 0x10#8 = .bzip2 by decide]
    simp [bzip2Decompress, hx]
  · rw [show Method.fromFlags 0x12#8 = .lzma by decide] at hi
    obtain ⟨hne, hx⟩ := he.lzma d body (liftCodec_ok hi)
    unfold decompress
    rw [if_neg hne, if_neg (by decide), if_neg (fits _ hbig), show Method.fromFlags 0x12#8 = .lzma by decide]
    simp only [lzmaDecompress, hx]
  · exact absurd rfl h14
  · rw [show Method.fromFlags 0x20#8 = .sparse by decide] at hi
    have hne := sparseCompress_ne hi
    unfold decompress
    rw [if_neg hne, if_neg (by decide), if_neg (fits _ hbig), show Method.fromFlags 0x20#8 = .sparse by decide]
    exact (sparse_iff d body hi).mpr (hsp (.inl rfl))
  · rw [show Method.fromFlags 0x24#8 = .multiple 0x24#8 by decide] at hi
    change sparseCompress d = .ok body at hi
    have hne := sparseCompress_ne hi
    unfold decompress
    rw [if_neg hne, if_neg (by decide), if_neg (fits _ hbig), show Method.fromFlags 0x24#8 = .multiple 0x24#8 by decide]
    simp only [decompressMultiple, if_neg hne]
    change (do let _ ← sparseDecompress body (d.length * 4)
               sparseDecompress body d.length) = _
    obtain ⟨c', p, s, hc, _, hdec, _⟩ := sparse_codec d (d.length * 4) (by omega)
    rw [hi] at hc; injection hc with hc; subst hc
    rw [hdec]
    simp only [bind, Except.bind]
    exact (sparse_iff d body hi).mpr (hsp (.inr rfl))
  · rw [h1] at hi
    simp only [compressMultiple, h2, h3, bind, Except.bind, pure, Except.pure, Bool.false_eq_true, if_false] at hi
    rw [if_neg (by omega), if_pos h4] at hi
    cases hi

example : compress toyCodecs (List.replicate 9 7#8) 0x06#8 = .ok [0x06#8, 1#8, 7#8, 9#8] ∧
    decompress toyCodecs [1#8, 7#8, 9#8] 0x06#8 9 = .ok (List.replicate 9 7#8) := by decide +kernel

/-- BZIP2 combined with IMPLODE (0x14) is accepted by the compressor, but nothing it produced can be decompressed. -/
theorem C15_bzip2_implode_never_decompresses (e : Codecs) (he : e.Lawful) (d body : List Byte)
    (hbig : d.length < 2 ^ 61) (h : compress e d 0x14#8 = .ok (0x14#8 :: body)) (hne : 0x14#8 :: body ≠ d) :
    decompress e body 0x14#8 d.length = .error .compression := by
  rcases compress_cases h with h | ⟨body', hc, hi, hlen⟩
  · exact absurd h hne
  injection hc with _ hc; subst hc
  unfold compressInternal at hi
  rw [show Method.fromFlags 0x14#8 = .multiple 0x14#8 by decide] at hi
  change bzip2Compress e d = .ok body at hi
  obtain ⟨hne, hx⟩ := he.bzip2 d body (liftCodec_ok hi)
  unfold decompress
  rw [if_neg hne, if_neg (by decide), if_neg (fits _ hbig), show Method.fromFlags 0x14#8 = .multiple 0x14#8 by decide]
  simp only [decompressMultiple, if_neg hne]
  have : bzip2Decompress e body (d.length * 4) = .error .compression := by
    simp only [bzip2Decompress, hx]; rw [if_pos (by omega)]
  change (do let _ ← bzip2Decompress e body (d.length * 4)
             bzip2Decompress e body d.length) = _
  rw [this]; rfl

example : compress toyCodecs (List.replicate 9 7#8) 0x14#8 = .ok [0x14#8, 1#8, 7#8, 9#8] := by decide +kernel

/-- PKWARE combined with IMPLODE (0x0C) is accepted by the compressor, which only applies PKWARE; the decompressor
first undoes an IMPLODE that never happened. With lawful codecs this loses the data. -/
theorem C15_pkware_implode_mismatch :
    ∃ d body, compress toyCodecs d 0x0C#8 = .ok (0x0C#8 :: body) ∧
      decompress toyCodecs body 0x0C#8 d.length = .error .compression :=
  ⟨List.replicate 9 7#8, [1#8, 7#8, 9#8], by decide +kernel, by decide +kernel⟩

/-! ## C18 -/

theorem sampleAt_toSamples (d : List Byte) (i : Nat) :
    Spec.sampleAt d i = ((toSamples d)[i]?).map BitVec.toInt := by
  induction i generalizing d with
  | zero =>
    match d with
    | [] => rfl
    | [_] => simp [Spec.sampleAt, toSamples]
    | a :: b :: rest =>
      simp only [Spec.sampleAt, toSamples, Nat.mul_zero, List.drop_zero, List.getElem?_cons_zero, Option.map_some]
      have ha := a.isLt
      have hb := b.isLt
      have hv : (ofLe16 [a, b]).toNat = a.toNat + 256 * b.toNat := by
        simp only [ofLe16, leNat, BitVec.toNat_ofNat]; omega
      have ht : (ofLe16 [a, b]).toInt =
          if (a.toNat : Int) + 256 * b.toNat < 32768 then (a.toNat : Int) + 256 * b.toNat
          else (a.toNat : Int) + 256 * b.toNat - 65536 := by
        rw [BitVec.toInt_eq_toNat_cond, hv]
        split <;> split <;> omega
      rw [ht]
  | succ i ih =>
    match d with
    | [] => simp [Spec.sampleAt, toSamples]
    | [x] =>
      simp only [Spec.sampleAt, toSamples]
      rw [show 2 * (i + 1) = 2 * i + 1 + 1 by omega, List.drop_succ_cons, List.drop_nil]
      rfl
    | a :: b :: rest =>
      rw [toSamples, List.getElem?_cons_succ, ← ih rest]
      simp only [Spec.sampleAt]
      rw [show 2 * (i + 1) = 2 * i + 2 by omega, List.drop_succ_cons, List.drop_succ_cons]

/-- C18: whatever audio data is compressed at whatever level, decompressing it with the original size succeeds, gives
the same number of bytes, and keeps the first sample of every channel. -/
theorem C18_adpcm_length_and_start (d c : List Byte) (level n : Nat) (hn : n = 1 ∨ n = 2) (hl : level < 256)
    (hbig : d.length < 2 ^ 63) (h : adpcmCompress d level n = .ok c) :
    ∃ d', adpcmDecompress c d.length n = .ok d' ∧ d'.length = d.length ∧
      ∀ i < n, Spec.sampleAt d' i = Spec.sampleAt d i := by
  by_cases hd : d = []
  · subst hd
    refine ⟨[], ?_, rfl, fun _ _ => rfl⟩
    have : c = [] := by
      unfold adpcmCompress at h
      rw [if_neg (by simp only [maxChannels]; omega), if_neg (by simp)] at h
      simp only [toSamples, List.length_nil, if_true] at h
      injection h with h; exact h.symm
    subst this
    unfold adpcmDecompress
    rw [if_neg (by simp only [maxChannels]; omega), if_pos ⟨rfl, rfl⟩]
  · obtain ⟨ps, _, hpl, hnp, hdl, htk, hdec, _⟩ := adpcm_codec d c level n hn hl hd hbig h
    have := hdec []
    rw [List.append_nil] at this
    refine ⟨ofSamples ps, this, by rw [ofSamples_length, hdl], ?_⟩
    intro i hi
    rw [sampleAt_toSamples, sampleAt_toSamples, toSamples_ofSamples]
    have h1 : (ps.take n)[i]? = ps[i]? := List.getElem?_take_of_lt hi
    have h2 : ((toSamples d).take n)[i]? = (toSamples d)[i]? := List.getElem?_take_of_lt hi
    rw [← h1, ← h2, htk]

/-- C18: there is no drift. What the decoder emits is, sample by sample, the prediction the encoder held after that
sample, for every level. -/
theorem C18_decoder_tracks_encoder (d c : List Byte) (level n : Nat) (hn : n = 1 ∨ n = 2) (hl : level < 256)
    (hd : d ≠ []) (hbig : d.length < 2 ^ 63) (h : adpcmCompress d level n = .ok c) :
    ∃ ps, predictions d level n = .ok ps ∧ adpcmDecompress c d.length n = .ok (ofSamples ps) := by
  obtain ⟨ps, hp, _, _, _, _, hdec, _⟩ := adpcm_codec d c level n hn hl hd hbig h
  have := hdec []
  rw [List.append_nil] at this
  exact ⟨ps, hp, this⟩

/-- C18: at the level the library uses, no decoded sample is ever further than 2052 from the original, however long
the signal. -/
theorem C18_error_bound (e : Codecs) (d body : List Byte) (m : Byte) (hm : m = 0x40#8 ∨ m = 0x80#8)
    (hbig : d.length < 2 ^ 61) (h : compress e d m = .ok (m :: body)) (hne : m :: body ≠ d) :
    ∃ d', decompress e body m d.length = .ok d' ∧ d'.length = d.length ∧
      ∀ i x y, Spec.sampleAt d i = some x → Spec.sampleAt d' i = some y → (y - x).natAbs ≤ 2052 := by
  rcases compress_cases h with h | ⟨body', hc, hi, hlen⟩
  · exact absurd h hne
  injection hc with _ hc; subst hc
  have hd : d ≠ [] := by intro h; rw [h] at hlen; simp at hlen
  have main : ∀ n, n = 1 ∨ n = 2 → adpcmCompress d 5 n = .ok body → body ≠ [] ∧
      ∃ d', adpcmDecompress body d.length n = .ok d' ∧ d'.length = d.length ∧
        ∀ i x y, Spec.sampleAt d i = some x → Spec.sampleAt d' i = some y → (y - x).natAbs ≤ 2052 := by
    intro n hn hk
    obtain ⟨ps, _, hpl, hnp, hdl, _, hdec, herr, _, hb, _⟩ := adpcm_codec d body 5 n hn (by omega) hd (by omega) hk
    have := hdec []
    rw [List.append_nil] at this
    refine ⟨by intro h; rw [h] at hb; simp at hb, ofSamples ps, this, by rw [ofSamples_length, hdl], ?_⟩
    intro i x y hx hy
    rw [sampleAt_toSamples] at hx hy
    rw [toSamples_ofSamples] at hy
    obtain ⟨x', hx', rfl⟩ := Option.map_eq_some_iff.mp hx
    obtain ⟨y', hy', rfl⟩ := Option.map_eq_some_iff.mp hy
    exact herr rfl i x' y' hx' hy'
  unfold compressInternal at hi
  rcases hm with rfl | rfl
  · rw [show Method.fromFlags 0x40#8 = .adpcmMono by decide] at hi
    obtain ⟨hb, hr⟩ := main 1 (.inl rfl) hi
    unfold decompress
    rw [if_neg hb, if_neg (by decide), if_neg (fits _ hbig), show Method.fromFlags 0x40#8 = .adpcmMono by decide]
    exact hr
  · rw [show Method.fromFlags 0x80#8 = .adpcmStereo by decide] at hi
    obtain ⟨hb, hr⟩ := main 2 (.inr rfl) hi
    unfold decompress
    rw [if_neg hb, if_neg (by decide), if_neg (fits _ hbig), show Method.fromFlags 0x80#8 = .adpcmStereo by decide]
    exact hr

/-- C18: audio of any length that is whole samples of all channels is accepted at levels up to 9. -/
theorem C18_compress_succeeds (d : List Byte) (level n : Nat) (hl : level ≤ 9) (hn : n = 1 ∨ n = 2)
    (hlen : d.length % (2 * n) = 0) : ∃ c, adpcmCompress d level n = .ok c :=
  adpcmCompress_succeeds d level n hl hn hlen

/-- From level 10 on the bit mask no longer fits its type: compression panics (with overflow checks) on two samples. -/
theorem C18_level_10_panics : adpcmCompress [0#8, 0#8, 0#8, 0x40#8] 10 1 = .error .panic := by decide +kernel

example : compress toyCodecs [0#8, 0#8, 4#8, 0#8, 9#8, 0#8, 12#8, 0#8, 15#8, 0#8, 12#8, 0#8, 10#8, 0#8, 7#8, 0#8]
      0x40#8 = .ok (0x40#8 :: [0#8, 4#8, 0#8, 0#8, 0x80#8, 0x80#8, 0#8, 0x80#8, 0x40#8, 0x80#8, 0x80#8]) ∧
    decompress toyCodecs [0#8, 4#8, 0#8, 0#8, 0x80#8, 0x80#8, 0#8, 0x80#8, 0x40#8, 0x80#8, 0x80#8] 0x40#8 16
      = .ok [0#8, 0#8, 0#8, 0#8, 0#8, 0#8, 25#8, 0#8, 25#8, 0#8, 4#8, 0#8, 4#8, 0#8, 4#8, 0#8] := by decide +kernel

/-! ## C19 -/

/-- C19, full statement: ADPCM decompression never panics. It is false: a shift byte of 32 or more in the header
overflows the shift. -/
theorem C19_adpcm_panics : decompress toyCodecs [0#8, 32#8, 0#8, 0#8, 0#8] 0x40#8 4 = .error .panic := by decide +kernel

/-- C19, partial: for any bytes whose shift byte is below 32, any requested size below 2^63 and either channel count, ADPCM
decompression ends without a panic, with a compression error or with whole samples: the initial samples plus at most
one byte more than requested. Missing: shift bytes from 32 on, and larger sizes, where it panics. -/
theorem C19_adpcm_robust_partial (input : List Byte) (size n : Nat) (hn : n = 1 ∨ n = 2) (hbig : size < 2 ^ 63)
    (hshift : ∀ b, input[1]? = some b → b.toNat < 32) :
    adpcmDecompress input size n = .error .compression ∨
    ∃ out, adpcmDecompress input size n = .ok out ∧ out.length ≤ max (2 * n) (size + 1) ∧ out.length % 2 = 0 ∧
      out.length ≤ 2 * input.length := by
  unfold adpcmDecompress
  rw [if_neg (by simp only [maxChannels]; omega)]
  split
  · exact .inr ⟨[], rfl, by simp, rfl, by simp⟩
  · split
    · rename_i _ _ s a b rest _
      simp only
      rw [if_neg (by omega)]
      split
      · exact .inl rfl
      · rename_i hlen
        right
        have hb : s.toNat < 32 := hshift s rfl
        have htl : (toSamples ((a :: b :: rest).take (2 * n))).length = n := by
          rw [toSamples_length, List.length_take]; omega
        obtain ⟨r, hr, hbd, he, hle⟩ := decodeLoop_total s.toNat n size hb (by omega) ((a :: b :: rest).drop (2 * n)) (2 * n)
          (n - 1) _ (initialChans_good _ n htl)
        rw [hr]
        simp only [bind, Except.bind]
        refine ⟨_, rfl, ?_, ?_, ?_⟩
        · simp only [List.length_append, ofSamples_length, htl]
          rcases hbd with rfl | hbd
          · simp; omega
          · omega
        · simp only [List.length_append, ofSamples_length, htl]; omega
        · simp only [List.length_append, ofSamples_length, htl]
          simp only [List.length_drop, List.length_cons] at hle
          simp only [List.length_cons] at hlen ⊢
          omega
    · exact .inl rfl

example : adpcmDecompress [0#8, 4#8, 1#8, 0#8, 0x81#8, 0x3F#8, 0x80#8] 6 1 ≠ .error .compression := by decide +kernel

/-! ## C49 -/

/-- The same guarantee as audio compression alone gives, for a stream `k` followed by anything. -/
theorem audio_decode {d k : List Byte} {n : Nat} (hn : n = 1 ∨ n = 2) (hd : d ≠ []) (hbig : d.length < 2 ^ 61)
    (hk : adpcmCompress d 5 n = .ok k) :
    k ≠ [] ∧ k.length ≤ d.length * 4 ∧ k.length ≠ d.length * 4 ∧
    ∃ d', (∀ tail, adpcmDecompress (k ++ tail) d.length n = .ok d') ∧ d'.length = d.length ∧
      (∀ i < n, Spec.sampleAt d' i = Spec.sampleAt d i) ∧
      ∀ i x y, Spec.sampleAt d i = some x → Spec.sampleAt d' i = some y → (y - x).natAbs ≤ 2052 := by
  obtain ⟨ps, _, hpl, hnp, hdl, htk, hdec, herr, hub, hlb, hsmall⟩ := adpcm_codec d k 5 n hn (by omega) hd (by omega) hk
  refine ⟨by intro h; rw [h] at hlb; simp at hlb, ?_, ?_, ofSamples ps, hdec, by rw [ofSamples_length, hdl], ?_, ?_⟩
  · rcases Nat.eq_or_lt_of_le hnp with h | h
    · have := hsmall h.symm; omega
    · omega
  · rcases Nat.eq_or_lt_of_le hnp with h | h
    · have := hsmall h.symm; omega
    · omega
  · intro i hi
    rw [sampleAt_toSamples, sampleAt_toSamples, toSamples_ofSamples]
    have h1 : (ps.take n)[i]? = ps[i]? := List.getElem?_take_of_lt hi
    have h2 : ((toSamples d).take n)[i]? = (toSamples d)[i]? := List.getElem?_take_of_lt hi
    rw [← h1, ← h2, htk]
  · intro i x y hx hy
    rw [sampleAt_toSamples] at hx hy
    rw [toSamples_ofSamples] at hy
    obtain ⟨x', hx', rfl⟩ := Option.map_eq_some_iff.mp hx
    obtain ⟨y', hy', rfl⟩ := Option.map_eq_some_iff.mp hy
    exact herr rfl i x' y' hx' hy'

theorem zlib_first {e : Codecs} (he : e.Lawful) {k body : List Byte} (h : zlibCompress e k = .ok body) (x : Nat) :
    body ≠ [] ∧ zlibDecompress e body x = .ok k := by
  obtain ⟨hne, hx⟩ := he.zlib k body (liftCodec_ok h)
  exact ⟨hne, by simp only [zlibDecompress, hx]; rfl⟩

theorem pkware_first {e : Codecs} (he : e.Lawful) {k body : List Byte} (hk : k ≠ []) (h : pkwareCompress e k = .ok body)
    (x : Nat) : body ≠ [] ∧ pkwareDecompress e body x = .ok k := by
  simp only [pkwareCompress, if_neg hk] at h
  obtain ⟨hne, hx⟩ := he.pkware k body hk (liftCodec_ok h)
  exact ⟨hne, by simp only [pkwareDecompress, if_neg hne, hx]; rfl⟩

theorem sparse_first {k body : List Byte} (h : sparseCompress k = .ok body) (hs : Spec.NoLongZeroRun k) (x : Nat)
    (hx : k.length ≤ x) : body ≠ [] ∧ ∃ tail, sparseDecompress body x = .ok (k ++ tail) := by
  refine ⟨sparseCompress_ne h, ?_⟩
  obtain ⟨c', p, s, hc, hps, hdec, hs', _⟩ := sparse_codec k x hx
  rw [h] at hc; injection hc with hc; subst hc
  have hz : ∀ b ∈ s, b = 0#8 := by
    intro b hb
    rcases hs' with rfl | ⟨s', rfl⟩
    · simp at hb
    · rcases List.mem_append.mp hb with hb | hb
      · exact List.eq_of_mem_replicate hb
      · exact hs p s' (by rw [List.append_assoc]; exact hps) b hb
  refine ⟨List.replicate (x - k.length) 0#8, ?_⟩
  rw [hdec, hps, List.append_assoc]
  have hl : k.length = p.length + s.length := by rw [hps, List.length_append]
  have h1 : s ++ List.replicate (x - k.length) 0#8 = List.replicate (x - p.length) 0#8 := by
    refine List.eq_replicate_iff.mpr ⟨by rw [List.length_append, List.length_replicate]; omega, ?_⟩
    intro b hb
    rcases List.mem_append.mp hb with hb | hb
    · exact hz b hb
    · exact List.eq_of_mem_replicate hb
  rw [← hps, h1]

/-- The method bytes that combine one audio method with ZLIB, PKWARE or SPARSE, and the number of channels. -/
def audioCombos : List (Byte × Nat) :=
  [(0x42#8, 1), (0x48#8, 1), (0x60#8, 1), (0x82#8, 2), (0x88#8, 2), (0xA0#8, 2)]

/-- C49, partial: audio compression combined with ZLIB, PKWARE or SPARSE gives, sample for sample, what audio
compression alone gives (for SPARSE, provided the audio stream has no non-zero byte after 127 zeros in a row).
Missing: combinations with BZIP2, with IMPLODE and of both channel counts, for which it is false, see below. -/
theorem C49_audio_combinations_partial (e : Codecs) (he : e.Lawful) (d body : List Byte) (m : Byte) (n : Nat)
    (hm : (m, n) ∈ audioCombos)
    (hsp : n = 1 ∧ m = 0x60#8 ∨ n = 2 ∧ m = 0xA0#8 → ∀ k, adpcmCompress d 5 n = .ok k → Spec.NoLongZeroRun k)
    (hbig : d.length < 2 ^ 61) (h : compress e d m = .ok (m :: body)) (hne : m :: body ≠ d) :
    ∃ k d', adpcmCompress d 5 n = .ok k ∧ adpcmDecompress k d.length n = .ok d' ∧
      decompress e body m d.length = .ok d' ∧ d'.length = d.length ∧
      (∀ i < n, Spec.sampleAt d' i = Spec.sampleAt d i) ∧
      ∀ i x y, Spec.sampleAt d i = some x → Spec.sampleAt d' i = some y → (y - x).natAbs ≤ 2052 := by
  rcases compress_cases h with h | ⟨body', hc, hi, hlen⟩
  · exact absurd h hne
  injection hc with _ hc; subst hc
  have hd : d ≠ [] := by intro h; rw [h] at hlen; simp at hlen
  have hn : n = 1 ∨ n = 2 := by
    simp only [audioCombos, List.mem_cons, Prod.mk.injEq, List.not_mem_nil, or_false] at hm; omega
  -- it suffices to decompress to the audio stream followed by anything
  suffices hs : ∃ k, adpcmCompress d 5 n = .ok k ∧
      ∃ tail, decompress e body m d.length = adpcmDecompress (k ++ tail) d.length n by
    obtain ⟨k, hk, tail, ht⟩ := hs
    obtain ⟨_, _, _, d', hdec, hr⟩ := audio_decode hn hd hbig hk
    refine ⟨k, d', hk, ?_, ?_, hr⟩
    · have := hdec []; rwa [List.append_nil] at this
    · rw [ht, hdec tail]
  have hsplit : ∀ (r : Res (List Byte)) (f : List Byte → Res (List Byte)), (r >>= f) = .ok body →
      ∃ k, r = .ok k ∧ f k = .ok body := by
    intro r f hrf
    cases r with
    | error x => cases hrf
    | ok k => exact ⟨k, rfl, hrf⟩
  unfold compressInternal at hi
  simp only [audioCombos, List.mem_cons, Prod.mk.injEq, List.not_mem_nil, or_false] at hm
  rcases hm with ⟨rfl, rfl⟩ | ⟨rfl, rfl⟩ | ⟨rfl, rfl⟩ | ⟨rfl, rfl⟩ | ⟨rfl, rfl⟩ | ⟨rfl, rfl⟩
  · obtain ⟨k, hk, hz⟩ := hsplit (adpcmCompress d 5 1) (zlibCompress e) hi
    obtain ⟨hb, hz⟩ := zlib_first he hz (d.length * 4)
    refine ⟨k, hk, [], ?_⟩
    unfold decompress
    rw [if_neg hb, if_neg (by decide), if_neg (fits _ hbig), show Method.fromFlags 0x42#8 = .multiple 0x42#8 by decide]
    simp only [decompressMultiple, if_neg hb]
    change (zlibDecompress e body (d.length * 4) >>= fun k => adpcmDecompress k d.length 1 >>= fun r => pure r) = _
    rw [hz, List.append_nil]; simp only [bind, Except.bind, pure, Except.pure]
    cases adpcmDecompress k d.length 1 <;> rfl
  · obtain ⟨k, hk, hz⟩ := hsplit (adpcmCompress d 5 1) (pkwareCompress e) hi
    obtain ⟨hb, hz⟩ := pkware_first he (audio_decode hn hd hbig hk).1 hz (max d.length (body.length * 2))
    refine ⟨k, hk, [], ?_⟩
    unfold decompress
    rw [if_neg hb, if_neg (by decide), if_neg (fits _ hbig), show Method.fromFlags 0x48#8 = .multiple 0x48#8 by decide]
    simp only [decompressMultiple, if_neg hb]
    change (pkwareDecompress e body (max d.length (body.length * 2)) >>= fun k =>
      adpcmDecompress k d.length 1 >>= fun r => pure r) = _
    rw [hz, List.append_nil]; simp only [bind, Except.bind, pure, Except.pure]
    cases adpcmDecompress k d.length 1 <;> rfl
  · obtain ⟨k, hk, hz⟩ := hsplit (adpcmCompress d 5 1) sparseCompress hi
    obtain ⟨hb, tail, hz⟩ := sparse_first hz (hsp (.inl ⟨rfl, rfl⟩) k hk) (d.length * 4) (audio_decode hn hd hbig hk).2.1
    refine ⟨k, hk, tail, ?_⟩
    unfold decompress
    rw [if_neg hb, if_neg (by decide), if_neg (fits _ hbig), show Method.fromFlags 0x60#8 = .multiple 0x60#8 by decide]
    simp only [decompressMultiple, if_neg hb]
    change (sparseDecompress body (d.length * 4) >>= fun k => adpcmDecompress k d.length 1 >>= fun r => pure r) = _
    rw [hz]; simp only [bind, Except.bind, pure, Except.pure]
    cases adpcmDecompress (k ++ tail) d.length 1 <;> rfl
  · obtain ⟨k, hk, hz⟩ := hsplit (adpcmCompress d 5 2) (zlibCompress e) hi
    obtain ⟨hb, hz⟩ := zlib_first he hz (d.length * 4)
    refine ⟨k, hk, [], ?_⟩
    unfold decompress
    rw [if_neg hb, if_neg (by decide), if_neg (fits _ hbig), show Method.fromFlags 0x82#8 = .multiple 0x82#8 by decide]
    simp only [decompressMultiple, if_neg hb]
    change (zlibDecompress e body (d.length * 4) >>= fun k => adpcmDecompress k d.length 2 >>= fun r => pure r) = _
    rw [hz, List.append_nil]; simp only [bind, Except.bind, pure, Except.pure]
    cases adpcmDecompress k d.length 2 <;> rfl
  · obtain ⟨k, hk, hz⟩ := hsplit (adpcmCompress d 5 2) (pkwareCompress e) hi
    obtain ⟨hb, hz⟩ := pkware_first he (audio_decode hn hd hbig hk).1 hz (max d.length (body.length * 2))
    refine ⟨k, hk, [], ?_⟩
    unfold decompress
    rw [if_neg hb, if_neg (by decide), if_neg (fits _ hbig), show Method.fromFlags 0x88#8 = .multiple 0x88#8 by decide]
    simp only [decompressMultiple, if_neg hb]
    change (pkwareDecompress e body (max d.length (body.length * 2)) >>= fun k =>
      adpcmDecompress k d.length 2 >>= fun r => pure r) = _
    rw [hz, List.append_nil]; simp only [bind, Except.bind, pure, Except.pure]
    cases adpcmDecompress k d.length 2 <;> rfl
  · obtain ⟨k, hk, hz⟩ := hsplit (adpcmCompress d 5 2) sparseCompress hi
    obtain ⟨hb, tail, hz⟩ := sparse_first hz (hsp (.inr ⟨rfl, rfl⟩) k hk) (d.length * 4) (audio_decode hn hd hbig hk).2.1
    refine ⟨k, hk, tail, ?_⟩
    unfold decompress
    rw [if_neg hb, if_neg (by decide), if_neg (fits _ hbig), show Method.fromFlags 0xA0#8 = .multiple 0xA0#8 by decide]
    simp only [decompressMultiple, if_neg hb]
    change (sparseDecompress body (d.length * 4) >>= fun k => adpcmDecompress k d.length 2 >>= fun r => pure r) = _
    rw [hz]; simp only [bind, Except.bind, pure, Except.pure]
    cases adpcmDecompress (k ++ tail) d.length 2 <;> rfl

example : compress toyCodecs (List.replicate 40 0#8) 0x42#8
      = .ok (0x42#8 :: ([2#8, 0#8, 4#8, 0#8, 0#8] ++ List.replicate 19 0x80#8)) ∧
    decompress toyCodecs ([2#8, 0#8, 4#8, 0#8, 0#8] ++ List.replicate 19 0x80#8) 0x42#8 40 = .ok (List.replicate 40 0#8) := by decide +kernel

/-- Audio compression combined with BZIP2: nothing the compressor produced can be decompressed, whatever the data. -/
theorem C49_audio_bzip2_never_decompresses (e : Codecs) (he : e.Lawful) (d body : List Byte) (m : Byte)
    (hm : m = 0x50#8 ∨ m = 0x90#8) 
    (hbig : d.length < 2 ^ 61) (h : compress e d m = .ok (m :: body)) (hne : m :: body ≠ d) :
    decompress e body m d.length = .error .compression := by
  rcases compress_cases h with h | ⟨body', hc, hi, hlen⟩
  · exact absurd h hne
  injection hc with _ hc; subst hc
  have hd : d ≠ [] := by intro h; rw [h] at hlen; simp at hlen
  have hsplit : ∀ (r : Res (List Byte)) (f : List Byte → Res (List Byte)), (r >>= f) = .ok body →
      ∃ k, r = .ok k ∧ f k = .ok body := by
    intro r f hrf
    cases r with
    | error x => cases hrf
    | ok k => exact ⟨k, rfl, hrf⟩
  have key : ∀ n k, n = 1 ∨ n = 2 → adpcmCompress d 5 n = .ok k → bzip2Compress e k = .ok body →
      body ≠ [] ∧ bzip2Decompress e body (d.length * 4) = .error .compression := by
    intro n k hn hk hz
    obtain ⟨hne, hx⟩ := he.bzip2 k body (liftCodec_ok hz)
    refine ⟨hne, ?_⟩
    simp only [bzip2Decompress, hx]
    rw [if_pos (audio_decode hn hd hbig hk).2.2.1]
  unfold compressInternal at hi
  rcases hm with rfl | rfl
  · obtain ⟨k, hk, hz⟩ := hsplit (adpcmCompress d 5 1) (bzip2Compress e) hi
    obtain ⟨hb, hz⟩ := key 1 k (.inl rfl) hk hz
    unfold decompress
    rw [if_neg hb, if_neg (by decide), if_neg (fits _ hbig), show Method.fromFlags 0x50#8 = .multiple 0x50#8 by decide]
    simp only [decompressMultiple, if_neg hb]
    change (bzip2Decompress e body (d.length * 4) >>= fun k => adpcmDecompress k d.length 1 >>= fun r => pure r) = _
    rw [hz]; rfl
  · obtain ⟨k, hk, hz⟩ := hsplit (adpcmCompress d 5 2) (bzip2Compress e) hi
    obtain ⟨hb, hz⟩ := key 2 k (.inr rfl) hk hz
    unfold decompress
    rw [if_neg hb, if_neg (by decide), if_neg (fits _ hbig), show Method.fromFlags 0x90#8 = .multiple 0x90#8 by decide]
    simp only [decompressMultiple, if_neg hb]
    change (bzip2Decompress e body (d.length * 4) >>= fun k => adpcmDecompress k d.length 2 >>= fun r => pure r) = _
    rw [hz]; rfl

example : compress toyCodecs (List.replicate 40 0#8) 0x50#8
      = .ok (0x50#8 :: ([2#8, 0#8, 4#8, 0#8, 0#8] ++ List.replicate 19 0x80#8)) := by decide +kernel

/-- Both channel counts at once (0xC0): the compressor writes one channel, the decompressor reads two. Ten bytes of
silence come back as eight, and not silent. -/
theorem C49_both_channel_counts_mismatch :
    ∃ d body, compress toyCodecs d 0xC0#8 = .ok (0xC0#8 :: body) ∧
      ∃ out, decompress toyCodecs body 0xC0#8 d.length = .ok out ∧ out.length ≠ d.length :=
  ⟨List.replicate 10 0#8, [0#8, 4#8, 0#8, 0#8, 0x80#8, 0x80#8, 0x80#8, 0x80#8], by decide +kernel, [0#8, 0#8, 0x80#8, 0x80#8, 0#8, 0#8, 0x80#8, 0x80#8], by decide +kernel, by decide⟩

end Mopaq
