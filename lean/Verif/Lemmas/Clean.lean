import Verif.Model.FileIO
import Verif.Lemmas.Huffman
import Verif.Lemmas.Sizes
import Verif.Lemmas.HeaderAccept

/-! # Absence of panics and of endless loops -/

namespace Mopaq

/-- The computation ends in a value or in an error the code returns. -/
def Clean {α : Type} (r : Res α) : Prop := r ≠ .error .panic ∧ r ≠ .error .diverge

theorem clean_ok {α : Type} (a : α) : Clean (.ok a : Res α) := ⟨nofun, nofun⟩

theorem clean_error {α : Type} {x : Err} (h1 : x ≠ .panic) (h2 : x ≠ .diverge) : Clean (.error x : Res α) :=
  ⟨fun h => h1 (by injection h), fun h => h2 (by injection h)⟩

theorem clean_ite {α : Type} {c : Prop} [Decidable c] {a b : Res α} (ha : c → Clean a) (hb : ¬ c → Clean b) :
    Clean (if c then a else b) := by
  split
  · exact ha ‹_›
  · exact hb ‹_›

theorem clean_bind {α β : Type} {r : Res α} {k : α → Res β} (h : Clean r) (hk : ∀ a, r = .ok a → Clean (k a)) :
    Clean (r >>= k) := by
  cases r with
  | ok a => exact hk a rfl
  | error x =>
    refine ⟨fun h' => h.1 ?_, fun h' => h.2 ?_⟩
    · injection h' with h'; rw [h']
    · injection h' with h'; rw [h']

theorem clean_readAt (f : List Byte) (off n : Nat) : Clean (readAt f off n) := by
  unfold readAt
  split
  · exact clean_ok _
  · split
    · exact clean_ok _
    · exact clean_error (by decide) (by decide)

theorem clean_liftCodec (o : Option (List Byte)) : Clean (liftCodec o) := by
  cases o
  · exact clean_error (by decide) (by decide)
  · exact clean_ok _

theorem clean_bzip2 (e : Codecs) (d : List Byte) (n : Nat) : Clean (bzip2Decompress e d n) := by
  unfold bzip2Decompress
  split
  · exact clean_error (by decide) (by decide)
  · split
    · exact clean_error (by decide) (by decide)
    · exact clean_ok _

theorem clean_lzma (e : Codecs) (d : List Byte) (n : Nat) : Clean (lzmaDecompress e d n) := by
  unfold lzmaDecompress
  split
  · exact clean_ok _
  · exact clean_liftCodec _

theorem clean_pkware (e : Codecs) (d : List Byte) (n : Nat) : Clean (pkwareDecompress e d n) := by
  unfold pkwareDecompress
  split
  · exact clean_ok _
  · exact clean_liftCodec _

theorem clean_implode (e : Codecs) (d : List Byte) (n : Nat) : Clean (implodeDecompress e d n) := by
  unfold implodeDecompress
  split
  · exact clean_ok _
  · exact clean_liftCodec _

theorem clean_sparseLoop (n : Nat) : ∀ (fuel : Nat) (d : List Byte) (len : Nat),
    Clean (sparseDecompressLoop n fuel d len) := by
  intro fuel
  induction fuel with
  | zero => intro d len; exact clean_ok _
  | succ fuel ih =>
    intro d len
    cases d with
    | nil => exact clean_ok _
    | cons c bs =>
      rw [sparseDecompressLoop]
      split
      · split
        · exact clean_ok _
        · split
          · exact clean_bind (ih _ _) fun _ _ => clean_ok _
          · dsimp only
            split
            · exact clean_error (by decide) (by decide)
            · exact clean_bind (ih _ _) fun _ _ => clean_ok _
      · exact clean_ok _

theorem clean_sparse (d : List Byte) (n : Nat) : Clean (sparseDecompress d n) :=
  clean_bind (clean_sparseLoop _ _ _ _) fun _ _ => clean_ok _

theorem clean_huffman (d : List Byte) (n : Nat) : Clean (huffmanDecompress d n) := by
  cases d with
  | nil => exact clean_ok _
  | cons t rest =>
    rw [huffmanDecompress_eq]
    split
    · exact clean_ok _
    · split
      · exact clean_ok _
      · split
        · exact clean_ok _
        · exact clean_error (by decide) (by decide)

theorem no_audio_bits (m : Byte) (h : m.toNat < 64) : hasFlag m 0x40#8 = false ∧ hasFlag m 0x80#8 = false ∧
    Method.fromFlags m ≠ .adpcmMono ∧ Method.fromFlags m ≠ .adpcmStereo := by
  have hm : m = BitVec.ofNat 8 m.toNat := by simp
  rw [hm]
  generalize m.toNat = k at h
  revert h
  revert k
  decide

/-- Without audio bits, decompression of any bytes to a size that fits into memory ends without a panic. -/
theorem clean_decompress (e : Codecs) (d : List Byte) (m : Byte) (n : Nat) (hm : m.toNat < 64) (hbig : n < 2 ^ 61) :
    Clean (decompress e d m n) := by
  obtain ⟨h40, h80, hmono, hstereo⟩ := no_audio_bits m hm
  have hne40 : m ≠ 0x40#8 := by intro h; rw [h] at hm; exact absurd hm (by decide)
  have hne80 : m ≠ 0x80#8 := by intro h; rw [h] at hm; exact absurd hm (by decide)
  unfold decompress
  split
  · exact clean_error (by decide) (by decide)
  · split
    · exact clean_ok _
    · rw [if_neg (fits _ hbig)]
      split
      · exact clean_ok _
      · exact clean_liftCodec _
      · exact clean_bzip2 _ _ _
      · exact clean_lzma _ _ _
      · exact clean_sparse _ _
      · exact clean_implode _ _ _
      · exact clean_pkware _ _ _
      · exact clean_huffman _ _
      · rename_i h; exact absurd h hmono
      · rename_i h; exact absurd h hstereo
      · rename_i flags hfl
        have : flags = m := by
          unfold Method.fromFlags at hfl
          repeat' split at hfl
          all_goals first | (injection hfl with hfl; exact hfl.symm) | cases hfl
        subst this
        unfold decompressMultiple
        split
        · exact clean_error (by decide) (by decide)
        · dsimp only
          rw [h40, h80]
          simp only [Bool.false_eq_true, if_false, hne40, hne80]
          repeat' first
            | exact clean_ok _
            | exact clean_huffman _ _
            | exact clean_liftCodec _
            | exact clean_bzip2 _ _ _
            | exact clean_sparse _ _
            | exact clean_implode _ _ _
            | exact clean_pkware _ _ _
            | refine clean_ite (fun _ => ?_) (fun _ => ?_)
            | refine clean_bind ?_ fun _ _ => ?_

end Mopaq
