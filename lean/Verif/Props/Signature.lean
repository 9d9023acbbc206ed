import Verif.Lemmas.Signature

/-!
# Digital signatures

The digests and the public keys are arbitrary unless a theorem says otherwise.
-/

namespace Mopaq

/-! ## C39 -/

/-- C39: hashing for a weak signature. Whatever number of bytes each read delivers, the digest is that of the archive
range with the signature file replaced by zeros; the only other outcome is the I/O error of a read that failed. -/
theorem C39_hashing_independent_of_reads (md5 : Md5) (sched : Reads) (f : List Byte)
    (archiveStart archiveSize sigPos sigSize : Nat) (info : SignatureInfo)
    (hinfo : newWeak archiveStart archiveSize sigPos sigSize = .ok info) :
    ((∀ k, sched k ≠ none) → calculateMpqHashMd5 md5 sched f info =
        .ok (md5 (Spec.maskedRange f archiveStart (archiveStart + archiveSize) sigPos (sigPos + sigSize)))) ∧
      (calculateMpqHashMd5 md5 sched f info =
          .ok (md5 (Spec.maskedRange f archiveStart (archiveStart + archiveSize) sigPos (sigPos + sigSize))) ∨
        calculateMpqHashMd5 md5 sched f info = .error .io) := by
  have hi : info = ⟨archiveStart, sigPos, sigPos + sigSize, archiveStart + archiveSize⟩ := by
    unfold newWeak addChecked at hinfo
    split at hinfo
    · split at hinfo
      · exact (Except.ok.inj hinfo).symm
      · cases hinfo
    · cases hinfo
  have key := mpqHashLoop_spec sched f info (by rw [hi]; simp) archiveStart (info.endMpqData - info.beginMpqData + 1) 0
    archiveStart (Nat.le_refl _) (by rw [hi]; simp) (by omega)
  have hnil : ((masked info f).take archiveStart).drop archiveStart = [] := List.drop_eq_nil_of_le (by simp; omega)
  have hb : info.beginMpqData = archiveStart := by rw [hi]
  have hm : ((masked info f).take info.endMpqData).drop archiveStart =
      Spec.maskedRange f archiveStart (archiveStart + archiveSize) sigPos (sigPos + sigSize) := by rw [hi]; rfl
  rw [hnil, hm] at key
  unfold calculateMpqHashMd5
  rw [hb]
  rw [hb] at key
  rcases key with h | ⟨⟨j, _, hj⟩, h⟩
  · rw [h]; exact ⟨fun _ => rfl, .inl rfl⟩
  · exact ⟨fun hn => absurd hj (hn j), .inr (by rw [h]; rfl)⟩

/-- One byte per read, and everything at once: the same digest. The signature bytes are zeroed. -/
example : ∀ sched ∈ [(fun _ => some 1 : Reads), fun _ => some 1000, fun k => some (k + 2)],
    (newWeak 1 6 3 2 >>= calculateMpqHashMd5 id sched [1#8, 2#8, 3#8, 4#8, 5#8, 6#8, 7#8, 8#8]) =
      .ok [2#8, 3#8, 0#8, 0#8, 6#8, 7#8] := by
  decide +kernel

/-! ## C38 -/

theorem strongBlock_check (d h : List Byte) (hh : h.length = 20) :
    verifyStrongPadding d h = .ok true ↔ d = Spec.strongBlock h := by
  unfold verifyStrongPadding Spec.strongBlock
  constructor
  · intro hv
    split at hv
    · cases hv
    · rename_i hl
      split at hv
      · cases hv
      · rename_i h0
        split at hv
        · cases hv
        · rename_i ha
          split at hv
          · cases hv
          · rename_i hs
            have hl' : d.length = 256 := Decidable.of_not_not hl
            have h0' : d[0]? = some 0x0B#8 := Decidable.of_not_not h0
            have hs' : slice d 236 20 = h := Decidable.of_not_not hs
            cases d with
            | nil => simp at hl'
            | cons b d =>
              simp at h0'
              subst h0'
              rw [List.cons_append]
              congr 1
              have hd : d = d.take 235 ++ d.drop 235 := (List.take_append_drop 235 d).symm
              rw [hd]
              congr 1
              · apply List.eq_replicate_iff.2
                refine ⟨by simp at hl' ⊢; omega, ?_⟩
                intro b hb
                have : ((11#8 :: d).take 236).drop 1 = d.take 235 := by simp
                rw [this] at ha
                simp only [List.any_eq_true, not_exists, not_and, bne_iff_ne, ne_eq, Decidable.not_not] at ha
                exact ha b hb
              · rw [← hs']
                unfold slice
                have : (11#8 :: d).drop 236 = d.drop 235 := by simp
                rw [this, List.take_of_length_le (by simp at hl' ⊢; omega)]
  · intro hd
    generalize hr : List.replicate 235 0xBB#8 = r at hd
    have hrl : r.length = 235 := by rw [← hr]; exact List.length_replicate
    have hl : d.length = 256 := by rw [hd]; simp [hh, hrl]
    have h1 : slice d 236 20 = h := by
      have := slice_mid (0x0B#8 :: r) h []
      rw [List.append_nil, hh, List.length_cons, hrl] at this
      rw [hd]
      exact this
    have h2 : ((d.take 236).drop 1) = r := by
      rw [hd, List.take_left' (by simp [hrl])]; rfl
    have h3 : r.any (· != 0xBB#8) = false := by
      rw [List.any_eq_false]
      intro b hb
      rw [← hr] at hb
      simp [List.eq_of_mem_replicate hb]
    rw [if_neg (by omega), if_neg (by rw [hd]; simp), h2, h1, h3]
    rw [if_neg (by simp), if_neg (by simp)]

theorem decrypt_eq_strongBlock (key : PublicKey) (signature h : List Byte) :
    decryptSignature key signature = Spec.strongBlock h ↔
      Spec.beNumber signature.reverse ^ key.e % key.n = Spec.beNumber (Spec.strongBlock h) := by
  unfold decryptSignature
  rw [modpow_eq, beNat_eq]
  constructor
  · intro hd
    rw [← hd, ← beNat_eq (toBytesBe _), toBytesBe_value]
  · intro hd
    rw [hd, ← beNat_eq]
    exact toBytesBe_beNat _ 0x0B#8 _ rfl (by decide)

/-- What `verify_strong_signature` reads is the range it is asked for; a failing read is an I/O error. -/
theorem verifyStrong_eq (sha1 : Sha1) (key : PublicKey) (sched : Reads) (f : List Byte) (pos : Nat) (signature : List Byte)
    (size : Nat) :
    verifyStrong sha1 key sched f pos signature size =
        verifyStrongPadding (decryptSignature key signature) (sha1 (slice f pos size)) ∨
      (∃ j, sched j = none) ∧ verifyStrong sha1 key sched f pos signature size = .error .io := by
  have h := rangeLoop_spec sched f pos size (size + 1) 0 0 (by omega) (by omega)
  simp only [Nat.add_zero, show slice f pos 0 = [] by simp [slice]] at h
  unfold verifyStrong
  rcases h with h | ⟨⟨j, _, hj⟩, h⟩
  · left; rw [h]; rfl
  · right; exact ⟨⟨j, hj⟩, by rw [h]; rfl⟩

/-- C38: a strong signature is accepted exactly if its RSA value is the block of 0x0B, 235 bytes 0xBB and the SHA-1 digest
of the archive range. This holds for every key and however the range is read; only a failing read can keep a good
signature from being accepted. -/
theorem C38_strong_signature_exact (sha1 : Sha1) (hsha : ∀ x, (sha1 x).length = 20) (key : PublicKey) (sched : Reads)
    (f : List Byte) (pos : Nat) (signature : List Byte) (size : Nat) :
    (verifyStrong sha1 key sched f pos signature size = .ok true →
      Spec.beNumber signature.reverse ^ key.e % key.n =
        Spec.beNumber (Spec.strongBlock (sha1 ((f.drop pos).take size)))) ∧
    ((∀ k, sched k ≠ none) →
      Spec.beNumber signature.reverse ^ key.e % key.n =
        Spec.beNumber (Spec.strongBlock (sha1 ((f.drop pos).take size))) →
      verifyStrong sha1 key sched f pos signature size = .ok true) := by
  rw [← decrypt_eq_strongBlock, ← strongBlock_check _ _ (hsha _)]
  change (_ → verifyStrongPadding _ (sha1 (slice f pos size)) = _) ∧ (_ → verifyStrongPadding _ (sha1 (slice f pos size)) = _ → _)
  rcases verifyStrong_eq sha1 key sched f pos signature size with h | ⟨⟨j, hj⟩, h⟩
  · rw [h]; exact ⟨id, fun _ => id⟩
  · rw [h]; exact ⟨nofun, fun hn => absurd hj (hn j)⟩

/-- A key for examples: with exponent 1 the signature is the block itself, least significant byte first. -/
def plainKey : PublicKey where
  n := 256 ^ 256
  e := 1

example : verifyStrong (fun x => (x ++ List.replicate 20 7#8).take 20) plainKey (fun _ => some 3) (List.replicate 50 1#8) 2
    (Spec.strongBlock (List.replicate 5 1#8 ++ List.replicate 15 7#8)).reverse 5 = .ok true := by
  apply (C38_strong_signature_exact _ (by simp) _ _ _ _ _ _).2 (by simp)
  decide +kernel

/-! ## C37 -/

theorem findSeparator_some : ∀ (l : List Byte) (i j : Nat), findSeparator i l = .ok (some j) →
    ∃ n, j = i + n ∧ n < l.length ∧ l = List.replicate n 0xFF#8 ++ 0#8 :: l.drop (n + 1)
  | [], i, j, h => by cases h
  | b :: l, i, j, h => by
    rw [findSeparator] at h
    split at h
    · rename_i hb
      cases h
      exact ⟨0, rfl, by simp, by simp [hb]⟩
    · split at h
      · cases h
      · rename_i hb
        obtain ⟨n, hn, hl, he⟩ := findSeparator_some l (i + 1) j h
        refine ⟨n + 1, by omega, by simp; omega, ?_⟩
        rw [List.replicate_succ, List.cons_append, Decidable.of_not_not hb, List.drop_succ_cons, ← he]

theorem findSeparator_replicate (rest : List Byte) : ∀ (n i : Nat),
    findSeparator i (List.replicate n 0xFF#8 ++ 0#8 :: rest) = .ok (some (i + n))
  | 0, i => by simp [findSeparator]
  | n + 1, i => by
    rw [List.replicate_succ, List.cons_append, findSeparator, if_neg (by decide), if_neg (by simp),
      findSeparator_replicate rest n (i + 1)]
    simp; omega

theorem digestInfo_length : md5DigestInfo.length = 18 := by decide

/-- The padding check by itself is exact. -/
theorem weakBlock_check (d h : List Byte) :
    verifyPkcs1Md5 d h = .ok true ↔ 45 ≤ d.length ∧ d = Spec.weakBlock d.length h := by
  have hwb : Spec.weakBlock d.length h =
      [0x00#8, 0x01#8] ++ (List.replicate (d.length - 37) 0xFF#8 ++ 0x00#8 :: (md5DigestInfo ++ h)) := by
    simp [Spec.weakBlock, md5DigestInfo]
  constructor
  · intro hv
    unfold verifyPkcs1Md5 at hv
    split at hv
    · cases hv
    · rename_i hl
      split at hv
      · cases hv
      · rename_i h01
        simp only [not_or, Decidable.not_not, ne_eq] at h01
        obtain ⟨sep, hsep, hv⟩ := bind_eq_ok.1 hv
        cases sep with
        | none => cases hv
        | some j =>
          simp only [] at hv
          split at hv
          · cases hv
          · rename_i hend
            split at hv
            · cases hv
            · rename_i hdi
              have hend' : j + 1 + 18 + 16 = d.length := Decidable.of_not_not hend
              have hdi' : slice d (j + 1) 18 = md5DigestInfo := Decidable.of_not_not hdi
              have hhash : d.drop (j + 1 + 18) = h := by
                have := Except.ok.inj hv
                simpa using this
              obtain ⟨n, hj, hn, he⟩ := findSeparator_some _ _ _ hsep
              refine ⟨by omega, ?_⟩
              rw [hwb]
              match d, h01 with
              | [], h01 => simp at h01
              | [_], h01 => simp at h01
              | b0 :: b1 :: t, h01 =>
                simp only [List.getElem?_cons_zero, Option.some.injEq, List.getElem?_cons_succ] at h01
                simp only [List.drop_succ_cons, List.drop_zero, List.length_cons] at he hn hend'
                rw [h01.1, h01.2]
                simp only [List.cons_append, List.nil_append, List.length_cons]
                congr 2
                rw [he, show (List.replicate n 0xFF#8 ++ 0#8 :: t.drop (n + 1)).length = t.length by rw [← he]]
                have hnn : n = t.length + 1 + 1 - 37 := by omega
                rw [← hnn]
                congr 2
                have h1 : slice (b0 :: b1 :: t) (j + 1) 18 = (t.drop (n + 1)).take 18 := by
                  rw [slice, show j + 1 = (n + 1) + 1 + 1 by omega, List.drop_succ_cons, List.drop_succ_cons]
                have h2 : (b0 :: b1 :: t).drop (j + 1 + 18) = (t.drop (n + 1)).drop 18 := by
                  rw [show j + 1 + 18 = (n + 1 + 18) + 1 + 1 by omega, List.drop_succ_cons, List.drop_succ_cons, List.drop_drop]
                rw [← hdi', h1, ← hhash, h2, List.take_append_drop]
  · rintro ⟨hl, hd⟩
    rw [hwb] at hd
    unfold verifyPkcs1Md5
    rw [if_neg (by omega)]
    have h0 : d[0]? = some 0#8 := by rw [hd]; rfl
    have h1 : d[1]? = some 1#8 := by rw [hd]; rfl
    have h2 : d.drop 2 = List.replicate (d.length - 37) 0xFF#8 ++ 0x00#8 :: (md5DigestInfo ++ h) := by
      conv => lhs; rw [hd]
      rfl
    rw [if_neg (by simp [h0, h1]), h2, findSeparator_replicate]
    simp only [bind, Except.bind]
    rw [if_neg (by omega)]
    have hdrop : d.drop (2 + (d.length - 37) + 1) = md5DigestInfo ++ h := by
      rw [show 2 + (d.length - 37) + 1 = 2 + ((d.length - 37) + 1) by omega, ← List.drop_drop, h2,
        List.drop_append, List.drop_eq_nil_of_le (by simp)]
      simp
    have h3 : slice d (2 + (d.length - 37) + 1) 18 = md5DigestInfo := by
      rw [slice, hdrop, List.take_left' digestInfo_length]
    have h4 : d.drop (2 + (d.length - 37) + 1 + 18) = h := by
      rw [← List.drop_drop, hdrop, List.drop_left' digestInfo_length]
    rw [if_neg (by rw [h3]; simp), h4]
    simp [pure, Except.pure]

theorem decrypt_not_block (key : PublicKey) (signature h : List Byte) :
    verifyPkcs1Md5 (decryptSignature key signature) h = .ok false := by
  unfold verifyPkcs1Md5
  split
  · rfl
  · rename_i hl
    rw [if_pos]
    left
    exact toBytesBe_head _ (by unfold decryptSignature at hl; omega)

/-- C37 is false: no weak signature is ever accepted. The big-endian bytes of the decrypted number are taken without
leading zeros, while the padding check asks for the leading zero of the block. So the answer is "invalid" for every key,
signature and archive, unless a read fails (which is an error here and reported as "invalid" as well). -/
theorem C37_no_weak_signature_accepted (md5 : Md5) (key : PublicKey) (sched : Reads) (f signature : List Byte)
    (archiveStart archiveSize sigPos sigSize : Nat) (info : SignatureInfo)
    (hinfo : newWeak archiveStart archiveSize sigPos sigSize = .ok info) :
    verifyWeakStormlib md5 key sched f signature info = .ok false ∨
      verifyWeakStormlib md5 key sched f signature info = .error .io := by
  unfold verifyWeakStormlib
  rcases (C39_hashing_independent_of_reads md5 sched f _ _ _ _ info hinfo).2 with h | h
  · rw [h]; left; exact decrypt_not_block _ _ _
  · rw [h]; right; rfl

/-- The same at the API: `verify_signature` never reports a valid weak signature. -/
theorem C37_never_weak_valid (e : Env) (s : SigEnv) (a : Archive) : a.verifySignature e s ≠ .ok .weakValid := by
  have hw : a.verifyWeakSignature e s ≠ .ok .weakValid := by
    intro h
    unfold Archive.verifyWeakSignature at h
    obtain ⟨found, _, h⟩ := bind_eq_ok.1 h
    cases found with
    | none => cases h
    | some info =>
      obtain ⟨data, _, h⟩ := bind_eq_ok.1 h
      obtain ⟨p, _, h⟩ := bind_eq_ok.1 h
      cases p with
      | none => cases h
      | some weakSig =>
        obtain ⟨sigInfo, hs, h⟩ := bind_eq_ok.1 h
        rcases C37_no_weak_signature_accepted s.md5 s.weakKey s.reads a.file weakSig _ _ _ _ sigInfo hs with h1 | h1
        · rw [h1] at h; cases h
        · rw [h1] at h; cases h
  have hst : a.verifyStrongSignature s ≠ .ok .weakValid := by
    intro h
    unfold Archive.verifyStrongSignature at h
    obtain ⟨_, _, h⟩ := bind_eq_ok.1 h
    obtain ⟨_, _, h⟩ := bind_eq_ok.1 h
    split at h
    · cases h
    · obtain ⟨p, _, h⟩ := bind_eq_ok.1 h
      cases p with
      | none => cases h
      | some data =>
        obtain ⟨p, _, h⟩ := bind_eq_ok.1 h
        cases p with
        | none => cases h
        | some sig =>
          obtain ⟨p, _, h⟩ := bind_eq_ok.1 h
          split at h <;> cases h
  intro h
  unfold Archive.verifySignature at h
  obtain ⟨p, hp, h⟩ := bind_eq_ok.1 h
  cases p with
  | none => exact hw h
  | some status =>
    simp only [] at h
    split at h
    · cases h
      apply hst
      unfold tolerate at hp
      split at hp
      · rename_i heq; rw [heq]; cases hp; rfl
      all_goals cases hp
    · exact hw h

/-- C37, the part that holds: the padding check itself accepts exactly the block that PKCS#1 v1.5 prescribes for the
digest. What is missing is that the block reaches it with its leading zero. -/
theorem C37_padding_check_exact_partial (block digest : List Byte) :
    verifyPkcs1Md5 block digest = .ok true ↔ 45 ≤ block.length ∧ block = Spec.weakBlock block.length digest :=
  weakBlock_check block digest

example : verifyPkcs1Md5 (Spec.weakBlock 64 (List.replicate 16 5#8)) (List.replicate 16 5#8) = .ok true := by
  rw [C37_padding_check_exact_partial]
  decide +kernel

/-- A correct signature under the key of the code, for an archive whose MD5 digest is zero. -/
def goodSignature : List Byte :=
  [0x68, 0x44, 0x11, 0x56, 0xe5, 0xc8, 0x71, 0x3d, 0x9a, 0x96, 0xcf, 0xed, 0x9f, 0x5a, 0x86, 0x38,
   0x11, 0xcf, 0x60, 0xdd, 0xa9, 0x5f, 0xbe, 0x4c, 0x39, 0xeb, 0x76, 0x2d, 0xc1, 0x2a, 0x94, 0xea,
   0x33, 0x39, 0xdf, 0xf8, 0xff, 0xee, 0xfb, 0x0a, 0x5d, 0xa4, 0x92, 0x34, 0xee, 0x4a, 0xaa, 0xb5,
   0xaf, 0xa3, 0xb2, 0x02, 0x83, 0xa8, 0x45, 0x45, 0x02, 0xe9, 0xa9, 0x11, 0x6a, 0x81, 0xf4, 0x5e]

/-- A correctly signed archive is rejected: the RSA value of the signature under the public key of the code is the
prescribed block for the digest of the archive, and the answer is "invalid". -/
theorem C37_correct_signature_rejected :
    Spec.beNumber goodSignature.reverse ^ weakKey.e % weakKey.n = Spec.beNumber (Spec.weakBlock 64 (List.replicate 16 0#8)) ∧
    ∀ (f : List Byte) (info : SignatureInfo), newWeak 0 f.length 0 0 = .ok info →
      verifyWeakStormlib (fun _ => List.replicate 16 0#8) weakKey (fun _ => some 65536) f goodSignature info = .ok false := by
  refine ⟨?_, ?_⟩
  · rw [← beNat_eq, ← modpow_eq]
    decide +kernel
  · intro f info hinfo
    generalize weakKey = key
    unfold verifyWeakStormlib
    rw [(C39_hashing_independent_of_reads _ _ f _ _ _ _ info hinfo).1 (by simp)]
    exact decrypt_not_block _ _ _

/-! ## C47 -/

theorem parseStrong_some (f : List Byte) (last : Nat) (hl : last + 260 ≤ f.length) :
    (Spec.strongPresent f last → parseStrongSignature (slice f last 260) = .ok (slice f (last + 4) 256)) ∧
    (¬ Spec.strongPresent f last → parseStrongSignature (slice f last 260) = .error .invalidFormat) := by
  have hlen : (slice f last 260).length = 260 := slice_length _ _ _ hl
  have h1 : slice (slice f last 260) 0 4 = (f.drop last).take 4 := by
    simp [slice, List.take_take]
  have h2 : slice (slice f last 260) 4 256 = slice f (last + 4) 256 := by
    simp [slice, List.drop_take, List.take_take]
  unfold parseStrongSignature Spec.strongPresent
  rw [h1, h2, hlen, if_neg (by omega)]
  refine ⟨?_, ?_⟩
  · rintro ⟨_, hm, b, hb, hb0⟩
    rw [if_neg (by simpa using hm), if_neg]
    intro hall
    rw [List.all_eq_true] at hall
    exact hb0 (by simpa using hall b hb)
  · intro hn
    split
    · rfl
    · rename_i hm
      rw [if_pos]
      rw [List.all_eq_true]
      intro b hb
      by_cases hb0 : b = 0#8
      · simp [hb0]
      · exact absurd ⟨hl, Decidable.of_not_not hm, b, hb, hb0⟩ hn

/-- The strong status, spelled out. -/
theorem strong_status (s : SigEnv) (a : Archive)
    (hend : a.archiveOffset + a.header.getArchiveSize.toNat + 260 < 2 ^ 64) :
    (¬ Spec.strongPresent a.file (a.archiveOffset + a.header.getArchiveSize.toNat) →
      a.verifyStrongSignature s = .ok .none) ∧
    (Spec.strongPresent a.file (a.archiveOffset + a.header.getArchiveSize.toNat) →
      a.verifyStrongSignature s =
        if verifyStrong s.sha1 s.strongKey s.reads a.file a.archiveOffset
            (slice a.file (a.archiveOffset + a.header.getArchiveSize.toNat + 4) 256) a.header.getArchiveSize.toNat = .ok true
        then .ok .strongValid else .ok .strongInvalid) := by
  generalize hlast : a.archiveOffset + a.header.getArchiveSize.toNat = last at hend ⊢
  unfold Archive.verifyStrongSignature addChecked
  rw [hlast, if_pos (by omega)]
  simp only [bind, Except.bind]
  rw [if_pos hend]
  simp only []
  by_cases hl : a.file.length < last + 260
  · rw [if_pos hl]
    exact ⟨fun _ => rfl, fun hp => absurd hp.1 (by omega)⟩
  · rw [if_neg hl, readAt_ok (by omega)]
    have hp := parseStrong_some a.file last (by omega)
    refine ⟨fun hn => ?_, fun hy => ?_⟩
    · simp only [tolerate, hp.2 hn]; rfl
    · simp only [tolerate, hp.1 hy]
      rw [show last - a.archiveOffset = a.header.getArchiveSize.toNat by omega]
      have hpad : ∀ d x, verifyStrongPadding d x = .ok true ∨ verifyStrongPadding d x = .ok false := by
        intro d x
        unfold verifyStrongPadding
        repeat' split
        all_goals first | exact .inl rfl | exact .inr rfl
      rcases verifyStrong_eq s.sha1 s.strongKey s.reads a.file a.archiveOffset (slice a.file (last + 4) 256)
        a.header.getArchiveSize.toNat with h | ⟨_, h⟩
      · rcases hpad (decryptSignature s.strongKey (slice a.file (last + 4) 256))
          (s.sha1 (slice a.file a.archiveOffset a.header.getArchiveSize.toNat)) with hh | hh
        · rw [h, hh]; rfl
        · rw [h, hh]; rfl
      · rw [h]; rfl

/-- C38 at the API: `verify_signature` reports a valid strong signature exactly if one follows the archive and its RSA
value is the block of 0x0B, 235 bytes 0xBB and the SHA-1 digest of the archive, as long as no read fails. -/
theorem C38_strong_valid_iff (e : Env) (s : SigEnv) (a : Archive) (hsha : ∀ x, (s.sha1 x).length = 20)
    (hreads : ∀ k, s.reads k ≠ none) (hend : a.archiveOffset + a.header.getArchiveSize.toNat + 260 < 2 ^ 64) :
    a.verifySignature e s = .ok .strongValid ↔
      Spec.strongPresent a.file (a.archiveOffset + a.header.getArchiveSize.toNat) ∧
      Spec.strongValue a.file (a.archiveOffset + a.header.getArchiveSize.toNat) ^ s.strongKey.e % s.strongKey.n =
        Spec.beNumber (Spec.strongBlock (s.sha1 ((a.file.drop a.archiveOffset).take a.header.getArchiveSize.toNat))) := by
  have hw : a.verifyWeakSignature e s ≠ .ok .strongValid := by
    intro h
    unfold Archive.verifyWeakSignature at h
    obtain ⟨found, _, h⟩ := bind_eq_ok.1 h
    cases found with
    | none => cases h
    | some info =>
      obtain ⟨data, _, h⟩ := bind_eq_ok.1 h
      obtain ⟨p, _, h⟩ := bind_eq_ok.1 h
      cases p with
      | none => cases h
      | some weakSig =>
        obtain ⟨sigInfo, hs, h⟩ := bind_eq_ok.1 h
        obtain ⟨v, _, h⟩ := bind_eq_ok.1 h
        split at h <;> cases h
  have hst := strong_status s a hend
  have hex := C38_strong_signature_exact s.sha1 hsha s.strongKey s.reads a.file a.archiveOffset
    (slice a.file (a.archiveOffset + a.header.getArchiveSize.toNat + 4) 256) a.header.getArchiveSize.toNat
  unfold Archive.verifySignature
  by_cases hp : Spec.strongPresent a.file (a.archiveOffset + a.header.getArchiveSize.toNat)
  · rw [hst.2 hp]
    split
    · rename_i hv
      exact ⟨fun _ => ⟨hp, hex.1 hv⟩, fun _ => rfl⟩
    · rename_i hv
      refine ⟨(fun h => by cases h), fun h => absurd (hex.2 hreads h.2) hv⟩
  · rw [hst.1 hp]
    exact ⟨fun h => absurd h hw, fun h => absurd h.1 hp⟩

/-- C47: which signature decides. If a strong signature follows the archive, the status is that of the strong signature.
Otherwise, without a signature file the status is "none"; with one whose content holds no weak signature it is "none" as
well; and with a weak signature it is "weak, invalid" (never valid, see C37). The archive must not state a size so large
that the end of a signature cannot be addressed. -/
theorem C47_precedence_partial (e : Env) (s : SigEnv) (a : Archive)
    (hend : a.archiveOffset + a.header.getArchiveSize.toNat + 260 < 2 ^ 64) :
    (Spec.strongPresent a.file (a.archiveOffset + a.header.getArchiveSize.toNat) →
      a.verifySignature e s = .ok .strongValid ∨ a.verifySignature e s = .ok .strongInvalid) ∧
    (¬ Spec.strongPresent a.file (a.archiveOffset + a.header.getArchiveSize.toNat) →
      a.findFile signatureName = .ok none → a.verifySignature e s = .ok .none) ∧
    (¬ Spec.strongPresent a.file (a.archiveOffset + a.header.getArchiveSize.toNat) →
      ∀ info content, a.findFile signatureName = .ok (some info) → a.readFile e signatureName = .ok content →
      (¬ Spec.weakPresent content → a.verifySignature e s = .ok .none) ∧
      (Spec.weakPresent content → a.archiveOffset + a.header.archiveSize.toNat < 2 ^ 64 →
        info.filePos + info.compressedSize < 2 ^ 64 → a.verifySignature e s = .ok .weakInvalid)) := by
  have hst := strong_status s a hend
  refine ⟨fun hp => ?_, fun hp hf => ?_, fun hp info content hf hr => ?_⟩
  · unfold Archive.verifySignature
    rw [hst.2 hp]
    split
    · exact .inl rfl
    · exact .inr rfl
  · unfold Archive.verifySignature
    rw [hst.1 hp]
    change a.verifyWeakSignature e s = _
    unfold Archive.verifyWeakSignature
    rw [hf]; rfl
  · have hvs : a.verifySignature e s = a.verifyWeakSignature e s := by
      unfold Archive.verifySignature
      rw [hst.1 hp]; rfl
    rw [hvs]
    unfold Archive.verifyWeakSignature
    rw [hf, hr]
    simp only [bind, Except.bind]
    have hpw : (Spec.weakPresent content → parseWeakSignature content = .ok (slice content 8 64)) ∧
        (¬ Spec.weakPresent content → parseWeakSignature content = .error .invalidFormat) := by
      unfold Spec.weakPresent parseWeakSignature
      refine ⟨?_, ?_⟩
      · rintro ⟨hl, b, hb, hb0⟩
        rw [if_neg (by omega), if_neg]
        intro hall
        rw [List.all_eq_true] at hall
        exact hb0 (by simpa using hall b hb)
      · intro hn
        split
        · rfl
        · rw [if_pos]
          rw [List.all_eq_true]
          intro b hb
          by_cases hb0 : b = 0#8
          · simp [hb0]
          · exact absurd ⟨by omega, b, hb, hb0⟩ hn
    refine ⟨fun hn => ?_, fun hy h1 h2 => ?_⟩
    · rw [hpw.2 hn]; rfl
    · rw [hpw.1 hy]
      simp only [tolerate]
      have hnw : ∃ i, newWeak a.archiveOffset a.header.archiveSize.toNat info.filePos info.compressedSize = .ok i := by
        unfold newWeak addChecked
        rw [if_pos h2, if_pos h1]
        exact ⟨_, rfl⟩
      obtain ⟨i, hi⟩ := hnw
      rw [hi]
      simp only []
      rcases C37_no_weak_signature_accepted s.md5 s.weakKey s.reads a.file (slice content 8 64) _ _ _ _ i hi with h | h
      · rw [h]; rfl
      · rw [h]; rfl

/-- C47, the case excluded above: an archive that states such a size makes `verify_signature` panic. -/
theorem C47_huge_size_panics (e : Env) (s : SigEnv) (a : Archive)
    (hend : 2 ^ 64 ≤ a.archiveOffset + a.header.getArchiveSize.toNat + 260) :
    a.verifySignature e s = .error .panic := by
  unfold Archive.verifySignature Archive.verifyStrongSignature addChecked
  split
  · simp only [bind, Except.bind]
    rw [if_neg (by omega)]; rfl
  · rfl

/-- A signed archive for examples: the bytes, and what the header states. -/
def signedArchive (file : List Byte) (size : U32) (size64 : Option U64) : Archive where
  file := file
  archiveOffset := 0
  userData := none
  header :=
    { headerSize := 32, archiveSize := size, formatVersion := .v1, blockSize := 3, hashTablePos := 32, blockTablePos := 32,
      hashTableSize := 0, blockTableSize := 0, hiBlockTablePos := none, hashTablePosHi := none, blockTablePosHi := none,
      archiveSize64 := size64, betTablePos := none, hetTablePos := none, v4Data := none }
  hashTable := some []
  blockTable := some []
  hiBlockTable := none
  hetTable := none
  betTable := none
  attributes := none

/-- Ten bytes of archive, then a signature with nonzero bytes. -/
example : Spec.strongPresent (List.replicate 10 1#8 ++ [0x4E#8, 0x47#8, 0x49#8, 0x53#8] ++ List.replicate 256 9#8) 10 := by
  refine ⟨by decide +kernel, by decide +kernel, 9#8, by decide +kernel, by decide⟩

/-- A signature that is the right block under `plainKey`: valid. -/
example (e : Env) :
    (signedArchive (List.replicate 10 1#8 ++ [0x4E#8, 0x47#8, 0x49#8, 0x53#8] ++
      (Spec.strongBlock (List.replicate 20 1#8)).reverse) 10 none).verifySignature e
      { md5 := id, sha1 := fun x => (x ++ x ++ List.replicate 20 7#8).take 20, weakKey := weakKey, strongKey := plainKey,
        reads := fun _ => some 3 } = .ok .strongValid := by
  rw [C38_strong_valid_iff _ _ _ (by simp; omega) (by simp) (by decide +kernel)]
  refine ⟨⟨by decide +kernel, by decide +kernel, 0x0B#8, by decide +kernel, by decide⟩, ?_⟩
  decide +kernel

/-- The size that makes it panic. -/
example (e : Env) (s : SigEnv) : (signedArchive [] 0 (some (BitVec.ofNat 64 (2 ^ 64 - 1)))).verifySignature e s = .error .panic :=
  C47_huge_size_panics e s _ (by decide)

end Mopaq
