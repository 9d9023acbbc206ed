import Verif.Model.Info
import Verif.Props.Builder
import Verif.Props.Attributes

/-!
# C62: archives with an attributes file
-/

namespace Mopaq

variable {e : Env} {md5 : Md5} {b : Builder} {f : List Byte}

/-- The content does not look like a compressed attributes file: it is too short for it, starts like an uncompressed one,
or its first byte names none of the four low compression methods. -/
def PlainAttributes (data : List Byte) : Prop :=
  data.length < 4 ∨ Spec.byteAt data 0 = 100 ∨ Spec.byteAt data 0 % 16 = 0

instance (data : List Byte) : Decidable (PlainAttributes data) := by unfold PlainAttributes; infer_instance

/-- `x` is what the content `data` of an attributes file stands for in an archive of `count` files: content that looks
compressed is decompressed once more, unless that fails. -/
def AttributesContent (e : Env) (count : Nat) (data x : List Byte) : Prop :=
  (PlainAttributes data ∧ x = data) ∨
  (¬ PlainAttributes data ∧ ∃ m rest, data = m :: rest ∧
    (decompress e.codecs rest m (count * 100) = .ok x ∨
     x = data ∧ ∃ err, decompress e.codecs rest m (count * 100) = .error err ∧ err ≠ .panic ∧ err ≠ .diverge))

theorem low_nibble (m : Byte) : m &&& 0x0F#8 = 0#8 ↔ m.toNat % 16 = 0 := by
  constructor
  · intro h
    have := congrArg BitVec.toNat h
    rw [BitVec.toNat_and, show (0x0F#8).toNat = 2 ^ 4 - 1 from rfl, Nat.and_two_pow_sub_one_eq_mod] at this
    simpa using this
  · intro h
    apply BitVec.eq_of_toNat_eq
    rw [BitVec.toNat_and, show (0x0F#8).toNat = 2 ^ 4 - 1 from rfl, Nat.and_two_pow_sub_one_eq_mod]
    simpa using h

theorem unwrapAttributes_content {count : Nat} {data x : List Byte} (h : AttributesContent e count data x) :
    unwrapAttributes e data count = .ok x := by
  match data with
  | [] => rcases h with ⟨_, rfl⟩ | ⟨hn, _⟩; rfl; exact absurd (Or.inl (by simp)) hn
  | [_] => rcases h with ⟨_, rfl⟩ | ⟨hn, _⟩; rfl; exact absurd (Or.inl (by simp)) hn
  | [_, _] => rcases h with ⟨_, rfl⟩ | ⟨hn, _⟩; rfl; exact absurd (Or.inl (by simp)) hn
  | [_, _, _] => rcases h with ⟨_, rfl⟩ | ⟨hn, _⟩; rfl; exact absurd (Or.inl (by simp)) hn
  | b0 :: b1 :: b2 :: b3 :: rest =>
    have hb0 : Spec.byteAt (b0 :: b1 :: b2 :: b3 :: rest) 0 = b0.toNat := rfl
    have h64 : b0 = 0x64#8 ↔ b0.toNat = 100 := ⟨fun h => by rw [h]; rfl, fun h => BitVec.eq_of_toNat_eq h⟩
    rcases h with ⟨hp, rfl⟩ | ⟨hn, m, r, hd, hx⟩
    · unfold unwrapAttributes
      simp only
      rcases hp with hp | hp | hp
      · simp only [List.length_cons] at hp; omega
      · rw [hb0] at hp
        rw [if_neg (by simp [h64.2 hp])]
      · rw [hb0] at hp
        split
        · rw [if_neg]
          have h2 : b0 ≠ 2#8 := by rintro rfl; cases hp
          simp [(low_nibble b0).2 hp, h2]
        · rfl
    · injection hd with h1 h2
      subst h1 h2
      unfold PlainAttributes at hn
      rw [hb0] at hn
      have hn1 : ¬ b0.toNat = 100 := fun h => hn (.inr (.inl h))
      have hn2 : ¬ b0.toNat % 16 = 0 := fun h => hn (.inr (.inr h))
      have hn3 : ¬ b0 = 0x64#8 := fun h => hn1 (h64.1 h)
      have hn4 : ¬ b0 &&& 0x0F#8 = 0#8 := fun h => hn2 ((low_nibble b0).1 h)
      have hv : ofLe32 [b0, b1, b2, b3] ≠ 100#32 := by
        intro hv
        have := congrArg BitVec.toNat hv
        have h' := ofLe32_slice (b0 :: b1 :: b2 :: b3 :: rest) 0 (by simp)
        rw [show slice (b0 :: b1 :: b2 :: b3 :: rest) 0 4 = [b0, b1, b2, b3] from rfl, this] at h'
        have e0 : Spec.numAt 4 (b0 :: b1 :: b2 :: b3 :: rest) 0 =
            b0.toNat + 256 * Spec.numAt 3 (b0 :: b1 :: b2 :: b3 :: rest) 1 := rfl
        rw [e0] at h'
        have hlt := b0.isLt
        have h100 : (100#32).toNat = 100 := rfl
        omega
      unfold unwrapAttributes
      simp only
      rw [if_pos (by simp [hv, hn3]), if_pos (by simp [hn4])]
      rcases hx with hx | ⟨rfl, err, hx, h1, h2⟩
      · rw [hx]; rfl
      · rw [hx]
        cases err <;> first | rfl | exact absurd rfl h1 | exact absurd rfl h2

/-- The content of an attributes file that is accepted for `count` files: version 100 and long enough for the tables it
announces. -/
def AcceptedAttributes (x : List Byte) (count : Nat) : Prop :=
  8 ≤ x.length ∧ Spec.numAt 4 x 0 = 100 ∧ Spec.attributesLength (Spec.numAt 4 x 4) count ≤ x.length

instance (x : List Byte) (count : Nat) : Decidable (AcceptedAttributes x count) := by
  unfold AcceptedAttributes; infer_instance

/-- The archive file `f` was built from the files `pending`, file `k` of which, `p` with content `data`, is the first one named
"(attributes)", and was put between `before` and `after`; under the restrictions of C26. -/
structure BuiltWithAttributes (e : Env) (md5 : Md5) (b : Builder) (f : List Byte) (pending : List PendingFile)
    (before after : List Byte) (ss k : Nat) (p : PendingFile) (data : List Byte) : Prop where
  lawful : e.codecs.Lawful
  md5Length : ∀ x, (md5 x).length = 16
  built : buildBytes e md5 b = .ok f
  prepared : prepareListfile b = .ok pending
  classic : ClassicLookup e.codecs b pending
  aligned : before.length % 512 = 0
  clean : ∀ o < before.length, o % 512 = 0 → ¬ Spec.archiveMark (before ++ f ++ after) o ∧
    ¬ Spec.userDataMark (before ++ f ++ after) o
  short : f.length < addressable b.version
  fits : before.length + f.length < 2 ^ 64
  count : pending.length < 0xFFFFFFFE
  sizes : ∀ p ∈ pending, ∀ data, p.source = some data → data.length + data.length / 64 + 12 < 2 ^ 32
  names : NoCollision (pending.map (·.name))
  sector : sectorSizeOf b.blockSize = .ok ss
  attributes : pending[k]? = some p ∧ p.source = some data ∧
    Spec.sameName (attributesName.map BitVec.toNat) (p.name.map BitVec.toNat)
  first : ∀ j < k, ∀ q, pending[j]? = some q → ¬ Spec.sameName (attributesName.map BitVec.toNat) (q.name.map BitVec.toNat)

/-- The file can be recovered from the archive (C21, C22). -/
def CanRecover (e : Env) (ss : Nat) (p : PendingFile) (data : List Byte) : Prop :=
  (data.length ≤ ss ∨ Spec.LosslessMethod p.compression data) ∧ Recoverable e.codecs ss p.compression data

/-- C62: an archive into which a file "(attributes)" was put opens exactly when the content of that file is a valid
attributes file with a record for every file of the archive; then every file (the first added under its name) is read
back as without it, and its attributes are the ones recorded at its position. Otherwise the whole archive is refused with
a format error, although all its files are intact. Partial: the restrictions of C26, and the attributes file itself has
to be recoverable. -/
theorem C62_open_exactly_partial (pending : List PendingFile) (before after : List Byte) (ss k : Nat) (pk : PendingFile)
    (data : List Byte) (h : BuiltWithAttributes e md5 b f pending before after ss k pk data) (hcan : CanRecover e ss pk data)
    (x : List Byte) (hx : AttributesContent e pending.length data x) :
    (AcceptedAttributes x pending.length → ∃ a attrs, openArchive e (before ++ f ++ after) = .ok a ∧
      a.attributes = some attrs ∧ attrs.flags.toNat = Spec.numAt 4 x 4 ∧ attrs.files.length = pending.length ∧
      (∀ (i : Nat) (p : PendingFile) (name : List Byte), pending[i]? = some p →
        Spec.sameName (name.map BitVec.toNat) (p.name.map BitVec.toNat) →
        (∀ j < i, ∀ q, pending[j]? = some q → ¬ Spec.sameName (name.map BitVec.toNat) (q.name.map BitVec.toNat)) →
        (∃ info, a.findFile name = .ok (some info) ∧
          (a.fileAttributes info.blockIndex).map (·.view) = some (Spec.attributesOf x pending.length i)) ∧
        ∃ data, p.source = some data ∧
          (data.length ≤ ss ∨ Spec.LosslessMethod p.compression data →
            (a.readFile e name = .ok data ↔ Recoverable e.codecs ss p.compression data)) ∧
          (data.length ≤ ss → Spec.LosslessMethod p.compression data → a.readFile e name = .ok data)) ∧
      (∀ name, (∀ p ∈ pending, ¬ Spec.sameName (name.map BitVec.toNat) (p.name.map BitVec.toNat)) →
        NoCollision (name :: pending.map (·.name)) → a.readFile e name = .error .fileNotFound)) ∧
    (¬ AcceptedAttributes x pending.length → openArchive e (before ++ f ++ after) = .error .invalidFormat) := by
  obtain ⟨he, hmd, hb, hp, hext, hal, hclean, hlen, hfit, hcount, hsize, hc, hss, ⟨hk, hdata, hname⟩, hfirst⟩ := h
  obtain ⟨hor, hrec⟩ := hcan
  obtain ⟨L⟩ := layout_of_build hmd hb
  have hpe : L.pending = pending := by
    have := L.prepared
    rw [hp] at this
    injection this with this
    exact this.symm
  subst hpe
  have hse : L.sectorSize = ss := by
    have := L.sector
    rw [hss] at this
    injection this with this
    exact this.symm
  subst hse
  obtain ⟨het, bet, hhet, hbet, hfall⟩ := L.fallback hmd before after hlen hfit hext
  obtain ⟨a, ha, hht, hbt, hat, _, hopen⟩ := L.open hmd before after hal hclean hlen hfit hcount het bet hhet hbet
  have hread : a.readFile e attributesName = .ok data :=
    ((L.reads hmd ha hlen hfit hcount attributesName (hfall a ha hht hbt attributesName) hk hname hfirst hc data hdata
      (hsize pk (List.mem_of_getElem? hk) data hdata) he).1 hor).2 hrec
  have hblocks : (L.stored.map (·.block)).length = L.pending.length := by rw [List.length_map, L.placed.length]
  have h58 : (2 : Nat) ^ 58 = 288230376151711744 := rfl
  have hload : a.loadAttributes e = (parseAttributes x L.pending.length).map some := by
    unfold Archive.loadAttributes
    rw [hat, if_neg (by simp), hread]
    simp only [ha.block, pure, Except.pure, bind, Except.bind, hblocks, unwrapAttributes_content hx]
    cases parseAttributes x L.pending.length <;> rfl
  rw [hload] at hopen
  constructor
  · intro hacc
    obtain ⟨attrs, hattrs⟩ := (C36_accepts_exactly x L.pending.length (by omega)).1.2 hacc
    obtain ⟨_, hflags, hview⟩ := C36_values x L.pending.length attrs (by omega) hattrs
    rw [hattrs] at hopen
    have hfl : attrs.files.length = L.pending.length := by simpa using congrArg List.length hview
    have ha' : L.Opened before after { a with attributes := some attrs } :=
      ⟨ha.file, ha.offset, ha.header, ha.hash, ha.block, ha.his⟩
    have hfb' := hfall { a with attributes := some attrs } ha' hht hbt
    refine ⟨{ a with attributes := some attrs }, attrs, hopen, rfl, hflags, hfl, ?_, ?_⟩
    · intro i p name hp' hname' hfirst'
      constructor
      · have hmem : p.name ∈ L.pending.map (·.name) := List.mem_map.2 ⟨p, List.mem_of_getElem? hp', rfl⟩
        obtain ⟨s, hashIndex, pre, post, _, _, _, h4⟩ := L.find_some hmd ha' hlen hfit hcount hp' name hname' hfirst'
          (noCollision_respell hc hmem hname')
        have hfb := hfb' name
        unfold FallsBack at hfb
        rw [h4] at hfb
        refine ⟨_, hfb, ?_⟩
        have hi : i < L.pending.length := (List.getElem?_eq_some_iff.1 hp').1
        show (attrs.files[i]?).map FileAttributes.view = _
        rw [← List.getElem?_map, hview]
        simp [hi]
      · obtain ⟨s, _, _, _, _, _, hst⟩ := L.placed.get hp'
        obtain ⟨data', _, hdata', _⟩ := storeFile_ok hst
        refine ⟨data', hdata', ?_⟩
        exact L.reads hmd ha' hlen hfit hcount name (hfb' name) hp' hname' hfirst' hc data' hdata'
          (hsize p (List.mem_of_getElem? hp') data' hdata') he
    · intro name hnone hcn
      have hfn := L.find_none ha' hcount name hnone hcn
      rw [← hfb' name] at hfn
      unfold Archive.readFile
      rw [hfn]
      rfl
  · intro hacc
    rw [hopen]
    have := C36_accepts_exactly x L.pending.length (by omega)
    cases hpa : parseAttributes x L.pending.length with
    | ok v => exact absurd (this.1.1 ⟨v, hpa⟩) hacc
    | error err => rw [this.2 err hpa]; rfl

theorem Attributes.toBytes_length (a : Attributes) (hm : ∀ f ∈ a.files, ∀ d, f.md5 = some d → d.length = 16) :
    a.toBytes.length = Spec.attributesLength a.flags.toNat a.files.length := by
  have ldig : ∀ f ∈ a.files, (f.md5.getD (List.replicate 16 0)).length = 16 := by
    intro f hf
    cases hd : f.md5 with
    | none => simp
    | some d => simpa using hm f hf d hd
  have l1 := flatMap_length (fun f : FileAttributes => le32 (f.crc32.getD 0)) 4 a.files (fun f _ => le32_length _)
  have l2 := flatMap_length (fun f : FileAttributes => le64 (f.filetime.getD 0)) 8 a.files (fun f _ => le64_length _)
  have l3 := flatMap_length (fun f : FileAttributes => f.md5.getD (List.replicate 16 0)) 16 a.files ldig
  unfold Attributes.toBytes Spec.attributesLength Spec.patchesAt Spec.digestsAt Spec.timesAt Spec.tableLength
  simp only [List.length_append, le32_length, hasCrc32_eq, hasFiletime_eq, hasMd5_eq, hasPatchBit_eq]
  cases a.flags.toNat.testBit 0 <;> cases a.flags.toNat.testBit 1 <;> cases a.flags.toNat.testBit 2 <;>
    cases a.flags.toNat.testBit 3 <;> simp only [l1, l2, l3, setPatchBits_length, if_true, Bool.false_eq_true, if_false, List.length_nil,
      List.length_replicate] <;> omega

/-- A written attributes file is not mistaken for a compressed one. -/
theorem written_content (e : Env) (count : Nat) (a : Attributes) (hv : a.version = 100) :
    AttributesContent e count a.toBytes a.toBytes := by
  refine .inl ⟨.inr (.inl ?_), rfl⟩
  unfold Attributes.toBytes
  rw [hv]
  rfl

/-- C62: attributes written for every file of the archive (the attributes file included) and put into it as
"(attributes)" are the ones found for every file when the archive is opened. Partial: as in `C62_open_exactly_partial`. -/
theorem C62_recorded_attributes_partial (pending : List PendingFile) (before after : List Byte) (ss k : Nat)
    (pk : PendingFile) (attrs : Attributes) (hv : attrs.version = 100) (hn : attrs.files.length = pending.length)
    (hm : ∀ r ∈ attrs.files, ∀ d, r.md5 = some d → d.length = 16)
    (h : BuiltWithAttributes e md5 b f pending before after ss k pk attrs.toBytes) (hcan : CanRecover e ss pk attrs.toBytes) :
    ∃ a, openArchive e (before ++ f ++ after) = .ok a ∧
      ∀ (i : Nat) (p : PendingFile) (r : FileAttributes) (name : List Byte), pending[i]? = some p →
        attrs.files[i]? = some r →
        Spec.sameName (name.map BitVec.toNat) (p.name.map BitVec.toNat) →
        (∀ j < i, ∀ q, pending[j]? = some q → ¬ Spec.sameName (name.map BitVec.toNat) (q.name.map BitVec.toNat)) →
        ∃ info, a.findFile name = .ok (some info) ∧
          (a.fileAttributes info.blockIndex).map (·.view) = some (Spec.written attrs.flags.toNat r.view) := by
  have h58 : (2 : Nat) ^ 58 = 288230376151711744 := rfl
  have hcount := h.count
  obtain ⟨t, ht, _, _, hw⟩ := C35_round_trip attrs [] hv (by omega) hm
  rw [List.append_nil, hn] at ht
  have hacc := (C36_accepts_exactly _ _ (by omega)).1.1 ⟨t, ht⟩
  obtain ⟨_, _, hview⟩ := C36_values _ _ t (by omega) ht
  obtain ⟨a, _, ho, _, _, _, hfiles, _⟩ := (C62_open_exactly_partial pending before after ss k pk _ h hcan _
    (written_content e _ attrs hv)).1 hacc
  refine ⟨a, ho, ?_⟩
  intro i p r name hp hr hname hfirst
  obtain ⟨⟨info, h1, h2⟩, _⟩ := hfiles i p name hp hname hfirst
  refine ⟨info, h1, ?_⟩
  rw [h2]
  have hi : i < pending.length := (List.getElem?_eq_some_iff.1 hp).1
  have := congrArg (·[i]?) (hw.symm.trans hview)
  simpa [hi, hr] using this.symm

/-- C62: attributes for fewer files than the archive has (for instance made before the attributes file itself was added)
with a checksum, time or digest table make the whole archive unreadable. -/
theorem C62_short_attributes_block_opening (pending : List PendingFile) (before after : List Byte) (ss k : Nat)
    (pk : PendingFile) (attrs : Attributes) (hv : attrs.version = 100) (hn : attrs.files.length < pending.length)
    (hm : ∀ r ∈ attrs.files, ∀ d, r.md5 = some d → d.length = 16)
    (hf : attrs.flags.toNat.testBit 0 ∨ attrs.flags.toNat.testBit 1 ∨ attrs.flags.toNat.testBit 2)
    (h : BuiltWithAttributes e md5 b f pending before after ss k pk attrs.toBytes) (hcan : CanRecover e ss pk attrs.toBytes) :
    openArchive e (before ++ f ++ after) = .error .invalidFormat := by
  refine (C62_open_exactly_partial pending before after ss k pk _ h hcan _ (written_content e _ attrs hv)).2 ?_
  rintro ⟨_, _, h3⟩
  have h58 : (2 : Nat) ^ 58 = 288230376151711744 := rfl
  have hcount := h.count
  obtain ⟨t, ht, _, hfl, _⟩ := C35_round_trip attrs [] hv (by omega) hm
  rw [List.append_nil] at ht
  obtain ⟨_, hflags, _⟩ := C36_values _ _ t (by omega) ht
  rw [← hflags, hfl, Attributes.toBytes_length attrs hm] at h3
  unfold Spec.attributesLength Spec.patchesAt Spec.digestsAt Spec.timesAt Spec.tableLength at h3
  generalize attrs.flags.toNat = n at *
  cases h0 : n.testBit 0 <;> cases h1 : n.testBit 1 <;> cases h2 : n.testBit 2 <;> cases h4 : n.testBit 3 <;>
    simp only [h0, h1, h2, h4, if_true, Bool.false_eq_true, if_false, or_self] at h3 hf <;> omega

/-- C62: an attributes file that cannot be decompressed makes the whole archive unreadable, with the error met while reading
it. -/
theorem C62_unreadable_attributes_block_opening (pending : List PendingFile) (before after : List Byte) (ss k : Nat)
    (pk : PendingFile) (data : List Byte) (h : BuiltWithAttributes e md5 b f pending before after ss k pk data)
    (hl : data.length ≤ ss) (hm0 : pk.compression ≠ 0#8) (hd0 : data ≠ []) (c : List Byte)
    (hcomp : compress e.codecs data pk.compression = .ok c) (hcd : c ≠ data) (err : Err)
    (hdec : decompress e.codecs c.tail pk.compression data.length = .error err) (herr : err ≠ .fileNotFound) :
    openArchive e (before ++ f ++ after) = .error err := by
  obtain ⟨_, hmd, hb, hp, hext, hal, hclean, hlen, hfit, hcount, hsize, hc, hss, ⟨hk, hdata, hname⟩, hfirst⟩ := h
  obtain ⟨L⟩ := layout_of_build hmd hb
  have hpe : L.pending = pending := by
    have := L.prepared
    rw [hp] at this
    injection this with this
    exact this.symm
  subst hpe
  have hse : L.sectorSize = ss := by
    have := L.sector
    rw [hss] at this
    injection this with this
    exact this.symm
  subst hse
  obtain ⟨het, bet, hhet, hbet, hfall⟩ := L.fallback hmd before after hlen hfit hext
  obtain ⟨a, ha, hht, hbt, hat, _, hopen⟩ := L.open hmd before after hal hclean hlen hfit hcount het bet hhet hbet
  have hmem : pk.name ∈ L.pending.map (·.name) := List.mem_map.2 ⟨pk, List.mem_of_getElem? hk, rfl⟩
  obtain ⟨s, hashIndex, pre, post, h1, h2, h3, h4⟩ := L.find_some hmd ha hlen hfit hcount hk attributesName hname hfirst
    (noCollision_respell hc hmem hname)
  have hfb := hfall a ha hht hbt attributesName
  unfold FallsBack at hfb
  rw [h4] at hfb
  obtain ⟨w, pre', post', hw, hdesc, hpl, hread⟩ := L.read_found hmd ha h1 h2 h3 data hdata
    (hsize pk (List.mem_of_getElem? hk) data hdata) attributesName _ hfb rfl rfl rfl rfl rfl
  have hfail : a.readFile e attributesName = .error err := by
    rw [hread, hdesc.infoOf]
    unfold writeFile at hw
    rw [if_pos hl] at hw
    obtain ⟨u, bo, hs, hx⟩ := single_exact hw pre' post' hashIndex k before.length pk.locale b.blockSize attributesName
      (fileKey_sameName hname) hpl
    refine hx.trans ?_
    unfold storeUnit at hs
    rw [if_pos ⟨hm0, hd0⟩, hcomp] at hs
    simp only [bind, Except.bind, pure, Except.pure] at hs
    rw [if_pos hcd] at hs
    have hu := Except.ok.inj hs
    rw [← (Prod.mk.inj hu).1, ← (Prod.mk.inj hu).2, if_pos rfl, hdec]
    rfl
  rw [hopen]
  unfold Archive.loadAttributes
  rw [hat, if_neg (by simp), hfail]
  cases err <;> first | rfl | exact absurd rfl herr

/-! ## Examples -/

def attributesFile (data : List Byte) (m : Byte) : PendingFile :=
  { source := some data, name := ascii "(Attributes)", compression := m, encrypt := false, useFixKey := false, locale := 0 }

/-- Two files, the second one an attributes file with the given content. -/
def attributesBuilder (data : List Byte) (m : Byte) : Builder where
  version := .v2
  blockSize := 3
  pending := [{ source := some [1, 2, 3], name := ascii "a.txt", compression := 0, encrypt := false, useFixKey := false,
                locale := 0 },
              attributesFile data m]
  listfile := .none
  defaultCompression := 0
  generateCrcs := false
  tables := { compressTables := false, tableCompression := 0x02 }

theorem attributes_example (data : List Byte) (m : Byte) (h : data.length < 1000)
    (hm : ∃ c, compress toyEnv.codecs data m = .ok c) :
    ∃ f, BuiltWithAttributes toyEnv zeroMd5 (attributesBuilder data m) f (attributesBuilder data m).pending [] [] 4096 1
      (attributesFile data m) data := by
  have hnames : NoCollision ((attributesBuilder data m).pending.map (·.name)) :=
    noCollision_lit (names := [ascii "a.txt", ascii "(Attributes)"]) (by decide +kernel)
  have hat : Spec.sameName (attributesName.map BitVec.toNat) ((ascii "(Attributes)").map BitVec.toNat) := by decide +kernel
  have hb : Buildable toyEnv (attributesBuilder data m) (attributesBuilder data m).pending :=
    { shift := by show (3#16).toNat < 55; decide
      prepared := rfl
      count := by show (2 + 1) * 2 ≤ 2 ^ 31; decide
      readable := by
        intro p hp
        simp only [attributesBuilder, List.mem_cons, List.not_mem_nil, or_false] at hp
        rcases hp with rfl | rfl
        · exact ⟨_, rfl, by decide, by
            unfold Compressible; rw [show (attributesBuilder data m).blockSize = 3#16 from rfl, if_pos (by decide)]; exact ⟨_, compress_zero _ _⟩⟩
        · exact ⟨_, rfl, by omega, by
            unfold Compressible
            rw [show (attributesBuilder data m).blockSize = 3#16 from rfl, if_pos (by show _ ≤ 4096; omega)]; exact hm⟩
      names := hnames
      distinct := by
        unfold DistinctFiles
        refine .cons ?_ (.cons (by intro q hq; cases hq) .nil)
        intro q hq
        rw [List.mem_singleton.1 hq]
        rintro ⟨h, _⟩
        exact absurd h (show ¬ Spec.sameName ((ascii "a.txt").map BitVec.toNat) ((ascii "(Attributes)").map BitVec.toNat) by
          decide +kernel) }
  obtain ⟨f, hf⟩ := C50_classic_build_succeeds toyEnv zeroMd5 (attributesBuilder data m) _ hb (.inr rfl)
  refine ⟨f, ?_⟩
  obtain ⟨L⟩ := layout_of_build (fun _ => List.length_replicate) hf
  have hpe : L.pending = (attributesBuilder data m).pending := (Except.ok.inj L.prepared).symm
  have hlt : f.length < 2 ^ 48 := L.length_lt (fun _ => List.length_replicate) (by rw [hpe]; show 2 < _; decide)
    (by
      rw [hpe]
      intro p hp
      simp only [attributesBuilder, List.mem_cons, List.not_mem_nil, or_false] at hp
      rcases hp with rfl | rfl
      · decide
      · show data.length + data.length / 64 + 12 < _; omega)
    (by
      rw [hpe]
      show 15 + (data.length + data.length / 64 + 12 + 0) < _
      omega)
  exact
    { lawful := toyCodecs_lawful, md5Length := fun _ => List.length_replicate, built := hf, prepared := rfl
      classic := fun h => by cases h
      aligned := rfl, clean := fun o ho => by cases ho
      short := hlt
      fits := by have : (2 : Nat) ^ 48 < 2 ^ 64 := by decide
                 simp only [List.length_nil]; omega
      count := by show 2 < _; decide
      sizes := by
        intro p hp d hd
        simp only [attributesBuilder, List.mem_cons, List.not_mem_nil, or_false] at hp
        rcases hp with rfl | rfl
        · cases hd; decide
        · cases hd; omega
      names := hnames
      sector := show sectorSizeOf 3#16 = .ok 4096 by decide
      attributes := ⟨rfl, rfl, hat⟩
      first := by
        intro j hj q hq
        match j, hj with
        | 0, _ => cases hq; decide +kernel }

theorem plain_recover (data : List Byte) (h : data.length < 1000) :
    CanRecover toyEnv 4096 (attributesFile data 0#8) data := by
  refine ⟨.inl (by omega), ?_⟩
  unfold Recoverable
  rw [if_pos (by omega)]
  exact .inl rfl

/-- Attributes of both files: found again when the archive is opened. -/
example : ∃ f a, buildBytes toyEnv zeroMd5 (attributesBuilder twoRows.toBytes 0) = .ok f ∧ openArchive toyEnv f = .ok a ∧
    ∃ info, a.findFile (ascii "A.TXT") = .ok (some info) ∧
      ((a.fileAttributes info.blockIndex).bind (·.crc32)) = some 7 := by
  obtain ⟨f, h⟩ := attributes_example twoRows.toBytes 0#8 (by decide +kernel) ⟨_, compress_zero _ _⟩
  obtain ⟨a, ho, hr⟩ := C62_recorded_attributes_partial _ _ _ _ _ _ twoRows rfl rfl (by decide) h
    (plain_recover _ (by decide +kernel))
  obtain ⟨info, h1, h2⟩ := hr 0 _ _ (ascii "A.TXT") rfl rfl (by decide +kernel) (by intro j hj; cases hj)
  rw [List.nil_append, List.append_nil] at ho
  refine ⟨f, a, h.built, ho, info, h1, ?_⟩
  cases hx : a.fileAttributes info.blockIndex with
  | none => rw [hx] at h2; cases h2
  | some r =>
    rw [hx] at h2
    have := congrArg Spec.BlockAttributes.checksum (Option.some.inj h2)
    obtain ⟨c, _, _, _⟩ := r
    cases c with
    | none => cases this
    | some c => exact congrArg some (BitVec.eq_of_toNat_eq (Option.some.inj this))

/-- Attributes of the first file only: the archive cannot be opened. -/
example : ∃ f, buildBytes toyEnv zeroMd5 (attributesBuilder { twoRows with files := twoRows.files.take 1 }.toBytes 0) = .ok f ∧
    openArchive toyEnv f = .error .invalidFormat := by
  obtain ⟨f, h⟩ := attributes_example { twoRows with files := twoRows.files.take 1 }.toBytes 0#8 (by decide +kernel)
    ⟨_, compress_zero _ _⟩
  have := C62_short_attributes_block_opening _ _ _ _ _ _ { twoRows with files := twoRows.files.take 1 } rfl (by decide)
    (by decide) (.inl (by decide)) h (plain_recover _ (by decide +kernel))
  rw [List.nil_append, List.append_nil] at this
  exact ⟨f, h.built, this⟩

/-- Any other content: the archive cannot be opened. -/
example : ∃ f, buildBytes toyEnv zeroMd5 (attributesBuilder (ascii "@notes") 0) = .ok f ∧
    openArchive toyEnv f = .error .invalidFormat := by
  obtain ⟨f, h⟩ := attributes_example (ascii "@notes") 0#8 (by decide +kernel) ⟨_, compress_zero _ _⟩
  have := (C62_open_exactly_partial _ _ _ _ _ _ _ h (plain_recover _ (by decide +kernel)) _ (.inl ⟨by decide +kernel, rfl⟩)).2 (by decide +kernel)
  rw [List.nil_append, List.append_nil] at this
  exact ⟨f, h.built, this⟩

/-- Attributes stored with BZIP2 and IMPLODE (0x14), which nothing decompresses (C15): the archive cannot be opened. -/
example : ∃ f, buildBytes toyEnv zeroMd5 (attributesBuilder (List.replicate 9 7) 0x14) = .ok f ∧
    openArchive toyEnv f = .error .compression := by
  have hc : compress toyEnv.codecs (List.replicate 9 7#8) 0x14#8 = .ok [0x14#8, 1#8, 7#8, 9#8] := by decide +kernel
  obtain ⟨f, h⟩ := attributes_example (List.replicate 9 7) 0x14#8 (by decide) ⟨_, hc⟩
  have := C62_unreadable_attributes_block_opening _ _ _ _ _ _ _ h (by decide) (by decide) (by decide) _ hc (by decide) _
    (C15_bzip2_implode_never_decompresses toyCodecs toyCodecs_lawful _ _ (by decide) hc (by decide)) (by decide)
  rw [List.nil_append, List.append_nil] at this
  exact ⟨f, h.built, this⟩

/-- Attributes that were compressed before they were added. -/
example : AttributesContent toyEnv 2 (0x02#8 :: (toyPack twoRows.toBytes).getD []) twoRows.toBytes ∧
    AcceptedAttributes twoRows.toBytes 2 := by
  refine ⟨.inr ⟨by decide +kernel, _, _, rfl, .inl ?_⟩, by decide +kernel⟩
  decide +kernel

end Mopaq
