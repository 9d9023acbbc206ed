import Verif.Model.Config
import Verif.Props.CliFile

/-! # C70: the configuration of the command line tool -/

namespace Mopaq

/-- What is written is read back. -/
def Toml.Lawful (t : Toml) : Prop := ∀ c text, t.write c = .ok text → t.read text = .ok c

namespace Spec

/-- A text denotes a number: decimal digits, at least one, after an optional `+`. -/
def denotes (text : List (BitVec 8)) (n : Nat) : Prop :=
  ∃ digits, (text = digits ∨ text = 0x2B#8 :: digits) ∧ digits ≠ [] ∧ (∀ b ∈ digits, 48 ≤ b.toNat ∧ b.toNat ≤ 57) ∧
    number digits = n

/-- The names of the methods and their flags in the archive format. -/
def methodFlags : List (List (BitVec 8) × BitVec 16) :=
  [(word "none", 0), (word "zlib", 0x02), (word "bzip2", 0x10), (word "lzma", 0x12), (word "sparse", 0x20),
    (word "pkware", 0x08), (word "adpcm-mono", 0x40), (word "adpcm-stereo", 0x80)]

/-- How the methods are called on the command line. -/
def methodName : CliMethod → List (BitVec 8)
  | .none => word "none"
  | .zlib => word "zlib"
  | .bzip2 => word "bzip2"
  | .lzma => word "lzma"
  | .sparse => word "sparse"
  | .pkware => word "pkware"
  | .adpcmMono => word "adpcm-mono"
  | .adpcmStereo => word "adpcm-stereo"

/-- The settings that the help of the tool allows. -/
def validSetting (key value : List (BitVec 8)) : Prop :=
  (key = word "default_compression" ∧ ∃ flags, (value, flags) ∈ methodFlags) ∨
  (key = word "default_version" ∧ ∃ n, denotes value n ∧ 1 ≤ n ∧ n ≤ 4) ∨
  (key = word "default_block_size" ∧ ∃ n, denotes value n ∧ n ≤ 23) ∨
  (key = word "default_output" ∧ (value = word "text" ∨ value = word "json" ∨ value = word "csv"))

end Spec

/-! ## Numbers -/

theorem number_step (digits : List Byte) (n : Nat) :
    n ≤ digits.foldl (fun n b => 10 * n + (b.toNat - 48)) n := by
  induction digits generalizing n with
  | nil => exact Nat.le_refl n
  | cons c rest ih =>
    have := ih (10 * n + (c.toNat - 48))
    simp only [List.foldl_cons]
    omega

theorem parseDigits_iff (text : List Byte) : ∀ (n : Nat), n < 2 ^ 16 → ∀ v : U16,
    parseDigits text n = some v ↔ (∀ b ∈ text, 48 ≤ b.toNat ∧ b.toNat ≤ 57) ∧
      text.foldl (fun n (b : Byte) => 10 * n + (b.toNat - 48)) n = v.toNat := by
  induction text with
  | nil =>
    intro n hn v
    simp only [parseDigits, List.foldl_nil, Option.some.injEq]
    constructor
    · intro h
      refine ⟨by simp, ?_⟩
      rw [← h, BitVec.toNat_ofNat, Nat.mod_eq_of_lt hn]
    · rintro ⟨_, h⟩
      rw [h]
      simp
  | cons c rest ih =>
    intro n hn v
    rw [parseDigits]
    by_cases hc : 0x30 ≤ c.toNat ∧ c.toNat ≤ 0x39
    · rw [if_pos hc]
      simp only [List.foldl_cons]
      by_cases hs : 10 * n + (c.toNat - 0x30) < 2 ^ 16
      · rw [if_pos hs, ih _ hs v]
        constructor
        · rintro ⟨h1, h2⟩
          refine ⟨?_, h2⟩
          intro b hb
          rcases List.mem_cons.1 hb with h | h
          · subst h; exact hc
          · exact h1 b h
        · rintro ⟨h1, h2⟩
          exact ⟨fun b hb => h1 b (List.mem_cons_of_mem _ hb), h2⟩
      · rw [if_neg hs]
        constructor
        · intro h; cases h
        · rintro ⟨_, h⟩
          have h2 := number_step rest (10 * n + (c.toNat - 48))
          have h3 := v.isLt
          omega
    · rw [if_neg hc]
      constructor
      · intro h; cases h
      · rintro ⟨h, _⟩
        exact absurd (h c List.mem_cons_self) hc

theorem parseU16_iff (text : List Byte) (v : U16) : parseU16 text = some v ↔ Spec.denotes text v.toNat := by
  unfold parseU16 Spec.denotes
  split
  · constructor
    · intro h; cases h
    · rintro ⟨digits, h | h, hne, _⟩
      · exact absurd h.symm hne
      · cases h
  · constructor
    · intro h; cases h
    · rintro ⟨digits, h | h, hne, hd, _⟩
      · subst h
        have := (hd 0x2B#8 (by simp)).1
        exact absurd this (by decide)
      · have := (List.cons.inj h).2
        exact absurd this.symm hne
  · rename_i c rest hp
    split
    · rename_i hc
      subst hc
      rw [parseDigits_iff rest 0 (by decide) v]
      constructor
      · rintro ⟨h1, h2⟩
        refine ⟨rest, .inr rfl, ?_, h1, h2⟩
        intro h
        subst h
        exact hp rfl rfl
      · rintro ⟨digits, h | h, hne, hd, hn⟩
        · subst h
          have := (hd 0x2B#8 (by simp)).1
          exact absurd this (by decide)
        · have := (List.cons.inj h).2
          subst this
          exact ⟨hd, hn⟩
    · rename_i hc
      rw [parseDigits_iff (c :: rest) 0 (by decide) v]
      constructor
      · rintro ⟨h1, h2⟩
        exact ⟨c :: rest, .inl rfl, by simp, h1, h2⟩
      · rintro ⟨digits, h | h, hne, hd, hn⟩
        · subst h; exact ⟨hd, hn⟩
        · exact absurd (List.cons.inj h).1 hc

theorem denotes_parse {text : List Byte} {n : Nat} (h : Spec.denotes text n) (hn : n < 2 ^ 16) :
    parseU16 text = some (BitVec.ofNat 16 n) := by
  rw [parseU16_iff]
  rwa [BitVec.toNat_ofNat, Nat.mod_eq_of_lt hn]

/-! ## Setting -/

theorem word_ne1 : word "default_version" ≠ word "default_compression" := by decide +kernel
theorem word_ne2 : word "default_block_size" ≠ word "default_compression" := by decide +kernel
theorem word_ne3 : word "default_block_size" ≠ word "default_version" := by decide +kernel
theorem word_ne4 : word "default_output" ≠ word "default_compression" := by decide +kernel
theorem word_ne5 : word "default_output" ≠ word "default_version" := by decide +kernel
theorem word_ne6 : word "default_output" ≠ word "default_block_size" := by decide +kernel

theorem mem_methods (value : List Byte) : value ∈ configMethods ↔ ∃ flags, (value, flags) ∈ Spec.methodFlags := by
  have h : configMethods = Spec.methodFlags.map (·.1) := by decide +kernel
  rw [h, List.mem_map]
  constructor
  · rintro ⟨⟨v, f⟩, hm, hv⟩
    cases hv
    exact ⟨f, hm⟩
  · rintro ⟨f, hm⟩
    exact ⟨_, hm, rfl⟩

/-- The result of setting, by key. -/
theorem set_cases {c c' : Config} {key value : List Byte} (h : c.set key value = .ok c') :
    (key = word "default_compression" ∧ (∃ flags, (value, flags) ∈ Spec.methodFlags) ∧ c' = { c with compression := some value }) ∨
    (key = word "default_version" ∧ ∃ v : U16, Spec.denotes value v.toNat ∧ 1 ≤ v.toNat ∧ v.toNat ≤ 4 ∧
      c' = { c with version := some v }) ∨
    (key = word "default_block_size" ∧ ∃ v : U16, Spec.denotes value v.toNat ∧ v.toNat ≤ 23 ∧
      c' = { c with blockSize := some v }) ∨
    (key = word "default_output" ∧ (value = word "text" ∨ value = word "json" ∨ value = word "csv") ∧
      c' = { c with output := some value }) := by
  unfold Config.set at h
  split at h
  · rename_i hk
    split at h
    · rename_i hm
      cases h
      exact .inl ⟨hk, (mem_methods value).1 hm, rfl⟩
    · cases h
  split at h
  · rename_i hk
    split at h
    · rename_i v hv
      split at h
      · rename_i hr
        cases h
        exact .inr (.inl ⟨hk, v, (parseU16_iff value v).1 hv, hr.1, hr.2, rfl⟩)
      · cases h
    · cases h
  split at h
  · rename_i hk
    split at h
    · rename_i v hv
      split at h
      · rename_i hr
        cases h
        exact .inr (.inr (.inl ⟨hk, v, (parseU16_iff value v).1 hv, hr, rfl⟩))
      · cases h
    · cases h
  split at h
  · rename_i hk
    split at h
    · rename_i hm
      cases h
      refine .inr (.inr (.inr ⟨hk, ?_, rfl⟩))
      simpa using hm
    · cases h
  · cases h

theorem set_valid {c : Config} {key value : List Byte} (h : Spec.validSetting key value) : ∃ c', c.set key value = .ok c' := by
  unfold Config.set
  rcases h with ⟨hk, hv⟩ | ⟨hk, n, hd, h1, h2⟩ | ⟨hk, n, hd, h1⟩ | ⟨hk, hv⟩ <;> subst hk
  · rw [if_pos rfl, if_pos ((mem_methods value).2 hv)]
    exact ⟨_, rfl⟩
  · rw [if_neg word_ne1, if_pos rfl, denotes_parse hd (by omega)]
    refine ⟨_, if_pos ?_⟩
    rw [BitVec.toNat_ofNat, Nat.mod_eq_of_lt (by omega)]
    exact ⟨h1, h2⟩
  · rw [if_neg word_ne2, if_neg word_ne3, if_pos rfl, denotes_parse hd (by omega)]
    refine ⟨_, if_pos ?_⟩
    rw [BitVec.toNat_ofNat, Nat.mod_eq_of_lt (by omega)]
    exact h1
  · rw [if_neg word_ne4, if_neg word_ne5, if_neg word_ne6, if_pos rfl]
    exact ⟨_, if_pos (by simpa using hv)⟩

theorem joinPath_length (a b : List Byte) : b.length ≤ (joinPath a b).length := by
  unfold joinPath
  split
  · exact Nat.le_refl _
  · split <;> simp <;> omega

/-- The configuration is read from the file that the commands on it write. -/
theorem load_after_save {toml : Toml} (hl : toml.Lawful) {s s' : Surroundings} {given : Option (List Byte)} {c : Config}
    {path : List Byte} (hp : configPath s given = .ok path) (hs : saveConfig toml s c path = .ok s') :
    loadConfig toml s' given = .ok c ∧ (∀ p, p ≠ path → s'.disk p = s.disk p) ∧ s'.home = s.home := by
  unfold saveConfig at hs
  obtain ⟨text, hw, hs⟩ := bind_eq_ok.1 hs
  cases hs
  have hr : ∀ home, readConfig toml { disk := fun p => if p = path then some text else s.disk p, home } path = .ok c := by
    intro home
    unfold readConfig
    simp only [if_true]
    exact hl c text hw
  refine ⟨?_, ?_, rfl⟩
  · unfold configPath at hp
    unfold loadConfig
    cases given with
    | some p =>
      cases hp
      exact hr s.home
    | none =>
      cases hh : s.home with
      | none => simp only [hh] at hp; cases hp
      | some home =>
        simp only [hh] at hp
        have hp := Except.ok.inj hp
        by_cases h1 : (s.disk (stormConfig home)).isSome = true
        · rw [if_pos h1] at hp
          subst hp
          rw [← hh]
          simp only [hh, if_true, Option.isSome_some]
          exact hr (some home)
        · rw [if_neg h1] at hp
          subst hp
          have h2 : ((if stormConfig home = xdgConfig home then some text else s.disk (stormConfig home)) : Option _).isSome =
              true ↔ stormConfig home = xdgConfig home := by
            constructor
            · intro h
              split at h
              · assumption
              · exact absurd h h1
            · intro h; rw [if_pos h]; rfl
          simp only [hh]
          by_cases h3 : stormConfig home = xdgConfig home
          · rw [if_pos (h2.2 h3), h3]
            exact hr (some home)
          · rw [if_neg (fun h => h3 (h2.1 h))]
            simp only [if_true, Option.isSome_some]
            exact hr (some home)
  · intro p hp
    simp [hp]

theorem toolConfig_set {toml : Toml} {s s' : Surroundings} {given : Option (List Byte)} {key value : List Byte}
    {ans : ConfigAnswer} (h : toolConfig toml s given (.set key value) = .ok (s', ans)) :
    ∃ path c c', configPath s given = .ok path ∧ loadConfig toml s given = .ok c ∧ c.set key value = .ok c' ∧
      saveConfig toml s c' path = .ok s' ∧ ans = .saved path := by
  unfold toolConfig at h
  obtain ⟨c0, h0, h⟩ := bind_eq_ok.1 h
  unfold handleConfig at h
  obtain ⟨path, hp, h⟩ := bind_eq_ok.1 h
  simp only [] at h
  obtain ⟨c, hc, h⟩ := bind_eq_ok.1 h
  obtain ⟨c', hc', h⟩ := bind_eq_ok.1 h
  obtain ⟨s1, hs1, h⟩ := bind_eq_ok.1 h
  cases h
  exact ⟨path, c, c', hp, hc, hc', hs1, rfl⟩

/-- C70: `config set` accepts exactly the settings the tool documents, as long as the configuration can be read, written and
located. -/
theorem C70_set_accepts (toml : Toml) (s : Surroundings) (given : Option (List Byte)) (c : Config)
    (hc : loadConfig toml s given = .ok c) (hp : ∃ path, configPath s given = .ok path)
    (hw : ∀ c, ∃ text, toml.write c = .ok text) (key value : List Byte) :
    (∃ r, toolConfig toml s given (.set key value) = .ok r) ↔ Spec.validSetting key value := by
  constructor
  · rintro ⟨⟨s', ans⟩, h⟩
    obtain ⟨path, c0, c', _, _, hs, _⟩ := toolConfig_set h
    rcases set_cases hs with ⟨hk, hv, _⟩ | ⟨hk, v, hd, h1, h2, _⟩ | ⟨hk, v, hd, h1, _⟩ | ⟨hk, hv, _⟩
    · exact .inl ⟨hk, hv⟩
    · exact .inr (.inl ⟨hk, _, hd, h1, h2⟩)
    · exact .inr (.inr (.inl ⟨hk, _, hd, h1⟩))
    · exact .inr (.inr (.inr ⟨hk, hv⟩))
  · intro h
    obtain ⟨c', hc'⟩ := set_valid (c := c) h
    obtain ⟨path, hp⟩ := hp
    obtain ⟨text, ht⟩ := hw c'
    unfold toolConfig handleConfig saveConfig
    simp only [hc, hp, hc', ht, bind, Except.bind, pure, Except.pure]
    exact ⟨_, rfl⟩

theorem configuredFlags_spec {value : List Byte} {flags : U16} (h : (value, flags) ∈ Spec.methodFlags) :
    configuredFlags value = flags := by
  simp only [Spec.methodFlags, List.mem_cons, Prod.mk.injEq, List.not_mem_nil, or_false] at h
  rcases h with h | h | h | h | h | h | h | h <;> obtain ⟨h1, h2⟩ := h <;> subst h1 h2 <;> decide +kernel

/-- C70: `archive create` takes the version, the method and the block size from the command line if they are given there.
The remaining options are only there: no listfile, a listfile of one's own, directories left out, names left out. -/
theorem C70_command_line_first (c : Config) (a : CreateArgs) :
    (∀ v, a.version = some v → (createOptionsOf c a).version = v) ∧
    (∀ m, a.compression = some m → (Spec.methodName m, (createOptionsOf c a).compression) ∈ Spec.methodFlags) ∧
    (∀ b, a.blockSize = some b → (createOptionsOf c a).blockSize = b) ∧
    (a.noListfile = true → (createOptionsOf c a).listfile = .none) ∧
    (a.noListfile = false → ∀ content, a.listfile = some content → (createOptionsOf c a).listfile = .external content) ∧
    (a.noListfile = false → a.listfile = none → (createOptionsOf c a).listfile = .generate) ∧
    ((createOptionsOf c a).recursive = true ↔ a.noRecursive = false) ∧
    (createOptionsOf c a).ignorePatterns = a.ignorePatterns := by
  refine ⟨fun v h => ?_, fun m h => ?_, fun b h => ?_, fun h => ?_, fun h content h2 => ?_, fun h h2 => ?_, ?_, rfl⟩
  · simp only [createOptionsOf, h]
  · simp only [createOptionsOf, h]
    cases m <;> decide +kernel
  · simp [createOptionsOf, h]
  · simp [createOptionsOf, h]
  · simp [createOptionsOf, h, h2]
  · simp [createOptionsOf, h, h2]
  · simp [createOptionsOf]

/-- C70: a setting made with `config set` is used by every later `archive create` that does not give the option itself: the
method with its flag, the version with its number, the block size. All other options remain what they were, and no other file
is touched. -/
theorem C70_set_used (toml : Toml) (hl : toml.Lawful) (s s' : Surroundings) (given : Option (List Byte))
    (key value : List Byte) (ans : ConfigAnswer) (h : toolConfig toml s given (.set key value) = .ok (s', ans)) :
    ∃ path c c', ans = .saved path ∧ (∀ p, p ≠ path → s'.disk p = s.disk p) ∧
      loadConfig toml s given = .ok c ∧ loadConfig toml s' given = .ok c' ∧
      ∀ a : CreateArgs,
        (key = word "default_compression" → a.compression = none →
          ∃ flags, (value, flags) ∈ Spec.methodFlags ∧
            createOptionsOf c' a = { createOptionsOf c a with compression := flags }) ∧
        (key = word "default_version" → a.version = none →
          ∃ v : FormatVersion, Spec.denotes value (v.raw.toNat + 1) ∧
            createOptionsOf c' a = { createOptionsOf c a with version := v }) ∧
        (key = word "default_block_size" → a.blockSize = none →
          ∃ b : U16, Spec.denotes value b.toNat ∧ b.toNat ≤ 23 ∧
            createOptionsOf c' a = { createOptionsOf c a with blockSize := b }) ∧
        (key = word "default_output" → createOptionsOf c' a = createOptionsOf c a) := by
  obtain ⟨path, c, c', hp, hc, hset, hsave, hans⟩ := toolConfig_set h
  obtain ⟨hload, hother, _⟩ := load_after_save hl hp hsave
  refine ⟨path, c, c', hans, hother, hc, hload, fun a => ?_⟩
  rcases set_cases hset with ⟨hk, ⟨flags, hf⟩, hc'⟩ | ⟨hk, v, hd, h1, h2, hc'⟩ | ⟨hk, v, hd, h1, hc'⟩ | ⟨hk, hv, hc'⟩ <;>
    subst hk hc'
  · refine ⟨fun _ ha => ⟨flags, hf, ?_⟩, fun h => absurd h.symm word_ne1, fun h => absurd h.symm word_ne2,
      fun h => absurd h.symm word_ne4⟩
    simp only [createOptionsOf, ha, configuredFlags_spec hf]
  · refine ⟨fun h => absurd h word_ne1, fun _ ha => ⟨configuredVersion v, ?_, ?_⟩, fun h => absurd h.symm word_ne3,
      fun h => absurd h.symm word_ne5⟩
    · have hv : (configuredVersion v).raw.toNat + 1 = v.toNat := by
        have : v = 1#16 ∨ v = 2#16 ∨ v = 3#16 ∨ v = 4#16 := by
          have h3 : v.toNat = 1 ∨ v.toNat = 2 ∨ v.toNat = 3 ∨ v.toNat = 4 := by omega
          rcases h3 with h3 | h3 | h3 | h3
          · exact .inl (BitVec.eq_of_toNat_eq h3)
          · exact .inr (.inl (BitVec.eq_of_toNat_eq h3))
          · exact .inr (.inr (.inl (BitVec.eq_of_toNat_eq h3)))
          · exact .inr (.inr (.inr (BitVec.eq_of_toNat_eq h3)))
        rcases this with h3 | h3 | h3 | h3 <;> subst h3 <;> decide
      rw [hv]; exact hd
    · simp only [createOptionsOf, ha]
  · refine ⟨fun h => absurd h word_ne2, fun h => absurd h word_ne3, fun _ ha => ⟨v, hd, h1, ?_⟩,
      fun h => absurd h.symm word_ne6⟩
    simp [createOptionsOf, ha]
  · exact ⟨fun h => absurd h word_ne4, fun h => absurd h word_ne5, fun h => absurd h word_ne6, fun _ => rfl⟩

/-- A command line without options. -/
def noArgs : CreateArgs where
  version := none
  compression := none
  blockSize := none
  noListfile := false
  listfile := none
  noRecursive := false
  ignorePatterns := []

/-- C70: without configuration and options, archives have version 1, zlib compression, sectors of 4096 bytes and a listfile.
A configuration file named on the command line that does not exist is no configuration, and what a configuration does not
set has its default. -/
theorem C70_defaults (toml : Toml) (s : Surroundings) (hh : ∀ home, s.home = some home →
      s.disk (stormConfig home) = none ∧ s.disk (xdgConfig home) = none) :
    loadConfig toml s none = .ok Config.default ∧
    (∀ path, s.disk path = none → loadConfig toml s (some path) = .ok Config.default) ∧
    createOptionsOf Config.default noArgs = CreateOptions.default ∧
    (∀ c a, c.version = none → a.version = none → (createOptionsOf c a).version = .v1) ∧
    (∀ c a, c.compression = none → a.compression = none → (createOptionsOf c a).compression = 0x02) ∧
    (∀ c a, c.blockSize = none → a.blockSize = none → (createOptionsOf c a).blockSize = 3) ∧
    CreateOptions.default = { version := .v1, compression := 0x02, blockSize := 3, listfile := .generate, recursive := true,
                              ignorePatterns := [] } := by
  refine ⟨?_, fun path hd => by simp only [loadConfig, readConfig, hd], by decide +kernel,
    fun c a h1 h2 => by simp only [createOptionsOf, h1, h2], fun c a h1 h2 => by simp only [createOptionsOf, h1, h2],
    fun c a h1 h2 => by simp [createOptionsOf, h1, h2], rfl⟩
  unfold loadConfig
  cases h : s.home with
  | none => rfl
  | some home =>
    obtain ⟨h1, h2⟩ := hh home h
    simp [h1, h2]

/-- C70: `config reset` brings the defaults back, whatever was set before. -/
theorem C70_reset (toml : Toml) (hl : toml.Lawful) (s s' : Surroundings) (given : Option (List Byte)) (ans : ConfigAnswer)
    (h : toolConfig toml s given .reset = .ok (s', ans)) : loadConfig toml s' given = .ok Config.default := by
  unfold toolConfig at h
  obtain ⟨c0, h0, h⟩ := bind_eq_ok.1 h
  unfold handleConfig at h
  obtain ⟨path, hp, h⟩ := bind_eq_ok.1 h
  simp only [] at h
  obtain ⟨s1, hs1, h⟩ := bind_eq_ok.1 h
  cases h
  exact (load_after_save hl hp hs1).1

/-- C70: `config show` changes nothing and tells what `archive create` uses: the block size, and the version and the method if
they are allowed ones. Of the output format it tells what the configuration says, and text if it says nothing. -/
theorem C70_show (toml : Toml) (s s' : Surroundings) (given : Option (List Byte)) (ans : ConfigAnswer)
    (h : toolConfig toml s given .show = .ok (s', ans)) :
    s' = s ∧ ∃ c method version blockSize output, loadConfig toml s given = .ok c ∧
      ans = .shown method version blockSize output ∧
      (∀ flags, (method, flags) ∈ Spec.methodFlags → (createOptionsOf c noArgs).compression = flags) ∧
      (1 ≤ version.toNat → version.toNat ≤ 4 → (createOptionsOf c noArgs).version.raw.toNat + 1 = version.toNat) ∧
      (createOptionsOf c noArgs).blockSize = blockSize ∧
      (c.output = some output ∨ c.output = none ∧ output = word "text") := by
  unfold toolConfig at h
  obtain ⟨c0, h0, h⟩ := bind_eq_ok.1 h
  unfold handleConfig at h
  obtain ⟨path, hp, h⟩ := bind_eq_ok.1 h
  simp only [] at h
  obtain ⟨c, hc, h⟩ := bind_eq_ok.1 h
  cases h
  refine ⟨rfl, c, _, _, _, _, hc, rfl, ?_, ?_, ?_, ?_⟩
  · intro flags hf
    have := configuredFlags_spec hf
    unfold createOptionsOf
    simp only [noArgs]
    cases hm : c.compression with
    | some m =>
      rw [hm] at this
      exact this
    | none =>
      rw [hm] at this
      rw [← this]
      decide +kernel
  · intro h1 h2
    unfold createOptionsOf
    simp only [noArgs]
    cases hm : c.version with
    | none => rfl
    | some v =>
      rw [hm] at h1 h2
      simp only [Option.getD_some] at h1 h2 ⊢
      have h3 : v.toNat = 1 ∨ v.toNat = 2 ∨ v.toNat = 3 ∨ v.toNat = 4 := by omega
      have : v = 1#16 ∨ v = 2#16 ∨ v = 3#16 ∨ v = 4#16 := by
        rcases h3 with h3 | h3 | h3 | h3
        · exact .inl (BitVec.eq_of_toNat_eq h3)
        · exact .inr (.inl (BitVec.eq_of_toNat_eq h3))
        · exact .inr (.inr (.inl (BitVec.eq_of_toNat_eq h3)))
        · exact .inr (.inr (.inr (BitVec.eq_of_toNat_eq h3)))
      rcases this with h3 | h3 | h3 | h3 <;> subst h3 <;> decide
  · unfold createOptionsOf
    simp only [noArgs]
    cases c.blockSize <;> rfl
  · cases c.output with
    | none => exact .inr ⟨rfl, rfl⟩
    | some o => exact .inl rfl

/-! ## What does not hold -/

/-- C70: the output format set with `config set` is accepted and has no effect: commands without the option print text. With
the option, they print what it says. -/
theorem C70_output_ignored (toml : Toml) (hl : toml.Lawful) (s s' : Surroundings) (given : Option (List Byte))
    (value : List Byte) (ans : ConfigAnswer) (h : toolConfig toml s given (.set (word "default_output") value) = .ok (s', ans)) :
    toolOutput toml s' given none = .ok .text ∧ ∀ format, toolOutput toml s' given (some format) = .ok format := by
  obtain ⟨path, c, c', hp, hc, hset, hsave, _⟩ := toolConfig_set h
  obtain ⟨hload, _⟩ := load_after_save hl hp hsave
  unfold toolOutput
  rw [hload]
  exact ⟨rfl, fun _ => rfl⟩

/-- C70: a configuration that cannot be read stops every command on the configuration, `config reset` included: the tool
cannot repair it. -/
theorem C70_reset_cannot_repair (toml : Toml) (s : Surroundings) (path text : List Byte) (err : Err)
    (hd : s.disk path = some text) (hr : toml.read text = .error err) (cmd : ConfigCommand) :
    toolConfig toml s (some path) cmd = .error err := by
  unfold toolConfig loadConfig readConfig
  simp only [hd, hr]
  rfl

/-- C70: the version shown need not be the one used: numbers other than 2, 3 and 4 mean version 1. -/
theorem C70_shown_version_unused (toml : Toml) (s : Surroundings) (path text : List Byte) (c : Config) (v : U16)
    (hd : s.disk path = some text) (hr : toml.read text = .ok c) (hc : c.version = some v)
    (hv : v ≠ 1#16 ∧ v ≠ 2#16 ∧ v ≠ 3#16 ∧ v ≠ 4#16) (a : CreateArgs) (ha : a.version = none) :
    (∃ m b o, toolConfig toml s (some path) .show = .ok (s, .shown m v b o)) ∧ (createOptionsOf c a).version = .v1 := by
  constructor
  · unfold toolConfig handleConfig loadConfig readConfig configPath
    simp only [hd, hr, bind, Except.bind, pure, Except.pure, hc, Option.getD_some]
    exact ⟨_, _, _, rfl⟩
  · simp only [createOptionsOf, ha, hc, configuredVersion, if_neg hv.2.1, if_neg hv.2.2.1, if_neg hv.2.2.2]

theorem build_bad_shift (e : Env) (md5 : Md5) (b : Builder) (h : 64 ≤ b.blockSize.toNat) (f : List Byte) :
    buildBytes e md5 b ≠ .ok f := by
  have hs : sectorSizeOf b.blockSize = .error .panic := by
    unfold sectorSizeOf
    rw [if_neg (by omega)]
  intro hb
  unfold buildBytes at hb
  obtain ⟨pending, _, hb⟩ := bind_eq_ok.1 hb
  split at hb
  · unfold writeArchiveHetBet at hb
    rw [hs] at hb
    cases hb
  · unfold writeArchiveClassic at hb
    obtain ⟨_, _, hb⟩ := bind_eq_ok.1 hb
    rw [hs] at hb
    cases hb

/-- C70: a block size in the configuration file is not checked when it is read: with one of 64 or more no archive can be
created without the option. -/
theorem C70_block_size_unchecked (e : Env) (md5 : Md5) (toml : Toml) (s : Surroundings) (path text : List Byte) (c : Config)
    (b : U16) (hd : s.disk path = some text) (hr : toml.read text = .ok c) (hc : c.blockSize = some b) (hb : 64 ≤ b.toNat)
    (a : CreateArgs) (ha : a.blockSize = none) (src : List Byte) (source : Source) (f : List Byte) :
    toolCreate e md5 toml s (some path) a src source ≠ .ok f := by
  intro h
  unfold toolCreate loadConfig readConfig at h
  simp only [hd, hr] at h
  obtain ⟨c', hc', h⟩ := bind_eq_ok.1 h
  cases hc'
  unfold cliCreate at h
  obtain ⟨bld, hbld, h⟩ := bind_eq_ok.1 h
  have : bld.blockSize = b := by
    have ho : (createOptionsOf c a).blockSize = b := by simp [createOptionsOf, ha, hc]
    rw [← ho]
    unfold createBuilder at hbld
    cases source with
    | missing => cases hbld
    | dir files => cases hbld; rfl
    | file content =>
      simp only [] at hbld
      split at hbld
      · cases hbld
      · cases hbld; rfl
  exact build_bad_shift e md5 bld (by rw [this]; exact hb) f h

/-! ## A case -/

/-- A crate for the examples: the configuration is spelled out by its `Repr`, and only texts known are read. -/
def sampleToml (known : List Config) : Toml where
  write c := match known.findIdx? (· = c) with
    | some i => .ok [BitVec.ofNat 8 i]
    | none => .error .invalidFormat
  read
  | [b] => match known[b.toNat]? with
    | some c => .ok c
    | none => .error .invalidFormat
  | _ => .error .invalidFormat

def sampleConfigs : List Config :=
  [Config.default, { Config.default with version := some 3 }, { Config.default with output := some (word "json") }]

theorem sampleToml_lawful : (sampleToml sampleConfigs).Lawful := by
  intro c text h
  simp only [sampleToml] at h
  split at h
  · rename_i i hi
    cases h
    have hlt : i < sampleConfigs.length := (List.findIdx?_eq_some_iff_getElem.1 hi).1
    have hc := (List.findIdx?_eq_some_iff_getElem.1 hi).2.1
    have hlen : sampleConfigs.length = 3 := rfl
    have hm : (BitVec.ofNat 8 i).toNat = i := by
      rw [BitVec.toNat_ofNat, Nat.mod_eq_of_lt (by omega)]
    simp only [sampleToml, hm, List.getElem?_eq_getElem hlt]
    rw [show sampleConfigs[i] = c by simpa using hc]
  · cases h

/-- A home directory without configuration. -/
def emptyHome : Surroundings := { disk := fun _ => none, home := some (word "/home/u") }

/-- Version 3 is set, and from then on used. -/
example : ∃ s' path, toolConfig (sampleToml sampleConfigs) emptyHome none (.set (word "default_version") (word "3")) =
      .ok (s', .saved path) ∧ path = word "/home/u/.config/storm-cli/config.toml" ∧
    loadConfig (sampleToml sampleConfigs) s' none = .ok { Config.default with version := some 3 } ∧
    Spec.validSetting (word "default_version") (word "3") := by
  refine ⟨_, _, rfl, by decide +kernel, by decide +kernel, .inr (.inl ⟨rfl, 3, ⟨word "3", .inl rfl, by decide +kernel, ?_, by decide +kernel⟩, by decide, by decide⟩)⟩
  intro b hb
  have : b = 0x33#8 := by
    have h : word "3" = [0x33#8] := by decide +kernel
    rw [h] at hb
    simpa using hb
  subst this
  decide

/-- The output format is set to JSON. -/
example : ∃ s' ans, toolConfig (sampleToml sampleConfigs) emptyHome none (.set (word "default_output") (word "json")) =
    .ok (s', ans) := ⟨_, _, rfl⟩

/-- What is shown without configuration. -/
example : toolConfig (sampleToml sampleConfigs) emptyHome none .show =
    .ok (emptyHome, .shown (word "zlib") 1 3 (word "text")) := rfl

/-- A text that is no configuration. -/
example : (sampleToml sampleConfigs).read (word "x=") = .error .invalidFormat := by decide +kernel

end Mopaq
