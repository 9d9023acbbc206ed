import Verif.Model.CliCreate

/-!
# The configuration of the command line tool

Models `storm-cli/src/config.rs` and the parts of `storm-cli/src/main.rs` that use it: `config show`, `config set`,
`config reset`, `config path`, and the options of `archive create`. The crate `toml` is a parameter. A file that exists is
a regular file that can be read, and writing works. `clap` has checked the numbers on the command line.
-/

namespace Mopaq

/-- The bytes of a literal. -/
def word (s : String) : List Byte := s.toList.map fun c => BitVec.ofNat 8 c.toNat

/-- Models `storm-cli/src/config.rs` 8-24 (`Config`). -/
structure Config where
  compression : Option (List Byte)
  version : Option U16
  blockSize : Option U16
  aliases : Option (List (List Byte × List Byte))
  output : Option (List Byte)
  deriving DecidableEq, Repr

/-- Models `storm-cli/src/config.rs` 26-36 (`default`). -/
def Config.default : Config where
  compression := some (word "zlib")
  version := some 1
  blockSize := some 3
  aliases := none
  output := some (word "text")

/-- Writing and reading a configuration (`toml::to_string_pretty`, `fs::read_to_string` and `toml::from_str`). -/
structure Toml where
  write : Config → Res (List Byte)
  read : List Byte → Res Config

/-- What the tool finds around it: the files, and the home directory. -/
structure Surroundings where
  disk : List Byte → Option (List Byte)
  home : Option (List Byte)

/-- Models `storm-cli/src/config.rs` 45: the older place of the configuration. -/
def stormConfig (home : List Byte) : List Byte := joinPath (joinPath home (word ".storm-cli")) (word "config.toml")

/-- Models `storm-cli/src/config.rs` 49: the newer place. -/
def xdgConfig (home : List Byte) : List Byte :=
  joinPath (joinPath (joinPath home (word ".config")) (word "storm-cli")) (word "config.toml")

/-- Models `storm-cli/src/config.rs` 62-68: reading one file. -/
def readConfig (toml : Toml) (s : Surroundings) (path : List Byte) : Res Config :=
  match s.disk path with
  | some text => toml.read text
  | none => .ok Config.default

/-- Models `storm-cli/src/config.rs` 39-69 (`load_config`). -/
def loadConfig (toml : Toml) (s : Surroundings) (given : Option (List Byte)) : Res Config :=
  match given, s.home with
  | some path, _ => readConfig toml s path
  | none, none => .ok Config.default
  | none, some home =>
    if (s.disk (stormConfig home)).isSome then readConfig toml s (stormConfig home)
    else if (s.disk (xdgConfig home)).isSome then readConfig toml s (xdgConfig home)
    else .ok Config.default

/-- Models `storm-cli/src/config.rs` 72-82 (`save_config`). -/
def saveConfig (toml : Toml) (s : Surroundings) (c : Config) (path : List Byte) : Res Surroundings := do
  let text ← toml.write c
  return { s with disk := fun p => if p = path then some text else s.disk p }

/-- Models `storm-cli/src/main.rs` 716-733: which file the commands on the configuration work on. -/
def configPath (s : Surroundings) (given : Option (List Byte)) : Res (List Byte) :=
  match given, s.home with
  | some path, _ => .ok path
  | none, some home => .ok (if (s.disk (stormConfig home)).isSome then stormConfig home else xdgConfig home)
  | none, none => .error .io

/-- `str::parse::<u16>` after an optional sign: decimal digits, at least one, with checked arithmetic. -/
def parseDigits : List Byte → Nat → Option U16
  | [], n => some (BitVec.ofNat 16 n)
  | c :: rest, n =>
    if 0x30 ≤ c.toNat ∧ c.toNat ≤ 0x39 then
      let n := 10 * n + (c.toNat - 0x30)
      if n < 2 ^ 16 then parseDigits rest n else none
    else none

/-- `str::parse::<u16>` (standard library): a `+` may precede the digits. -/
def parseU16 (text : List Byte) : Option U16 :=
  match text with
  | [] => none
  | [0x2B#8] => none
  | c :: rest => if c = 0x2B#8 then parseDigits rest 0 else parseDigits (c :: rest) 0

/-- Models `storm-cli/src/main.rs` 777 and 524-532: the methods that can be configured. -/
def configMethods : List (List Byte) :=
  [word "none", word "zlib", word "bzip2", word "lzma", word "sparse", word "pkware", word "adpcm-mono", word "adpcm-stereo"]

/-- Models `storm-cli/src/main.rs` 773-813: one setting changed, if key and value are allowed. -/
def Config.set (c : Config) (key value : List Byte) : Res Config :=
  if key = word "default_compression" then
    if value ∈ configMethods then .ok { c with compression := some value } else .error .io
  else if key = word "default_version" then
    match parseU16 value with
    | some v => if 1 ≤ v.toNat ∧ v.toNat ≤ 4 then .ok { c with version := some v } else .error .io
    | none => .error .io
  else if key = word "default_block_size" then
    match parseU16 value with
    | some v => if v.toNat ≤ 23 then .ok { c with blockSize := some v } else .error .io
    | none => .error .io
  else if key = word "default_output" then
    if value ∈ [word "text", word "json", word "csv"] then .ok { c with output := some value } else .error .io
  else .error .io

/-- The commands on the configuration (`storm-cli/src/main.rs` 106-125). -/
inductive ConfigCommand where
  | show
  | set (key value : List Byte)
  | reset
  | path
  deriving DecidableEq, Repr

/-- What they print. -/
inductive ConfigAnswer where
  | shown (compression : List Byte) (version blockSize : U16) (output : List Byte)
  | saved (path : List Byte)
  | path (path : List Byte) (found : Bool)
  deriving DecidableEq, Repr

/-- Models `storm-cli/src/main.rs` 708-851 (`handle_config_command`). -/
def handleConfig (toml : Toml) (s : Surroundings) (given : Option (List Byte)) (cmd : ConfigCommand) :
    Res (Surroundings × ConfigAnswer) := do
  let path ← configPath s given
  match cmd with
  | .show =>
    let c ← loadConfig toml s given
    return (s, .shown (c.compression.getD (word "zlib")) (c.version.getD 1) (c.blockSize.getD 3) (c.output.getD (word "text")))
  | .set key value =>
    let c ← loadConfig toml s given
    let c ← c.set key value
    let s ← saveConfig toml s c path
    return (s, .saved path)
  | .reset =>
    let s ← saveConfig toml s Config.default path
    return (s, .saved path)
  | .path => return (s, .path path (s.disk path).isSome)

/-- Models `storm-cli/src/main.rs` 433-441 and 700-702 (`main`): `config …`. The configuration is loaded before any command
is looked at. -/
def toolConfig (toml : Toml) (s : Surroundings) (given : Option (List Byte)) (cmd : ConfigCommand) :
    Res (Surroundings × ConfigAnswer) := do
  let _ ← loadConfig toml s given
  handleConfig toml s given cmd

/-- Models `storm-cli/src/main.rs` 404-414 (`CompressionMethod`). -/
inductive CliMethod where
  | none | zlib | bzip2 | lzma | sparse | pkware | adpcmMono | adpcmStereo
  deriving DecidableEq, Repr

/-- Models `storm-cli/src/main.rs` 509-522: the method on the command line. -/
def CliMethod.flags : CliMethod → U16
  | .none => 0 | .zlib => 0x02 | .bzip2 => 0x10 | .lzma => 0x12 | .sparse => 0x20 | .pkware => 0x08 | .adpcmMono => 0x40
  | .adpcmStereo => 0x80

/-- Models `storm-cli/src/main.rs` 523-534: the configured method. -/
def configuredFlags (text : List Byte) : U16 :=
  if text = word "none" then 0
  else if text = word "zlib" then 0x02
  else if text = word "bzip2" then 0x10
  else if text = word "lzma" then 0x12
  else if text = word "sparse" then 0x20
  else if text = word "pkware" then 0x08
  else if text = word "adpcm-mono" then 0x40
  else if text = word "adpcm-stereo" then 0x80
  else 0x02

/-- The options of `archive create` on the command line (`storm-cli/src/main.rs` 129-169). -/
structure CreateArgs where
  version : Option FormatVersion
  compression : Option CliMethod
  blockSize : Option U16
  noListfile : Bool
  /-- The content of the external listfile, if one is named (`none` if it cannot be read). -/
  listfile : Option (Option (List Byte))
  noRecursive : Bool
  ignorePatterns : List (List Byte)
  deriving DecidableEq, Repr

/-- Models `storm-cli/src/main.rs` 497-504: the configured version. -/
def configuredVersion (v : U16) : FormatVersion :=
  if v = 2#16 then .v2 else if v = 3#16 then .v3 else if v = 4#16 then .v4 else .v1

/-- Models `storm-cli/src/main.rs` 488-553: the options of `create`. -/
def createOptionsOf (c : Config) (a : CreateArgs) : CreateOptions where
  version := match a.version, c.version with
    | some v, _ => v
    | none, some v => configuredVersion v
    | none, none => .v1
  compression := match a.compression, c.compression with
    | some m, _ => m.flags
    | none, some text => configuredFlags text
    | none, none => 0x02
  blockSize := (a.blockSize.or c.blockSize).getD 3
  listfile := if a.noListfile then .none else match a.listfile with
    | some content => .external content
    | none => .generate
  recursive := !a.noRecursive
  ignorePatterns := CreateOptions.default.ignorePatterns ++ a.ignorePatterns

/-- Models `storm-cli/src/main.rs` 433-441 and 476-556 (`main`): `archive create`. -/
def toolCreate (e : Env) (md5 : Md5) (toml : Toml) (s : Surroundings) (given : Option (List Byte)) (a : CreateArgs)
    (path : List Byte) (source : Source) : Res (List Byte) := do
  let c ← loadConfig toml s given
  cliCreate e md5 (createOptionsOf c a) path source

/-- Models `storm-cli/src/main.rs` 29-34 (`OutputFormat`). -/
inductive OutputFormat where
  | text | json | csv
  deriving DecidableEq, Repr

/-- Models `storm-cli/src/main.rs` 44-46, 433-441 and 462-471: the output format of any command. -/
def toolOutput (toml : Toml) (s : Surroundings) (given : Option (List Byte)) (option : Option OutputFormat) :
    Res OutputFormat := do
  let _ ← loadConfig toml s given
  return option.getD .text

end Mopaq
