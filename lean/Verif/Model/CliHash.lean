import Verif.Model.CliList

/-!
# The hash commands of the command line tool

Models `storm-cli/src/commands/hash.rs` `generate` and `compare` and what they print, without colours. A line is its bytes
without the line feed. `jenkins` (103-114) prints that it is not implemented.
-/

namespace Mopaq

/-- Models `storm-cli/src/main.rs` 424-431 (`HashType`). -/
inductive HashKind where
  | tableOffset
  | nameA
  | nameB
  | fileKey
  | key2Mix
  deriving DecidableEq, Repr

/-- Models `storm-cli/src/commands/hash.rs` 39-45. -/
def HashKind.id : HashKind → Nat
  | .tableOffset => 0
  | .nameA => 1
  | .nameB => 2
  | .fileKey => 3
  | .key2Mix => 4

/-- What `{:?}` prints for a `HashType` (derived): `TableOffset`, `NameA`, `NameB`, `FileKey`, `Key2Mix`. -/
def HashKind.debug : HashKind → List Byte
  | .tableOffset => [0x54, 0x61, 0x62, 0x6C, 0x65, 0x4F, 0x66, 0x66, 0x73, 0x65, 0x74]
  | .nameA => [0x4E, 0x61, 0x6D, 0x65, 0x41]
  | .nameB => [0x4E, 0x61, 0x6D, 0x65, 0x42]
  | .fileKey => [0x46, 0x69, 0x6C, 0x65, 0x4B, 0x65, 0x79]
  | .key2Mix => [0x4B, 0x65, 0x79, 0x32, 0x4D, 0x69, 0x78]

/-- A digit of `{:08x}`. -/
def hexDigitLower (n : Nat) : Byte := BitVec.ofNat 8 (if n < 10 then 0x30 + n else 0x57 + n)

/-- `{:#010x}`, and `0x{:08x}`. -/
def hexLower (x : U32) : List Byte :=
  [0x30#8, 0x78#8] ++
    [x.toNat / 2 ^ 28 % 16, x.toNat / 2 ^ 24 % 16, x.toNat / 2 ^ 20 % 16, x.toNat / 2 ^ 16 % 16, x.toNat / 2 ^ 12 % 16,
      x.toNat / 2 ^ 8 % 16, x.toNat / 2 ^ 4 % 16, x.toNat % 16].map hexDigitLower

/-- "Hash values:" and the labels of the five lines. -/
def hashValuesWord : List Byte := [0x48, 0x61, 0x73, 0x68, 0x20, 0x76, 0x61, 0x6C, 0x75, 0x65, 0x73, 0x3A]
def tableOffsetLabel : List Byte := [0x20, 0x20, 0x54, 0x61, 0x62, 0x6C, 0x65, 0x20, 0x6F, 0x66, 0x66, 0x73, 0x65, 0x74, 0x3A, 0x20]
def nameALabel : List Byte := [0x20, 0x20, 0x4E, 0x61, 0x6D, 0x65, 0x20, 0x41, 0x3A, 0x20, 0x20, 0x20, 0x20, 0x20, 0x20, 0x20]
def nameBLabel : List Byte := [0x20, 0x20, 0x4E, 0x61, 0x6D, 0x65, 0x20, 0x42, 0x3A, 0x20, 0x20, 0x20, 0x20, 0x20, 0x20, 0x20]
def fileKeyLabel : List Byte := [0x20, 0x20, 0x46, 0x69, 0x6C, 0x65, 0x20, 0x6B, 0x65, 0x79, 0x3A, 0x20, 0x20, 0x20, 0x20, 0x20]
def key2MixLabel : List Byte := [0x20, 0x20, 0x4B, 0x65, 0x79, 0x32, 0x20, 0x6D, 0x69, 0x78, 0x3A, 0x20, 0x20, 0x20, 0x20, 0x20]

/-- `{"filename":"`, `","type":"`, `","value":"` and `"}`. -/
def jsonFilename : List Byte := [0x7B, 0x22, 0x66, 0x69, 0x6C, 0x65, 0x6E, 0x61, 0x6D, 0x65, 0x22, 0x3A, 0x22]
def jsonType : List Byte := [0x22, 0x2C, 0x22, 0x74, 0x79, 0x70, 0x65, 0x22, 0x3A, 0x22]
def jsonValue : List Byte := [0x22, 0x2C, 0x22, 0x76, 0x61, 0x6C, 0x75, 0x65, 0x22, 0x3A, 0x22]
def jsonEnd : List Byte := [0x22, 0x7D]

/-- Models `storm-cli/src/commands/hash.rs` 11-60 (`generate`): the lines printed. `json` is the output format asked for
(CSV prints as text). -/
def hashGenerate (json : Bool) (name : List Byte) (kind : Option HashKind) (all : Bool) : List (List Byte) :=
  match all, kind with
  | false, some kind =>
    let value := hashString name kind.id
    if json then [jsonFilename ++ name ++ jsonType ++ kind.debug ++ jsonValue ++ hexLower value ++ jsonEnd]
    else [hexLower value]
  | _, _ =>
    [hashValuesWord, tableOffsetLabel ++ hexLower (hashString name htTableOffset), nameALabel ++ hexLower (hashString name htNameA),
      nameBLabel ++ hexLower (hashString name htNameB), fileKeyLabel ++ hexLower (hashString name htFileKey),
      key2MixLabel ++ hexLower (hashString name 4)]

/-- The labels of the comparison, padded to 13 bytes (`{:13}`), with the blank behind them. -/
def compareTypes : List (List Byte × Nat) :=
  [([0x54, 0x61, 0x62, 0x6C, 0x65, 0x20, 0x6F, 0x66, 0x66, 0x73, 0x65, 0x74, 0x3A, 0x20], 0),
    ([0x4E, 0x61, 0x6D, 0x65, 0x20, 0x41, 0x3A, 0x20, 0x20, 0x20, 0x20, 0x20, 0x20, 0x20], 1),
    ([0x4E, 0x61, 0x6D, 0x65, 0x20, 0x42, 0x3A, 0x20, 0x20, 0x20, 0x20, 0x20, 0x20, 0x20], 2),
    ([0x46, 0x69, 0x6C, 0x65, 0x20, 0x6B, 0x65, 0x79, 0x3A, 0x20, 0x20, 0x20, 0x20, 0x20], 3),
    ([0x4B, 0x65, 0x79, 0x32, 0x20, 0x6D, 0x69, 0x78, 0x3A, 0x20, 0x20, 0x20, 0x20, 0x20], 4)]

/-- " vs ", " [MATCH]" and " [DIFFER]". -/
def vsWord : List Byte := [0x20, 0x76, 0x73, 0x20]
def matchWord : List Byte := [0x20, 0x5B, 0x4D, 0x41, 0x54, 0x43, 0x48, 0x5D]
def differWord : List Byte := [0x20, 0x5B, 0x44, 0x49, 0x46, 0x46, 0x45, 0x52, 0x5D]

/-- Models `storm-cli/src/commands/hash.rs` 80-97: the lines of a comparison behind the heading and the names. -/
def hashCompare (verbose : Bool) (name1 name2 : List Byte) : List (List Byte) → List (List Byte × Nat) → List (List Byte)
  | out, [] => out
  | out, (label, t) :: types =>
    let hash1 := hashString name1 t
    let hash2 := hashString name2 t
    let same := hash1 == hash2
    let out := if verbose || same then
        out ++ [label ++ hexLower hash1 ++ vsWord ++ hexLower hash2 ++ if same then matchWord else differWord]
      else out
    hashCompare verbose name1 name2 out types

end Mopaq
