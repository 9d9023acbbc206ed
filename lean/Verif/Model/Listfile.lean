import Verif.Model.Basic

/-!
# The listfile

Models `mopaq/src/special_files/listfile.rs` and the text built by `prepare_listfile` of `mopaq/src/builder.rs`.
A Rust string is modelled by the list of its characters, each given by its UTF-8 bytes.
-/

namespace Mopaq

/-- One character as its UTF-8 bytes. -/
abbrev Chr := List Byte

/-- U+FFFD, what `from_utf8_lossy` puts in the place of invalid bytes. -/
def replacementChr : Chr := [0xEF, 0xBF, 0xBD]

/-- A continuation byte. -/
def isCont (b : Byte) : Bool := 0x80 ≤ b.toNat && b.toNat ≤ 0xBF

/-- The second byte of a character of three bytes. -/
def second3 (a b : Byte) : Bool :=
  if a = 0xE0 then 0xA0 ≤ b.toNat && b.toNat ≤ 0xBF
  else if a = 0xED then 0x80 ≤ b.toNat && b.toNat ≤ 0x9F
  else isCont b

/-- The second byte of a character of four bytes. -/
def second4 (a b : Byte) : Bool :=
  if a = 0xF0 then 0x90 ≤ b.toNat && b.toNat ≤ 0xBF
  else if a = 0xF4 then 0x80 ≤ b.toNat && b.toNat ≤ 0x8F
  else isCont b

/-- The first character of a byte string and the rest, as `String::from_utf8_lossy` (standard library) reads it: the
longest beginning of a character that cannot be completed is replaced. On valid UTF-8 this is plain decoding, so it
covers both branches of `mopaq/src/special_files/listfile.rs` 13-20. -/
def nextChr (a : Byte) (rest : List Byte) : Chr × List Byte :=
  if a.toNat < 0x80 then ([a], rest)
  else if 0xC2 ≤ a.toNat && a.toNat ≤ 0xDF then
    match rest with
    | b :: r1 => if isCont b then ([a, b], r1) else (replacementChr, rest)
    | [] => (replacementChr, [])
  else if 0xE0 ≤ a.toNat && a.toNat ≤ 0xEF then
    match rest with
    | b :: r1 =>
      if second3 a b then
        match r1 with
        | c :: r2 => if isCont c then ([a, b, c], r2) else (replacementChr, r1)
        | [] => (replacementChr, [])
      else (replacementChr, rest)
    | [] => (replacementChr, [])
  else if 0xF0 ≤ a.toNat && a.toNat ≤ 0xF4 then
    match rest with
    | b :: r1 =>
      if second4 a b then
        match r1 with
        | c :: r2 =>
          if isCont c then
            match r2 with
            | d :: r3 => if isCont d then ([a, b, c, d], r3) else (replacementChr, r2)
            | [] => (replacementChr, [])
          else (replacementChr, r1)
        | [] => (replacementChr, [])
      else (replacementChr, rest)
    | [] => (replacementChr, [])
  else (replacementChr, rest)

/-- The characters of a byte string, at most `fuel` many. -/
def chrsFuel : Nat → List Byte → List Chr
  | 0, _ => []
  | _, [] => []
  | fuel + 1, a :: rest => (nextChr a rest).1 :: chrsFuel fuel (nextChr a rest).2

/-- Models `mopaq/src/special_files/listfile.rs` 13-20: the bytes as a string; there are no more characters than
bytes. -/
def chrs (data : List Byte) : List Chr := chrsFuel data.length data

/-- Models `str::lines` (standard library) up to the removal of `\r`: the pieces between line feeds; an empty piece at
the end is no line. -/
def splitLines : List Chr → List (List Chr)
  | [] => []
  | c :: cs =>
    if c = [0x0A] then [] :: splitLines cs
    else match splitLines cs with
      | [] => [[c]]
      | l :: ls => (c :: l) :: ls

/-- `str::lines` removes one carriage return at the end of a line. -/
def stripCr (line : List Chr) : List Chr := if line.getLast? = some [0x0D] then line.dropLast else line

/-- `char::is_whitespace` (standard library): the Unicode property `White_Space`. -/
def isSpaceChr (c : Chr) : Bool :=
  match c with
  | [a] => (0x09 ≤ a.toNat && a.toNat ≤ 0x0D) || a = 0x20
  | [a, b] => a = 0xC2 && (b = 0x85 || b = 0xA0)
  | [a, b, c] =>
    (a = 0xE1 && b = 0x9A && c = 0x80) ||
    (a = 0xE2 && b = 0x80 && ((0x80 ≤ c.toNat && c.toNat ≤ 0x8A) || c = 0xA8 || c = 0xA9 || c = 0xAF)) ||
    (a = 0xE2 && b = 0x81 && c = 0x9F) ||
    (a = 0xE3 && b = 0x80 && c = 0x80)
  | _ => false

/-- `str::trim`. -/
def trim (s : List Chr) : List Chr := ((s.dropWhile isSpaceChr).reverse.dropWhile isSpaceChr).reverse

/-- Models `mopaq/src/special_files/listfile.rs` 24-45: what one line contributes. -/
def parseLine (line : List Chr) : Option (List Chr) :=
  let line := trim line
  if line = [] ∨ line.head? = some [0x3B] ∨ line.head? = some [0x23] then none
  else
    let filename := if [0x3B] ∈ line then trim (line.takeWhile (· ≠ [0x3B])) else line
    if filename = [] then none else some filename

/-- Models `mopaq/src/special_files/listfile.rs` 12-50 (`parse_listfile`): the names as bytes. -/
def parseListfile (data : List Byte) : List (List Byte) :=
  (((splitLines (chrs data)).map stripCr).filterMap parseLine).map List.flatten

/-- The name `(listfile)`. -/
def listfileName : List Byte := [0x28, 0x6C, 0x69, 0x73, 0x74, 0x66, 0x69, 0x6C, 0x65, 0x29]

/-- Models `mopaq/src/builder.rs` 570-579: the text of a generated listfile. -/
def listfileText (names : List (List Byte)) : List Byte :=
  (names.flatMap fun n => n ++ [0x0D, 0x0A]) ++ (listfileName ++ [0x0D, 0x0A])

end Mopaq
