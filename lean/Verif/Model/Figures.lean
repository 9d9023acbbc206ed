import Verif.Model.CliList
import Verif.Model.Config

/-!
# Sizes and percentages as text

Models the figures that `storm-cli` computes with floating point: `storm-cli/src/output.rs` 189-204 (`format_size`), 417-421,
490-494 (percentages of the verbose table), 526-541 (its statistics) and `storm-cli/src/commands/archive.rs` 683-688, 823, 842-847.

A floating point number (`f64`, 53 significant bits, rounded to the nearest and halves to the even one) that is not negative is
counted in units of 2^-120. That is exact for all numbers that occur here: they are 0 or at least 2^-64, and below 2^71.
-/

namespace Mopaq

/-- 1.0 in these units. -/
def one64 : Nat := 2 ^ 120

/-- `p / q` rounded to a whole number, halves to the even one. -/
def nearestEven (p q : Nat) : Nat :=
  if 2 * (p % q) < q then p / q
  else if q < 2 * (p % q) then p / q + 1
  else p / q + p / q % 2

/-- The floating point number nearest to `p / q` units. -/
def round64 (p q : Nat) : Nat :=
  let e := (p / q).log2 - 52
  nearestEven p (q * 2 ^ e) * 2 ^ e

/-- `n as f64`. -/
def toF64 (n : Nat) : Nat := round64 (n * one64) 1

/-- `a / b` for floating point numbers, `b` not zero. -/
def divF64 (a b : Nat) : Nat := round64 (a * one64) b

/-- `a * 100.0`. -/
def timesHundred (a : Nat) : Nat := round64 (a * 100) 1

/-- `x as u32`: the whole part, at most the largest `u32`. -/
def toU32 (x : Nat) : Nat := min (x / one64) (2 ^ 32 - 1)

/-- `part as f64 / whole as f64 * 100.0` -/
def percentF64 (part whole : Nat) : Nat := timesHundred (divF64 (toF64 part) (toF64 whole))

/-- Models `storm-cli/src/output.rs` 417-421 and 490-494, `storm-cli/src/commands/archive.rs` 683-688 and 842-847: the percentage
that the compressed size is of the size. -/
def shownRatio (compressed size : Nat) : Nat := if 0 < size then toU32 (percentF64 compressed size) else 100

/-- `{:.d}` for `x` times 10^d: the exact value is rounded to the nearest; `up` says what happens to halves, on which versions of
the standard library differ. -/
def shownNearest (up : Nat → Bool) (x : Nat) : Nat :=
  if 2 * (x % one64) < one64 then x / one64
  else if one64 < 2 * (x % one64) then x / one64 + 1
  else if up (x / one64) then x / one64 + 1 else x / one64

/-- Models `storm-cli/src/output.rs` 526-541: the share of `part` files in `whole` in tenths of a percent; `none` is `NaN`, which
0.0 / 0.0 gives (the part is never more than the whole). -/
def shownShare (up : Nat → Bool) (part whole : Nat) : Option Nat :=
  if whole = 0 then none else some (shownNearest up (percentF64 part whole * 10))

/-- Models `storm-cli/src/output.rs` 190-197: the loop over the units, `left` of which remain. Dividing by 1024 is exact. -/
def scaleSize : Nat → Nat → Nat → Nat × Nat
  | 0, unit, size => (unit, size)
  | left + 1, unit, size => if 1024 * one64 ≤ size then scaleSize left (unit + 1) (size / 1024) else (unit, size)

/-- The names of the units, `storm-cli/src/output.rs` 190. -/
def unitName : Nat → List Byte
  | 0 => word "B"
  | 1 => word "KB"
  | 2 => word "MB"
  | 3 => word "GB"
  | _ => word "TB"

/-- `{:.2}` of a number given in hundredths. -/
def twoDecimals (h : Nat) : List Byte :=
  decimal (h / 100) ++ word "." ++ [BitVec.ofNat 8 (48 + h / 10 % 10), BitVec.ofNat 8 (48 + h % 10)]

/-- Models `storm-cli/src/output.rs` 199-203: the text for a size in a unit. -/
def sizeText (up : Nat → Bool) (bytes unit size : Nat) : List Byte :=
  if unit = 0 then decimal bytes else twoDecimals (shownNearest up (size * 100)) ++ word " " ++ unitName unit

/-- Models `storm-cli/src/output.rs` 189-204 (`format_size`). -/
def formatSize (up : Nat → Bool) (bytes : Nat) : List Byte :=
  let scaled := scaleSize 4 0 (toF64 bytes)
  sizeText up bytes scaled.1 scaled.2

/-- Models `storm-cli/src/output.rs` 36-40: the line on the size of an archive, without colours. -/
def archiveSizeLine (up : Nat → Bool) (bytes : Nat) : List Byte :=
  outLine (word "Archive size: " ++ formatSize up bytes ++ word " bytes")

end Mopaq
