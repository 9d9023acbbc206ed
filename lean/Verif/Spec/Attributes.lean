/-!
# Specification: the attributes file

Written from the published description of the format. Nothing here refers to the model. The file is a version number
(100), a flag word and up to four tables, each with one entry per block: checksums (bit 0 of the flag word), times
(bit 1), MD5 digests (bit 2) and patch bits (bit 3, eight to a byte, lowest bit first).
-/

namespace Spec

/-- The byte at offset `o` as a number. -/
def byteAt (f : List (BitVec 8)) (o : Nat) : Nat := (f.getD o 0).toNat

/-- The little-endian number made of the `w` bytes at offset `o`. -/
def numAt : Nat → List (BitVec 8) → Nat → Nat
  | 0, _, _ => 0
  | w + 1, f, o => byteAt f o + 256 * numAt w f (o + 1)

/-- Length of the table belonging to bit `bit` of the flag word when its entries take `w` bytes. -/
def tableLength (flags bit w count : Nat) : Nat := if flags.testBit bit then w * count else 0

/-- Where the times start. -/
def timesAt (flags count : Nat) : Nat := 8 + tableLength flags 0 4 count
/-- Where the digests start. -/
def digestsAt (flags count : Nat) : Nat := timesAt flags count + tableLength flags 1 8 count
/-- Where the patch bits start. -/
def patchesAt (flags count : Nat) : Nat := digestsAt flags count + tableLength flags 2 16 count
/-- The length of an attributes file for `count` blocks. -/
def attributesLength (flags count : Nat) : Nat :=
  patchesAt flags count + if flags.testBit 3 then (count + 7) / 8 else 0

/-- What is known about one block. -/
structure BlockAttributes where
  checksum : Option Nat
  time : Option Nat
  digest : Option (List (BitVec 8))
  patch : Option Bool
  deriving DecidableEq, Repr

/-- Entry `i` of every table in the file `f`. -/
def attributesOf (f : List (BitVec 8)) (count i : Nat) : BlockAttributes :=
  let flags := numAt 4 f 4
  { checksum := if flags.testBit 0 then some (numAt 4 f (8 + 4 * i)) else none
    time := if flags.testBit 1 then some (numAt 8 f (timesAt flags count + 8 * i)) else none
    digest := if flags.testBit 2 then some ((f.drop (digestsAt flags count + 16 * i)).take 16) else none
    patch := if flags.testBit 3 then some ((byteAt f (patchesAt flags count + i / 8)).testBit (i % 8)) else none }

/-- The values a written attributes file carries: what is missing in an announced table is written as zero, what has no
table is not written. -/
def written (flags : Nat) (a : BlockAttributes) : BlockAttributes :=
  { checksum := if flags.testBit 0 then some (a.checksum.getD 0) else none
    time := if flags.testBit 1 then some (a.time.getD 0) else none
    digest := if flags.testBit 2 then some (a.digest.getD (List.replicate 16 0)) else none
    patch := if flags.testBit 3 then some (a.patch.getD false) else none }

end Spec
