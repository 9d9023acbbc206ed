import Verif.Model.Basic

/-!
# Huffman decompression (`mopaq/src/compression/algorithms/huffman.rs`)
-/

namespace Mopaq

/-- Models `huffman.rs` 14-32 (`BYTE_TO_WEIGHT_00`): 0x0A for byte 0, 0x02 for byte 0xFF, zero
otherwise. -/
def byteToWeight00 : List Nat := 0x0A :: List.replicate 254 0 ++ [0x02, 0x00, 0x00]

/-- Models `huffman.rs` 34-52 (`BYTE_TO_WEIGHT_01`). -/
def byteToWeight01 : List Nat := [
    0x54, 0x16, 0x16, 0x0D, 0x0C, 0x08, 0x06, 0x05, 0x06, 0x05, 0x06, 0x03, 0x04, 0x04, 0x03, 0x05,
    0x0E, 0x0B, 0x14, 0x13, 0x13, 0x09, 0x0B, 0x06, 0x05, 0x04, 0x03, 0x02, 0x03, 0x02, 0x02, 0x02,
    0x0D, 0x07, 0x09, 0x06, 0x06, 0x04, 0x03, 0x02, 0x04, 0x03, 0x03, 0x03, 0x03, 0x03, 0x02, 0x02,
    0x09, 0x06, 0x04, 0x04, 0x04, 0x04, 0x03, 0x02, 0x03, 0x02, 0x02, 0x02, 0x02, 0x03, 0x02, 0x04,
    0x08, 0x03, 0x04, 0x07, 0x09, 0x05, 0x03, 0x03, 0x03, 0x03, 0x02, 0x02, 0x02, 0x03, 0x02, 0x02,
    0x03, 0x02, 0x02, 0x02, 0x02, 0x02, 0x02, 0x02, 0x02, 0x01, 0x01, 0x01, 0x02, 0x01, 0x02, 0x02,
    0x06, 0x0A, 0x08, 0x08, 0x06, 0x07, 0x04, 0x03, 0x04, 0x04, 0x02, 0x02, 0x04, 0x02, 0x03, 0x03,
    0x04, 0x03, 0x07, 0x07, 0x09, 0x06, 0x04, 0x03, 0x03, 0x02, 0x01, 0x02, 0x02, 0x02, 0x02, 0x02,
    0x0A, 0x02, 0x02, 0x03, 0x02, 0x02, 0x01, 0x01, 0x02, 0x02, 0x02, 0x06, 0x03, 0x05, 0x02, 0x03,
    0x02, 0x01, 0x01, 0x01, 0x01, 0x01, 0x01, 0x01, 0x01, 0x01, 0x01, 0x02, 0x03, 0x01, 0x01, 0x01,
    0x02, 0x01, 0x01, 0x01, 0x01, 0x01, 0x01, 0x02, 0x04, 0x04, 0x04, 0x07, 0x09, 0x08, 0x0C, 0x02,
    0x01, 0x01, 0x01, 0x01, 0x01, 0x01, 0x01, 0x01, 0x01, 0x01, 0x01, 0x01, 0x02, 0x01, 0x01, 0x03,
    0x04, 0x01, 0x02, 0x04, 0x05, 0x01, 0x01, 0x01, 0x01, 0x01, 0x01, 0x01, 0x02, 0x01, 0x01, 0x01,
    0x04, 0x01, 0x01, 0x01, 0x01, 0x01, 0x02, 0x01, 0x01, 0x01, 0x01, 0x01, 0x01, 0x01, 0x01, 0x01,
    0x02, 0x01, 0x01, 0x01, 0x01, 0x01, 0x01, 0x01, 0x03, 0x01, 0x01, 0x01, 0x01, 0x01, 0x01, 0x01,
    0x02, 0x01, 0x01, 0x01, 0x01, 0x01, 0x01, 0x02, 0x02, 0x01, 0x01, 0x02, 0x02, 0x02, 0x06, 0x4B,
    0x00, 0x00]

/-- Models `huffman.rs` 54-72 (`BYTE_TO_WEIGHT_02`). -/
def byteToWeight02 : List Nat := [
    0x00, 0x00, 0x00, 0x00, 0x00, 0x00, 0x00, 0x00, 0x00, 0x03, 0x27, 0x00, 0x00, 0x23, 0x00, 0x00,
    0x00, 0x00, 0x00, 0x00, 0x00, 0x00, 0x00, 0x00, 0x00, 0x00, 0x00, 0x00, 0x00, 0x00, 0x00, 0x00,
    0xFF, 0x01, 0x01, 0x01, 0x01, 0x01, 0x01, 0x01, 0x02, 0x02, 0x01, 0x01, 0x06, 0x0E, 0x10, 0x04,
    0x06, 0x08, 0x05, 0x04, 0x04, 0x03, 0x03, 0x02, 0x02, 0x03, 0x03, 0x01, 0x01, 0x02, 0x01, 0x01,
    0x01, 0x04, 0x02, 0x04, 0x02, 0x02, 0x02, 0x01, 0x01, 0x04, 0x01, 0x01, 0x02, 0x03, 0x03, 0x02,
    0x03, 0x01, 0x03, 0x06, 0x04, 0x01, 0x01, 0x01, 0x01, 0x01, 0x01, 0x02, 0x01, 0x02, 0x01, 0x01,
    0x01, 0x29, 0x07, 0x16, 0x12, 0x40, 0x0A, 0x0A, 0x11, 0x25, 0x01, 0x03, 0x17, 0x10, 0x26, 0x2A,
    0x10, 0x01, 0x23, 0x23, 0x2F, 0x10, 0x06, 0x07, 0x02, 0x09, 0x01, 0x01, 0x01, 0x01, 0x01, 0x00,
    0x00, 0x00, 0x00, 0x00, 0x00, 0x00, 0x00, 0x00, 0x00, 0x00, 0x00, 0x00, 0x00, 0x00, 0x00, 0x00,
    0x00, 0x00, 0x00, 0x00, 0x00, 0x00, 0x00, 0x00, 0x00, 0x00, 0x00, 0x00, 0x00, 0x00, 0x00, 0x00,
    0x00, 0x00, 0x00, 0x00, 0x00, 0x00, 0x00, 0x00, 0x00, 0x00, 0x00, 0x00, 0x00, 0x00, 0x00, 0x00,
    0x00, 0x00, 0x00, 0x00, 0x00, 0x00, 0x00, 0x00, 0x00, 0x00, 0x00, 0x00, 0x00, 0x00, 0x00, 0x00,
    0x00, 0x00, 0x00, 0x00, 0x00, 0x00, 0x00, 0x00, 0x00, 0x00, 0x00, 0x00, 0x00, 0x00, 0x00, 0x00,
    0x00, 0x00, 0x00, 0x00, 0x00, 0x00, 0x00, 0x00, 0x00, 0x00, 0x00, 0x00, 0x00, 0x00, 0x00, 0x00,
    0x00, 0x00, 0x00, 0x00, 0x00, 0x00, 0x00, 0x00, 0x00, 0x00, 0x00, 0x00, 0x00, 0x00, 0x00, 0x00,
    0x00, 0x00, 0x00, 0x00, 0x00, 0x00, 0x00, 0x00, 0x00, 0x00, 0x00, 0x00, 0x00, 0x00, 0x00, 0x00,
    0x00, 0x00]

/-- Models `huffman.rs` 75 (`WEIGHT_TABLES`). -/
def weightTables : List (List Nat) := [byteToWeight00, byteToWeight01, byteToWeight02]

/-- Models `huffman.rs` 78-83 (`BitReader`): the bytes not yet taken, the bit buffer and its count.
`position` is the number of bytes taken, so it is not kept. -/
structure BitReader where
  data : List Byte
  buffer : Nat
  count : Nat

/-- Models `huffman.rs` 95-109 (`get_bit`). -/
def BitReader.getBit (r : BitReader) : Res (Nat × BitReader) :=
  if r.count = 0 then
    match r.data with
    | [] => .error .compression
    | b :: bs => .ok (b.toNat % 2, { data := bs, buffer := b.toNat / 2, count := 7 })
  else .ok (r.buffer % 2, { r with buffer := r.buffer / 2, count := r.count - 1 })

/-- Models `huffman.rs` 111-118 (`get_8_bits`): takes a whole byte, past any buffered bits. -/
def BitReader.get8Bits (r : BitReader) : Res (Nat × BitReader) :=
  match r.data with
  | [] => .error .compression
  | b :: bs => .ok (b.toNat, { r with data := bs })

/-- Models the `while` loop of `huffman.rs` 120-132 (`peek_7_bits`). The reader changes even when the
data ends early. -/
def BitReader.fill : List Byte → Nat → Nat → Bool × BitReader
  | [], buffer, count => (decide (7 ≤ count), { data := [], buffer, count })
  | b :: bs, buffer, count =>
    if count < 7 then BitReader.fill bs (buffer ||| b.toNat * 2 ^ count) (count + 8)
    else (true, { data := b :: bs, buffer, count })

/-- Models `huffman.rs` 120-132 (`peek_7_bits`): the seven bits when there are enough, and the reader
afterwards. -/
def BitReader.peek7Bits (r : BitReader) : Option Nat × BitReader :=
  match BitReader.fill r.data r.buffer r.count with
  | (true, r') => (some (r'.buffer % 128), r')
  | (false, r') => (none, r')

/-- Models `huffman.rs` 152-160 (`HuffmanItem`). The fields `parent`, `_next` and `_prev` are never
read and are left out. -/
structure HuffmanItem where
  value : Nat
  weight : Nat
  childLo : Option Nat
  deriving DecidableEq, Repr

/-- Models `huffman.rs` 230-237: items for the bytes of non-zero weight, from index `i` on. -/
def weightItems : Nat → List Nat → List HuffmanItem
  | _, [] => []
  | i, w :: ws => if w ≠ 0 then ⟨i, w, none⟩ :: weightItems (i + 1) ws else weightItems (i + 1) ws

/-- Insertion before the first item of greater weight. -/
def insertItem (x : HuffmanItem) : List HuffmanItem → List HuffmanItem
  | [] => [x]
  | y :: ys => if x.weight < y.weight then x :: y :: ys else y :: insertItem x ys

/-- Models `huffman.rs` 249 (`sort_by_key` on the weight, a stable sort). -/
def sortItems (xs : List HuffmanItem) : List HuffmanItem := xs.foldl (fun acc x => insertItem x acc) []

/-- Models the loop of `huffman.rs` 281-308: one parent per step, for `work_items` down to 2. The
bounds checks inside the loop never fire, since `work_items` starts at the number of items. -/
def buildInternal : Nat → List HuffmanItem → List HuffmanItem
  | 0, items => items
  | work + 1, items =>
    if work + 1 > 1 then
      let lo := work
      let hi := work - 1
      let wt := ((items[lo]?).map (·.weight)).getD 0 + ((items[hi]?).map (·.weight)).getD 0
      buildInternal work (items ++ [⟨0, wt, some lo⟩])
    else items

/-- Models `huffman.rs` 217-269 and 271-311 (`build_tree`, `build_internal_tree`). `items_by_byte`,
`last` and `is_cmp0` are never read; the quick links stay as `new` made them. -/
def buildTree (compressionType : Nat) : Res (List HuffmanItem) :=
  match weightTables[compressionType % 16]? with
  | none => .error .compression
  | some weights =>
    let items := sortItems (weightItems 0 weights ++ [⟨0x100, 1, none⟩, ⟨0x101, 1, none⟩])
    .ok (buildInternal items.length items)

/-- Models the traversal loop of `huffman.rs` 329-359. Every round takes a bit, so the fuel (more
than the bits left) is never used up; running out stands for a loop without end. -/
def traverse (items : List HuffmanItem) : Nat → Nat → BitReader → Res (Nat × BitReader)
  | 0, _, _ => .error .diverge
  | fuel + 1, cur, r =>
    match items[cur]? with
    | none => .error .compression
    | some item =>
      match item.childLo with
      | none => .ok (item.value, r)
      | some lo => do
        let (bit, r') ← r.getBit
        traverse items fuel (if bit = 0 then lo else if lo + 1 < items.length then lo + 1 else lo) r'

/-- Models `huffman.rs` 313-361 (`decode_one_byte`). All quick links have `valid_value` 0, which is
not above `min_valid_value` 1, so none is ever taken; peeking still refills the bit buffer. `first`
is item 0. -/
def decodeOneByte (items : List HuffmanItem) (r : BitReader) : Res (Nat × BitReader) :=
  let r' := r.peek7Bits.2
  traverse items (8 * r'.data.length + r'.count + 2) 0 r'

/-- Models the loop of `huffman.rs` 389-422. -/
def huffmanLoop (items : List HuffmanItem) (expected : Nat) :
    Nat → BitReader → List Byte → Res (List Byte)
  | 0, _, _ => .error .diverge
  | fuel + 1, r, out => do
    let (v, r') ← decodeOneByte items r
    if v = 0x100 then return out
    else if v = 0x1FF then throw .compression
    else if v = 0x101 then do
      let (b, r'') ← r'.get8Bits
      huffmanLoop items expected fuel r'' (out ++ [BitVec.ofNat 8 b])
    else if v > 255 then throw .compression
    else
      let out := out ++ [BitVec.ofNat 8 v]
      if out.length ≥ expected then return out
      else huffmanLoop items expected fuel r' out

/-- Models `huffman.rs` 365-431 (`decompress`). Each round of the loop adds a byte to the output or
takes one from the input, so the fuel is never used up. -/
def huffmanDecompress (data : List Byte) (expected : Nat) : Res (List Byte) :=
  match data with
  | [] => .ok []
  | t :: rest => do
    let items ← buildTree t.toNat
    huffmanLoop items expected (expected + data.length + 1) { data := rest, buffer := 0, count := 0 } []

/-- Models `huffman.rs` 434-443 (`compress`, a stub). -/
def huffmanCompress (data : List Byte) : Res (List Byte) :=
  if data = [] then .ok [] else .error .compression

end Mopaq
