import Verif.Model.Basic

/-!
# IMA ADPCM (`mopaq/src/compression/algorithms/adpcm.rs`)

Samples are `i16`: a `BitVec 16` read through `toInt`. The `i32` arithmetic of the code stays far
inside the `i32` range (differences are below 2^16, step sizes below 2^15), so it is written with
unbounded `Int`/`Nat`. Shifts whose amount reaches the width of the shifted type are the one place
where the arithmetic checks can fail; they are `panic` here. The vectors `predicted_samples` and
`step_indexes` are one list of `Chan`.
-/

namespace Mopaq

/-- Models `adpcm.rs` 10 (`MAX_ADPCM_CHANNEL_COUNT`). -/
def maxChannels : Nat := 2

/-- Models `adpcm.rs` 13 (`INITIAL_ADPCM_STEP_INDEX`). -/
def initialStepIndex : Nat := 0x2C

/-- Models `adpcm.rs` 16-19 (`NEXT_STEP_TABLE`). -/
def nextStepTable : List Int := [
    -1, 0, -1, 4, -1, 2, -1, 6, -1, 1, -1, 5, -1, 3, -1, 7, -1, 1, -1, 5, -1, 3, -1, 7, -1, 2, -1,
    4, -1, 6, -1, 8]

/-- Models `adpcm.rs` 22-28 (`STEP_SIZE_TABLE`). -/
def stepSizeTable : List Nat := [
    7, 8, 9, 10, 11, 12, 13, 14, 16, 17, 19, 21, 23, 25, 28, 31, 34, 37, 41, 45, 50, 55, 60, 66,
    73, 80, 88, 97, 107, 118, 130, 143, 157, 173, 190, 209, 230, 253, 279, 307, 337, 371, 408, 449,
    494, 544, 598, 658, 724, 796, 876, 963, 1060, 1166, 1282, 1411, 1552, 1707, 1878, 2066, 2272,
    2499, 2749, 3024, 3327, 3660, 4026, 4428, 4871, 5358, 5894, 6484, 7132, 7845, 8630, 9493,
    10442, 11487, 12635, 13899, 15289, 16818, 18500, 20350, 22385, 24623, 27086, 29794, 32767]

/-- `STEP_SIZE_TABLE[i]`, with the bounds check. -/
def stepSize (i : Nat) : Res Nat :=
  match stepSizeTable[i]? with
  | some s => .ok s
  | none => .error .panic

/-- The state of one channel: `predicted_samples[ch]` and `step_indexes[ch]`. -/
structure Chan where
  pred : U16
  idx : Nat
  deriving DecidableEq, Repr

/-- Models `adpcm.rs` 283-291 (`read_sample`), applied to all whole samples in order. -/
def toSamples : List Byte → List U16
  | a :: b :: rest => ofLe16 [a, b] :: toSamples rest
  | _ => []

/-- Models `adpcm.rs` 294-297 (`write_sample`), applied to samples in order. -/
def ofSamples (xs : List U16) : List Byte := xs.flatMap le16

/-- Models `adpcm.rs` 300-311 (`get_next_step_index`). -/
def nextStepIndex (idx : Nat) (enc : Byte) : Res Nat :=
  match nextStepTable[(enc &&& 0x1F#8).toNat]? with
  | none => .error .panic
  | some change =>
    let n : Int := (idx : Int) + change
    .ok (if n < 0 then 0 else if n > 88 then 88 else n.toNat)

/-- Models `adpcm.rs` 314-323 (`update_predicted_sample`) and the `as i16` of its callers. -/
def updatePredicted (pred : U16) (enc : Byte) (difference : Nat) : U16 :=
  let new : Int := if enc &&& 0x40#8 ≠ 0#8 then pred.toInt - difference else pred.toInt + difference
  BitVec.ofInt 16 (max (-32768) (min new 32767))

/-- Models `adpcm.rs` 326-354 (`decode_sample`). -/
def decodeSample (pred : U16) (enc : Byte) (step base : Nat) : U16 :=
  let d := base
  let d := if enc &&& 0x01#8 ≠ 0#8 then d + step else d
  let d := if enc &&& 0x02#8 ≠ 0#8 then d + step / 2 else d
  let d := if enc &&& 0x04#8 ≠ 0#8 then d + step / 4 else d
  let d := if enc &&& 0x08#8 ≠ 0#8 then d + step / 8 else d
  let d := if enc &&& 0x10#8 ≠ 0#8 then d + step / 16 else d
  let d := if enc &&& 0x20#8 ≠ 0#8 then d + step / 32 else d
  updatePredicted pred enc d

/-- `i32 >> n` on a non-negative value: the check fails when `n` reaches 32. -/
def shr32 (v n : Nat) : Res Nat := if n < 32 then .ok (v / 2 ^ n) else .error .panic

/-- Models `adpcm.rs` 120-133: the `while` loop that raises the step index, counting the `0x81`
markers it pushes. The fuel stands for the iterations left; the index rises to 0x58 in at most 11. -/
def raiseStep (difference : Nat) : Nat → Nat → Nat → Res (Nat × Nat × Nat)
  | 0, _, _ => .error .diverge
  | fuel + 1, idx, step =>
    if difference > step * 2 then
      if idx ≥ 0x58 then .ok (0, idx, step)
      else do
        let idx' := if idx + 8 > 0x58 then 0x58 else idx + 8
        let step' ← stepSize idx'
        let (m, i, s) ← raiseStep difference fuel idx' step'
        return (m + 1, i, s)
    else .ok (0, idx, step)

/-- Models `adpcm.rs` 136-141: the highest bit used. `1 << (bit_shift - 1)` is an `u8` shift. -/
def maxBitMask (bitShift : Nat) : Res Nat :=
  if bitShift > 0 then
    if bitShift - 1 < 8 then .ok (min (2 ^ (bitShift - 1)) 0x20) else .error .panic
  else .ok 0

/-- Models `adpcm.rs` 146-158: choosing the bits, lowest first. The bit value doubles and stops above
the mask (at most 0x20); the fuel stands for the bits left. -/
def encodeBits (difference mask : Nat) : Nat → Nat → Nat → Nat → Byte → Nat × Byte
  | 0, _, _, total, enc => (total, enc)
  | fuel + 1, bit, work, total, enc =>
    if bit ≤ mask then
      if total + work ≤ difference then
        encodeBits difference mask fuel (bit * 2) (work / 2) (total + work) (enc ||| BitVec.ofNat 8 bit)
      else encodeBits difference mask fuel (bit * 2) (work / 2) total enc
    else (total, enc)

/-- Models `adpcm.rs` 98-172: the body of the loop for one sample of one channel. Returns the bytes
pushed and the new channel state. -/
def encodeSample (level bitShift : Nat) (c : Chan) (x : U16) : Res (List Byte × Chan) := do
  let d : Int := x.toInt - c.pred.toInt
  let difference := d.natAbs
  let enc : Byte := if d < 0 then 0x40#8 else 0#8
  let step ← stepSize c.idx
  let limit ← shr32 step level
  if difference < limit then
    return ([0x80#8], { c with idx := if c.idx > 0 then c.idx - 1 else c.idx })
  else do
    let (markers, idx, step) ← raiseStep difference 90 c.idx step
    let mask ← maxBitMask bitShift
    let base ← shr32 step bitShift
    let (total, enc) := encodeBits difference mask 8 1 step 0 enc
    let idx' ← nextStepIndex idx enc
    return (List.replicate markers 0x81#8 ++ [enc],
      { pred := updatePredicted c.pred enc (base + total), idx := idx' })

/-- `v[i]` on a vector of channel states, with the bounds check. -/
def chanAt (cs : List Chan) (i : Nat) : Res Chan :=
  match cs[i]? with
  | some c => .ok c
  | none => .error .panic

/-- Models `adpcm.rs` 91-175: the loop over the samples after the initial ones. -/
def encodeLoop (level bitShift n : Nat) : List U16 → Nat → List Chan → Res (List Byte)
  | [], _, _ => .ok []
  | x :: xs, ch, cs => do
    let ch := (ch + 1) % n
    let c ← chanAt cs ch
    let (bytes, c') ← encodeSample level bitShift c x
    let rest ← encodeLoop level bitShift n xs ch (cs.set ch c')
    return bytes ++ rest

/-- Models `adpcm.rs` 41-178 (`compress_internal`). -/
def adpcmCompress (input : List Byte) (level n : Nat) : Res (List Byte) :=
  if n = 0 ∨ n > maxChannels then .error .compression
  else if input.length % 2 ≠ 0 then .error .compression
  else
    let samples := toSamples input
    if samples.length = 0 then .ok []
    else if samples.length / n = 0 ∨ samples.length % n ≠ 0 then .error .compression
    else do
      let bitShift := if level = 0 then 0 else level - 1
      let initial := samples.take n
      let chans := initial.map fun s => { pred := s, idx := initialStepIndex : Chan }
      let rest ← encodeLoop level bitShift n (samples.drop n) (n - 1) chans
      return [0#8, BitVec.ofNat 8 bitShift] ++ ofSamples initial ++ rest

/-- Models `adpcm.rs` 236-277: the decoding loop. `out` is the number of bytes written so far. -/
def decodeLoop (bitShift n outputSize : Nat) : List Byte → Nat → Nat → List Chan → Res (List Byte)
  | [], _, _, _ => .ok []
  | b :: bs, out, ch, cs =>
    if out < outputSize then do
      let ch := (ch + 1) % n
      let c ← chanAt cs ch
      if b = 0x80#8 then do
        let c' : Chan := { c with idx := if c.idx > 0 then c.idx - 1 else c.idx }
        let rest ← decodeLoop bitShift n outputSize bs (out + 2) ch (cs.set ch c')
        return le16 c.pred ++ rest
      else if b = 0x81#8 then
        let c' : Chan := { c with idx := if c.idx + 8 > 0x58 then 0x58 else c.idx + 8 }
        decodeLoop bitShift n outputSize bs out ((ch + n - 1) % n) (cs.set ch c')
      else do
        let step ← stepSize c.idx
        let base ← shr32 step bitShift
        let pred := decodeSample c.pred b step base
        let idx ← nextStepIndex c.idx b
        let rest ← decodeLoop bitShift n outputSize bs (out + 2) ch (cs.set ch { pred, idx })
        return le16 pred ++ rest
    else .ok []

/-- Models `adpcm.rs` 191-280 (`decompress_internal`). The initial samples are the 16-bit words
after the two header bytes; one of them missing is an error. The output buffer (222) cannot have more than `isize::MAX`
bytes: asking for one panics. -/
def adpcmDecompress (input : List Byte) (outputSize n : Nat) : Res (List Byte) :=
  if n = 0 ∨ n > maxChannels then .error .compression
  else if input = [] ∧ outputSize = 0 then .ok []
  else match input with
    | _zero :: shift :: a :: b :: rest =>
      let body := a :: b :: rest
      if 2 ^ 63 ≤ outputSize then .error .panic
      else if body.length < 2 * n then .error .compression
      else do
        let initial := toSamples (body.take (2 * n))
        let chans := initial.map fun s => { pred := s, idx := initialStepIndex : Chan }
        let out ← decodeLoop shift.toNat n outputSize (body.drop (2 * n)) (2 * n) (n - 1) chans
        return ofSamples initial ++ out
    | _ => .error .compression

end Mopaq
