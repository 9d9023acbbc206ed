import Verif.Spec.Listfile

/-!
# What a JSON object of strings denotes

The part of RFC 8259 needed for objects whose members are strings. Texts are UTF-8.
-/

namespace Spec

/-- `"`, `\`, `/`, and the letters of the two-character escapes with what they stand for. -/
def jsonEscapes : List (BitVec 8 × BitVec 8) :=
  [(0x22#8, 0x22#8), (0x5C#8, 0x5C#8), (0x2F#8, 0x2F#8), (0x62#8, 0x08#8), (0x66#8, 0x0C#8), (0x6E#8, 0x0A#8),
    (0x72#8, 0x0D#8), (0x74#8, 0x09#8)]

/-- The value of a hexadecimal digit. -/
def hexDigitValue (c : BitVec 8) : Option Nat :=
  if 48 ≤ c.toNat ∧ c.toNat ≤ 57 then some (c.toNat - 48)
  else if 65 ≤ c.toNat ∧ c.toNat ≤ 70 then some (c.toNat - 55)
  else if 97 ≤ c.toNat ∧ c.toNat ≤ 102 then some (c.toNat - 87)
  else none

/-- Four hexadecimal digits and their value. -/
def JsonHex (hex : List (BitVec 8)) (code : Nat) : Prop :=
  ∃ a b c d, hex.map hexDigitValue = [some a, some b, some c, some d] ∧ code = ((a * 16 + b) * 16 + c) * 16 + d

/-- `JsonString literal text`: between quotation marks, `literal` stands for `text`. -/
inductive JsonString : List (BitVec 8) → List (BitVec 8) → Prop where
  | nil : JsonString [] []
  | plain (c lit text) : 0x20 ≤ c.toNat → c ≠ 0x22#8 → c ≠ 0x5C#8 → JsonString lit text → JsonString (c :: lit) (c :: text)
  | escape (c d lit text) : (c, d) ∈ jsonEscapes → JsonString lit text → JsonString (0x5C#8 :: c :: lit) (d :: text)
  | unicode (hex code lit text) : JsonHex hex code → code < 0xD800 ∨ 0xE000 ≤ code → JsonString lit text →
      JsonString (0x5C#8 :: 0x75#8 :: hex ++ lit) (utf8 code ++ text)
  | surrogates (hex high hex' low lit text) : JsonHex hex high → 0xD800 ≤ high → high < 0xDC00 → JsonHex hex' low →
      0xDC00 ≤ low → low < 0xE000 → JsonString lit text →
      JsonString (0x5C#8 :: 0x75#8 :: hex ++ 0x5C#8 :: 0x75#8 :: hex' ++ lit)
        (utf8 (0x10000 + (high - 0xD800) * 0x400 + (low - 0xDC00)) ++ text)

/-- Blank space. -/
def JsonSpace (w : List (BitVec 8)) : Prop := ∀ c ∈ w, c ∈ [0x20#8, 0x09#8, 0x0A#8, 0x0D#8]

/-- A member of an object: name and value, both strings. -/
def JsonMember (out : List (BitVec 8)) (member : List (BitVec 8) × List (BitVec 8)) : Prop :=
  ∃ w1 key w2 w3 value w4, JsonSpace w1 ∧ JsonSpace w2 ∧ JsonSpace w3 ∧ JsonSpace w4 ∧
    JsonString key member.1 ∧ JsonString value member.2 ∧
    out = w1 ++ [0x22#8] ++ key ++ [0x22#8] ++ w2 ++ [0x3A#8] ++ w3 ++ [0x22#8] ++ value ++ [0x22#8] ++ w4

/-- The members of an object, with commas between them. -/
inductive JsonMembers : List (BitVec 8) → List (List (BitVec 8) × List (BitVec 8)) → Prop where
  | one (out m) : JsonMember out m → JsonMembers out [m]
  | cons (out rest m ms) : JsonMember out m → JsonMembers rest ms → JsonMembers (out ++ [0x2C#8] ++ rest) (m :: ms)

/-- An object with these members. -/
def JsonObject (out : List (BitVec 8)) (members : List (List (BitVec 8) × List (BitVec 8))) : Prop :=
  ∃ w1 body w2, JsonSpace w1 ∧ JsonSpace w2 ∧ JsonMembers body members ∧ out = w1 ++ [0x7B#8] ++ body ++ [0x7D#8] ++ w2

end Spec
