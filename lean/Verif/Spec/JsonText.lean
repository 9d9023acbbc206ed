import Verif.Spec.Json

/-!
# What a JSON text denotes

RFC 8259. A number denotes its literal; what the literal stands for is left to the reader.
-/

namespace Spec

/-- A JSON value. -/
inductive Json where
  | null
  | bool (b : Bool)
  | num (literal : List (BitVec 8))
  | str (text : List (BitVec 8))
  | arr (items : List Json)
  | obj (members : List (List (BitVec 8) × Json))

/-- Decimal digits, at least one. -/
def JsonDigits (ds : List (BitVec 8)) : Prop := ds ≠ [] ∧ ∀ c ∈ ds, 0x30 ≤ c.toNat ∧ c.toNat ≤ 0x39

/-- A number (RFC 8259, section 6). -/
def JsonNumber (literal : List (BitVec 8)) : Prop :=
  ∃ minus int frac exp, literal = minus ++ int ++ frac ++ exp ∧
    (minus = [] ∨ minus = [0x2D#8]) ∧
    (int = [0x30#8] ∨ JsonDigits int ∧ int.head? ≠ some 0x30#8) ∧
    (frac = [] ∨ ∃ ds, JsonDigits ds ∧ frac = 0x2E#8 :: ds) ∧
    (exp = [] ∨ ∃ e sign ds, JsonDigits ds ∧ (e = 0x65#8 ∨ e = 0x45#8) ∧ (sign = [] ∨ sign = [0x2B#8] ∨ sign = [0x2D#8]) ∧
      exp = e :: sign ++ ds)

/-- What a piece of text is: a value, the inside of an array that is not empty, the inside of an object that is not empty. -/
inductive JsonPart where
  | value
  | items
  | members

/-- `JsonReads part text v`: the text is such a piece and stands for `v`. -/
inductive JsonReads : JsonPart → List (BitVec 8) → Json → Prop where
  | null : JsonReads .value [0x6E#8, 0x75#8, 0x6C#8, 0x6C#8] .null
  | true : JsonReads .value [0x74#8, 0x72#8, 0x75#8, 0x65#8] (.bool true)
  | false : JsonReads .value [0x66#8, 0x61#8, 0x6C#8, 0x73#8, 0x65#8] (.bool false)
  | num (lit) : JsonNumber lit → JsonReads .value lit (.num lit)
  | str (lit text) : JsonString lit text → JsonReads .value ([0x22#8] ++ lit ++ [0x22#8]) (.str text)
  | emptyArr (w) : JsonSpace w → JsonReads .value ([0x5B#8] ++ w ++ [0x5D#8]) (.arr [])
  | arr (body vs) : JsonReads .items body (.arr vs) → JsonReads .value ([0x5B#8] ++ body ++ [0x5D#8]) (.arr vs)
  | emptyObj (w) : JsonSpace w → JsonReads .value ([0x7B#8] ++ w ++ [0x7D#8]) (.obj [])
  | obj (body ms) : JsonReads .members body (.obj ms) → JsonReads .value ([0x7B#8] ++ body ++ [0x7D#8]) (.obj ms)
  | lastItem (w1 lit w2 v) : JsonSpace w1 → JsonSpace w2 → JsonReads .value lit v →
      JsonReads .items (w1 ++ (lit ++ w2)) (.arr [v])
  | item (w1 lit w2 rest v vs) : JsonSpace w1 → JsonSpace w2 → JsonReads .value lit v → JsonReads .items rest (.arr vs) →
      JsonReads .items (w1 ++ (lit ++ (w2 ++ 0x2C#8 :: rest))) (.arr (v :: vs))
  | lastMember (w1 key name w2 w3 lit w4 v) : JsonSpace w1 → JsonSpace w2 → JsonSpace w3 → JsonSpace w4 →
      JsonString key name → JsonReads .value lit v →
      JsonReads .members (w1 ++ 0x22#8 :: (key ++ 0x22#8 :: (w2 ++ 0x3A#8 :: (w3 ++ (lit ++ w4))))) (.obj [(name, v)])
  | member (w1 key name w2 w3 lit w4 rest v ms) : JsonSpace w1 → JsonSpace w2 → JsonSpace w3 → JsonSpace w4 →
      JsonString key name → JsonReads .value lit v → JsonReads .members rest (.obj ms) →
      JsonReads .members (w1 ++ 0x22#8 :: (key ++ 0x22#8 :: (w2 ++ 0x3A#8 :: (w3 ++ (lit ++ (w4 ++ 0x2C#8 :: rest))))))
        (.obj ((name, v) :: ms))

/-- A JSON text: a value, with blank space around it. -/
def JsonText (text : List (BitVec 8)) (v : Json) : Prop :=
  ∃ w1 lit w2, JsonSpace w1 ∧ JsonSpace w2 ∧ JsonReads .value lit v ∧ text = w1 ++ (lit ++ w2)

/-- The member of an object with a name. -/
def Json.member (name : List (BitVec 8)) : Json → Option Json
  | .obj members => (members.find? fun m => m.1 == name).map (·.2)
  | _ => none

/-- The value found by going from member to member. -/
def Json.at : List (List (BitVec 8)) → Json → Option Json
  | [], v => some v
  | name :: names, v => (v.member name).bind (Json.at names)

end Spec
