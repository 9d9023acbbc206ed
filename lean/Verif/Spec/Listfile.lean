/-!
# Specification: names as texts

A name is a text, a list of Unicode scalar values; its bytes are its UTF-8 encoding.
-/

namespace Spec

/-- The numbers that are characters. -/
def scalar (c : Nat) : Prop := c < 0xD800 ∨ 0xE000 ≤ c ∧ c < 0x110000

/-- UTF-8 encoding of one character. -/
def utf8 (c : Nat) : List (BitVec 8) :=
  (if c < 0x80 then [c]
   else if c < 0x800 then [0xC0 + c / 64, 0x80 + c % 64]
   else if c < 0x10000 then [0xE0 + c / 4096, 0x80 + c / 64 % 64, 0x80 + c % 64]
   else [0xF0 + c / 262144, 0x80 + c / 4096 % 64, 0x80 + c / 64 % 64, 0x80 + c % 64]).map (BitVec.ofNat 8)

/-- UTF-8 encoding of a text. -/
def encode (text : List Nat) : List (BitVec 8) := text.flatMap utf8

/-- The characters Unicode calls white space. -/
def space (c : Nat) : Prop :=
  9 ≤ c ∧ c ≤ 13 ∨ c = 0x20 ∨ c = 0x85 ∨ c = 0xA0 ∨ c = 0x1680 ∨ 0x2000 ≤ c ∧ c ≤ 0x200A ∨ c = 0x2028 ∨ c = 0x2029 ∨
    c = 0x202F ∨ c = 0x205F ∨ c = 0x3000

/-- A name that can stand on a line of a listfile: not empty, no line feed and no semicolon in it, no white space at
either end, and no number sign at the start. -/
def listable (name : List Nat) : Prop :=
  name ≠ [] ∧ 0x0A ∉ name ∧ 0x3B ∉ name ∧ name.head? ≠ some 0x23 ∧
  (∀ c, name.head? = some c → ¬ space c) ∧ (∀ c, name.getLast? = some c → ¬ space c)

end Spec
