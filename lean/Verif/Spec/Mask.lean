/-!
# Specification: file masks

`*` stands for any number of bytes, `?` for one byte, every other byte for itself.
-/

namespace Spec

/-- `Wild mask name`: the name fits the mask. -/
inductive Wild : List (BitVec 8) → List (BitVec 8) → Prop where
  | nil : Wild [] []
  | starNone {mask name} : Wild mask name → Wild (0x2A#8 :: mask) name
  | starMore {mask name} (b) : Wild (0x2A#8 :: mask) name → Wild (0x2A#8 :: mask) (b :: name)
  | any {mask name} (b) : Wild mask name → Wild (0x3F#8 :: mask) (b :: name)
  | byte {mask name} (b) : b ≠ 0x2A#8 → b ≠ 0x3F#8 → Wild mask name → Wild (b :: mask) (b :: name)

end Spec
