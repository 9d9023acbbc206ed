/-!
# Specification: sample values and zero runs

Nothing here refers to the model.
-/

namespace Spec

/-- The signed 16-bit little-endian sample number `i` of a byte string, if both its bytes are there. -/
def sampleAt (d : List (BitVec 8)) (i : Nat) : Option Int :=
  match d.drop (2 * i) with
  | lo :: hi :: _ =>
    let v : Int := lo.toNat + 256 * hi.toNat
    some (if v < 32768 then v else v - 65536)
  | _ => none

/-- No non-zero byte comes after 127 zero bytes in a row. -/
def NoLongZeroRun (d : List (BitVec 8)) : Prop :=
  ∀ before after, d = before ++ List.replicate 127 0#8 ++ after → ∀ b ∈ after, b = 0#8

end Spec
