/-! # Specification: file positions in the C API -/

namespace Spec

/-- The distance to move: a signed 32-bit number, or with a high half the signed 64-bit number put together from both. -/
def distance (low : BitVec 32) (high : Option (BitVec 32)) : Int :=
  match high with
  | none => low.toInt
  | some h => h.toInt * 2 ^ 32 + low.toNat

/-- Where the distance is measured from: 0 is the start, 1 the current position, 2 the end. -/
def origin (method position length : Nat) : Option Nat :=
  match method with
  | 0 => some 0
  | 1 => some position
  | 2 => some length
  | _ => none

/-- A target position, clamped to the file. -/
def clamp (target : Int) (length : Nat) : Nat := (max 0 (min target length)).toNat

end Spec
