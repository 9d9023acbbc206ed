/-!
# Where a path leads

Specification of Unix paths without symbolic links: an independent reading, character by character.
-/

namespace Spec

/-- A place in the directory tree: from the root or from the working directory, so many levels up, then down through the
named directories. -/
structure Place where
  rooted : Bool
  up : Nat
  down : List (List (BitVec 8))
  deriving DecidableEq, Repr

/-- Following one part of a path. -/
def Place.enter (p : Place) (part : List (BitVec 8)) : Place :=
  if part = [] ∨ part = [0x2E#8] then p
  else if part = [0x2E#8, 0x2E#8] then
    if p.down = [] then (if p.rooted then p else { p with up := p.up + 1 }) else { p with down := p.down.dropLast }
  else { p with down := p.down ++ [part] }

/-- Following a path from a place, `part` being what was read of the current part. -/
def Place.follow (p : Place) (part : List (BitVec 8)) : List (BitVec 8) → Place
  | [] => p.enter part
  | c :: rest => if c = 0x2F#8 then (p.enter part).follow [] rest else p.follow (part ++ [c]) rest

/-- The place a path names. -/
def place (path : List (BitVec 8)) : Place :=
  Place.follow { rooted := path.head? = some 0x2F#8, up := 0, down := [] } [] path

/-- A place properly inside a directory. -/
def Place.inside (p dir : Place) : Prop := p.rooted = dir.rooted ∧ p.up = dir.up ∧ ∃ rest, rest ≠ [] ∧ p.down = dir.down ++ rest

/-- What is stored under each path. -/
abbrev Disk : Type := List (BitVec 8) → Option (List (BitVec 8))

/-- Writing files one after the other, each replacing what was there. -/
def Disk.writeAll (d : Disk) : List (List (BitVec 8) × List (BitVec 8)) → Disk
  | [] => d
  | (path, data) :: rest => Disk.writeAll (fun q => if q = path then some data else d q) rest

/-- The path of something below a directory. -/
def under (dir rel : List (BitVec 8)) : List (BitVec 8) :=
  if dir = [] ∨ dir.getLast? = some 0x2F#8 then dir ++ rel else dir ++ 0x2F#8 :: rel

/-- A path with every backslash turned into a slash. -/
def slashed (path : List (BitVec 8)) : List (BitVec 8) := path.map fun c => if c = 0x5C#8 then 0x2F#8 else c

/-- Which files below a directory are asked for: all of them or those directly in it, but none whose path contains one of
the texts to ignore. -/
def chosen (recursive : Bool) (ignore : List (List (BitVec 8))) (dir rel : List (BitVec 8)) : Bool :=
  decide ((recursive = true ∨ 0x2F#8 ∉ rel) ∧ ∀ text ∈ ignore, ¬ text <:+: under dir rel)

end Spec
