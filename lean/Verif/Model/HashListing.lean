import Verif.Model.Archive

/-! # Listings with name hashes -/

namespace Mopaq

/-- An entry of a listing with the hashes beside it (`hashes` of `FileEntry`, `mopaq/src/archive.rs` 1875-1886). -/
abbrev HashedEntry := FileEntry × Option (U32 × U32)

/-- Models `mopaq/src/archive.rs` 1126-1137 (`list_with_hashes`). -/
def Archive.listWithHashes (e : Env) (a : Archive) : Res (List HashedEntry) := do
  let entries ← a.list e
  return entries.map fun x => (x, some (hashString x.name htNameA, hashString x.name htNameB))

/-- Models `mopaq/src/archive.rs` 1184-1207: the entries of the classic tables, each block once. -/
def hashedEntries (blockTable : List BlockEntry) : List Nat → HashTable → List HashedEntry
  | _, [] => []
  | seen, entry :: rest =>
    if entry.isValid then
      if entry.blockIndex.toNat ∈ seen then hashedEntries blockTable seen rest
      else
        match blockEntryOf blockTable entry.blockIndex.toNat entry.blockIndex.toNat with
        | some x => (x, some (entry.name1, entry.name2)) :: hashedEntries blockTable (entry.blockIndex.toNat :: seen) rest
        | none => hashedEntries blockTable (entry.blockIndex.toNat :: seen) rest
    else hashedEntries blockTable seen rest

/-- Models `mopaq/src/archive.rs` 1140-1213 (`list_all_with_hashes`). -/
def Archive.listAllWithHashes (a : Archive) : Res (List HashedEntry) := do
  let entries ← a.betListing
  if entries ≠ [] then return entries.map fun x => (x, none)
  match a.hashTable, a.blockTable with
  | some hashTable, some blockTable =>
    return (hashedEntries blockTable [] hashTable).mergeSort fun x y => nameLe x.1.name y.1.name
  | _, _ => throw .invalidFormat

end Mopaq
