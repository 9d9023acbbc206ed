import Verif.Spec.Format
import Verif.Model.Basic

/-!
# Other bytes in one sector of a file
-/

namespace Spec

open Mopaq (Byte Res)

/-- What is read if other bytes come to stand in one sector of a file: `read` is what reading the file then gives, `y` what
stands in the sector, after decryption; `packed` is what stood there before. `before`, `x` and `after` are the content up to the
sector, in it and behind it. `whole` says that all sectors of the file are full.

A sector that is stored as it is gives what stands there. A compressed one is decompressed: if that fails, so does reading; if
it gives as many bytes as before, only they are different; in any case the content up to the sector is as before. If it gives
fewer bytes and all sectors are full, reading succeeds, and the content behind the sector moves. -/
structure SectorDamage (unpack : Byte → List Byte → Nat → Res (List Byte)) (whole : Prop) (packed x y before after : List Byte)
    (read : Res (List Byte)) : Prop where
  plain : packed.length = x.length → read = .ok (before ++ y ++ after)
  broken : packed.length < x.length → ∀ method body err, y = method :: body → unpack method body x.length = .error err →
    read = .error err
  sameLength : packed.length < x.length → ∀ method body x', y = method :: body → unpack method body x.length = .ok x' →
    x'.length = x.length → read = .ok (before ++ x' ++ after)
  otherLength : packed.length < x.length → ∀ method body x', y = method :: body → unpack method body x.length = .ok x' →
    ∀ data', read = .ok data' → before ++ x' <+: data'
  shorter : packed.length < x.length → ∀ method body x', y = method :: body → unpack method body x.length = .ok x' →
    x'.length < x.length → whole → read = .ok (before ++ x' ++ after)

end Spec
