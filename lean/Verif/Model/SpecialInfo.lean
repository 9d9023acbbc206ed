import Verif.Model.Signature
import Verif.Model.Listfile
import Verif.Model.Report

/-!
# What the library says about special files
-/

namespace Mopaq

/-- Models `mopaq/src/special_files/info.rs` 5-12 (`SpecialFileInfo`). -/
structure SpecialFileInfo where
  name : List Byte
  encrypted : Bool
  compressed : Bool
  deriving DecidableEq, Repr

/-- Models `mopaq/src/special_files/info.rs` 15-39 (`get_special_file_info`). -/
def specialFileInfo (name : List Byte) : Option SpecialFileInfo :=
  if name = listfileName then some ⟨listfileName, false, true⟩
  else if name = attributesName then some ⟨attributesName, false, true⟩
  else if name = signatureName then some ⟨signatureName, false, false⟩
  else if name = word "(user data)" then some ⟨word "(user data)", false, false⟩
  else none

end Mopaq
