import Verif.Model.Archive

/-! # What errors tell about themselves -/

namespace Mopaq

/-- Models `mopaq/src/error.rs` 132-142 (`is_corruption`). A panic is not a value and has no class. -/
def Err.isCorruption : Err → Bool
  | .invalidFormat | .checksumMismatch | .md5Mismatch | .signatureVerification | .invalidHeader => true
  | _ => false

/-- Models `mopaq/src/error.rs` 144-150 (`is_recoverable`). -/
def Err.isRecoverable : Err → Bool
  | .fileNotFound | .readOnly | .operationNotSupported => true
  | _ => false

end Mopaq
