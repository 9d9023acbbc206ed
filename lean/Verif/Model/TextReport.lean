import Verif.Model.Report
import Verif.Model.Figures

/-!
# Reports for people

Models the text that `archive info` and `archive verify` print, without colours (`colored` writes none when the output is not a
terminal) and, for `verify`, without `--verbose`.
-/

namespace Mopaq

/-- A line, in two parts that are printed one after the other. -/
abbrev TextLine := List Byte × List Byte

/-- `{:X}`. -/
def hexDigits : Nat → Nat → List Byte
  | 0, _ => []
  | fuel + 1, n => (if n < 16 then [] else hexDigits fuel (n / 16)) ++ [hexDigit (n % 16)]

/-- `{:X}` of any number; it has fewer digits than `n + 1`. -/
def hexText (n : Nat) : List Byte := hexDigits (n + 1) n

/-- `"=".repeat(60)` and `"-".repeat(60)` -/
def doubleRule : TextLine := (List.replicate 60 0x3D#8, [])
def singleRule : TextLine := (List.replicate 60 0x2D#8, [])

/-- A heading and the line below it. -/
def heading (title : List Byte) (rule : TextLine) : List TextLine := [(title, []), rule]

/-- The lines of blocks, an empty line in front of every block but the first. -/
def blockLines : List (List TextLine) → List (List Byte)
  | [] => []
  | b :: bs => b.map (fun l => l.1 ++ l.2) ++ bs.flatMap fun b => [] :: b.map fun l => l.1 ++ l.2

/-- `println!` for every line. -/
def printLines (lines : List (List Byte)) : List Byte := lines.flatMap outLine

/-- Models `storm-cli/src/output.rs` 206-215 (`format_signature_status`) and `storm-cli/src/commands/archive.rs` 388-399. -/
def SignatureStatus.text : SignatureStatus → List Byte
  | .none => word "No signature"
  | .weakValid => word "Weak signature (Valid)"
  | .weakInvalid => word "Weak signature (Invalid)"
  | .strongValid => word "Strong signature (Valid)"
  | .strongInvalid => word "Strong signature (Invalid)"
  | .strongNoKey => word "Strong signature (No public key)"

/-- ` (compressed: {} bytes)` -/
def compressedText : Option U64 → List Byte
  | some n => word " (compressed: " ++ decimal n.toNat ++ word " bytes)"
  | none => []

/-- Models `storm-cli/src/output.rs` 154-175 (`print_table_info`), behind the name. -/
def tableText (t : TableInfo) : List Byte :=
  (if t.failedToLoad then word "Failed to load" ++ compressedText t.compressedSize
   else match t.size with
     | some n => decimal n.toNat ++ word " entries"
     | none => word "Unknown size") ++
  word " @ 0x" ++ hexText t.offset.toNat ++ (if t.failedToLoad then [] else compressedText t.compressedSize)

/-- Models `storm-cli/src/output.rs` 177-187 (`print_md5_status`), behind the name. -/
def validText (b : Bool) : List Byte := if b then word "Valid" else word "Invalid"

/-- Models `storm-cli/src/output.rs` 101-121: a special file. -/
def presentText (b : Bool) : List Byte := if b then word "Present" else word "Not present"

/-- Models `storm-cli/src/output.rs` 85-98: the tables. -/
def tableLines (info : ArchiveInfo) : List TextLine :=
  [(word "Hash table: ", tableText info.hashTableInfo), (word "Block table: ", tableText info.blockTableInfo)] ++
    (info.hetTableInfo.map fun t => (word "HET table: ", tableText t)).toList ++
    (info.betTableInfo.map fun t => (word "BET table: ", tableText t)).toList ++
    (info.hiBlockTableInfo.map fun t => (word "Hi-block table: ", tableText t)).toList

/-- Models `storm-cli/src/output.rs` 123-137: the user data. -/
def userDataBlock (u : U32 × U32) : List TextLine :=
  heading (word "User Data") singleRule ++
    [(word "Header size: ", decimal u.1.toNat ++ word " bytes"), (word "Data size: ", decimal u.2.toNat ++ word " bytes")]

/-- Models `storm-cli/src/output.rs` 139-149: the MD5 digests. -/
def md5Block (m : Md5Status) : List TextLine :=
  heading (word "MD5 Checksums (v4)") singleRule ++
    [(word "MPQ header: ", validText m.headerValid), (word "Hash table: ", validText m.hashTableValid),
      (word "Block table: ", validText m.blockTableValid), (word "Hi-block table: ", validText m.hiBlockTableValid),
      (word "HET table: ", validText m.hetTableValid), (word "BET table: ", validText m.betTableValid)]

/-- Models `storm-cli/src/output.rs` 30-152 (`print_archive_info_text`). -/
def infoBlocks (up : Nat → Bool) (path : List Byte) (info : ArchiveInfo) : List (List TextLine) :=
  [heading (word "Archive Information") doubleRule ++
      [(word "Archive path: ", path), (word "Archive size: ", formatSize up info.fileSize ++ word " bytes"),
        (word "Archive offset: ", word "0x" ++ hexText info.archiveOffset),
        (word "Format version: ", word "v" ++ decimal (versionNumber info.formatVersion))],
    heading (word "File Statistics") singleRule ++
      [(word "Number of files: ", decimal info.fileCount), (word "Maximum file capacity: ", decimal info.maxFileCount.toNat),
        (word "Sector size: ", decimal info.sectorSize ++ word " bytes")],
    heading (word "Security Information") singleRule ++
      [(word "Encrypted: ", if info.isEncrypted then word "Yes" else word "No"),
        (word "Digital signature: ", info.signatureStatus.text)],
    heading (word "Table Information") singleRule ++ tableLines info,
    heading (word "Special Files") singleRule ++
      [(word "(attributes) file: ", presentText info.hasAttributes), (word "(listfile) file: ", presentText info.hasListfile)]] ++
    (info.userDataInfo.map userDataBlock).toList ++ (info.md5Status.map md5Block).toList

/-- Models `storm-cli/src/commands/archive.rs` 149-157 (`info`) with `storm-cli/src/output.rs` 15-28, for text: what is printed
about the archive at a path with these bytes. -/
def cliInfoText (e : Env) (s : SigEnv) (up : Nat → Bool) (path f : List Byte) : Res (List Byte) := do
  let a ← openArchive e f
  let info ← a.getInfo e s
  return printLines (blockLines (infoBlocks up path info))

/-- The marks of files that passed, of files that failed and of warnings (UTF-8). -/
def passMark : List Byte := [0xE2, 0x9C, 0x93]
def failMark : List Byte := [0xE2, 0x9C, 0x97]
def warnMark : List Byte := [0xE2, 0x9A, 0xA0]

/-- Models `storm-cli/src/commands/archive.rs` 404-441: whether a table was loaded. -/
def loadedText (failed : Bool) : List Byte := if failed then word "Failed to load" else word "Loaded successfully"

/-- Models `storm-cli/src/commands/archive.rs` 443-495. -/
def md5CheckBlock (m : Md5Status) : List TextLine :=
  heading (word "MD5 Checksum Verification (v4)") singleRule ++
    [(word "Header MD5:         ", validText m.headerValid), (word "Hash Table MD5:     ", validText m.hashTableValid),
      (word "Block Table MD5:    ", validText m.blockTableValid), (word "Hi-Block Table MD5: ", validText m.hiBlockTableValid),
      (word "HET Table MD5:      ", validText m.hetTableValid), (word "BET Table MD5:      ", validText m.betTableValid)]

/-- Models `storm-cli/src/commands/archive.rs` 531-536. -/
def warningBlock (warnings : List (List Byte)) : List (List TextLine) :=
  if warnings.isEmpty then []
  else [(word "Warnings:", []) :: warnings.map fun n => (word "  " ++ warnMark ++ word " ", crcWarning n)]

/-- Models `storm-cli/src/commands/archive.rs` 539-544. -/
def errorBlock (message : List Byte → List Byte) (errors : List (List Byte)) : List (List TextLine) :=
  if errors.isEmpty then []
  else [(word "Errors:", []) :: errors.map fun n => (word "  " ++ failMark ++ word " ", n ++ word " - " ++ message n)]

/-- Models `storm-cli/src/commands/archive.rs` 162-164 and 361-553: the first block is the line printed before the archive is
opened. `message` is the text of the error about a file. The product that the percentage needs fits into 64 bits. -/
def verifyBlocks (message : List Byte → List Byte) (path : List Byte) (r : VerifyReport) : List (List TextLine) :=
  [[(word "Verifying archive: ", path)],
    heading (word "Archive Verification Report") doubleRule ++
      [(word "Archive: ", path), (word "Format: ", word "MPQ v" ++ decimal (versionNumber r.info.formatVersion))],
    heading (word "Header Verification") singleRule ++
      [(word "MPQ Signature:      ", word "Valid"),
        (word "Format Version:     ", word "Supported (v" ++ decimal (versionNumber r.info.formatVersion) ++ word ")"),
        (word "Digital Signature:  ", r.info.signatureStatus.text)],
    heading (word "Table Verification") singleRule ++
      [(word "Hash Table:         ", loadedText r.info.hashTableInfo.failedToLoad),
        (word "Block Table:        ", loadedText r.info.blockTableInfo.failedToLoad)] ++
      (r.info.hetTableInfo.map fun t => (word "HET Table:          ", loadedText t.failedToLoad)).toList ++
      (r.info.betTableInfo.map fun t => (word "BET Table:          ", loadedText t.failedToLoad)).toList] ++
    (r.info.md5Status.map md5CheckBlock).toList ++
    [heading (word "File Verification Summary") singleRule ++
      [(word "Total Files:        ", decimal r.totalFiles), (word "Files Found:        ", decimal r.filesFound),
        (word "Files Readable:     ", decimal r.filesReadable), (word "Files Missing:      ", decimal r.filesMissing),
        (word "Files Corrupted:    ", decimal r.filesCorrupted)],
      [(word "Verified:           ", decimal r.verifiedFiles ++ word " / " ++ decimal r.totalFiles ++ word " (" ++
        decimal (r.verifiedFiles * 100 / max r.totalFiles 1) ++ word "%)")]] ++
    warningBlock r.warnings ++ errorBlock message r.errors ++
    [heading (word "Overall Status") doubleRule ++
      [if r.errors.isEmpty then (passMark, word " Archive verification PASSED") else (failMark, word " Archive verification FAILED")]]

/-- Models `storm-cli/src/commands/archive.rs` 159-303 (`verify`) with 351-553, for text: what is printed, and how the command
ends. -/
def cliVerifyText (e : Env) (s : SigEnv) (message : List Byte → List Byte) (quiet : Bool) (path f : List Byte)
    (checkCrc checkContents : Bool) : List Byte × Res Unit :=
  match cliVerifyReport e s f checkCrc checkContents with
  | .error err => (if quiet then [] else outLine (word "Verifying archive: " ++ path), .error err)
  | .ok r =>
    (if quiet then [] else printLines (blockLines (verifyBlocks message path r)),
      if r.errors = [] then .ok () else .error .invalidFormat)

end Mopaq
