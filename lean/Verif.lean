import Verif.Props.Crypto
import Verif.Props.HashTable
import Verif.Props.Tables
import Verif.Props.Header
import Verif.Props.Compression
import Verif.Props.FileIO
import Verif.Props.HetBet
import Verif.Props.Listfile
import Verif.Props.Attributes
import Verif.Props.Builder
import Verif.Props.Layout
import Verif.Props.Listing
import Verif.Props.Signature
import Verif.Props.FfiFile
import Verif.Props.Ffi
import Verif.Props.Cli
import Verif.Props.Publish
import Verif.Props.FfiIsolation
import Verif.Props.FfiVerify
import Verif.Props.Enumerate
import Verif.Props.Info
import Verif.Props.CliVerify
import Verif.Props.Extended
import Verif.Props.Duplicates
import Verif.Props.CliCreate
import Verif.Props.Deferred
import Verif.Props.Create
import Verif.Props.HashListing
import Verif.Props.AttributesOpen
import Verif.Props.Analyze
import Verif.Props.BuilderCalls
import Verif.Props.CliList
import Verif.Props.Spelling
import Verif.Props.CliFile
import Verif.Props.CliHash
import Verif.Props.FfiLocal
import Verif.Props.Config
import Verif.Props.FfiSession
import Verif.Props.ErrorKind
import Verif.Props.InfoTables
import Verif.Props.Report
import Verif.Props.Truncated
import Verif.Props.CutTables
import Verif.Props.OpenTotal
import Verif.Props.FfiArchiveVerify
import Verif.Props.Damage
import Verif.Props.Io
import Verif.Props.Order
import Verif.Props.Memory
import Verif.Props.Format
import Verif.Props.FormatWrite
import Verif.Props.Deleted
import Verif.Props.FfiMemory
import Verif.Props.FfiPointers
import Verif.Props.SectorDamage
import Verif.Props.FormatArchive
import Verif.Props.Repack
import Verif.Props.MemoryRead
import Verif.Props.Figures
import Verif.Props.LargeFiles
import Verif.Props.AudioQuality
import Verif.Props.TextReport
import Verif.Props.TextVerify
import Verif.Props.ListLines
import Verif.Props.Extensions
import Verif.Props.TextAnalysis
import Verif.Props.FullAnalysis
import Verif.Props.VerboseVerify
import Verif.Props.VerboseList
import Verif.Props.ListOutput
import Verif.Props.StoredFlags
