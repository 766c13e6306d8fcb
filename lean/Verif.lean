import Verif.Model.AflTest
import Verif.Model.Basic
import Verif.Model.Bits
import Verif.Model.Bulletin
import Verif.Model.Compressed
import Verif.Model.Conv
import Verif.Model.Crex
import Verif.Model.Dump
import Verif.Model.Examples
import Verif.Model.Float
import Verif.Model.Format
import Verif.Model.Header
import Verif.Model.Heap
import Verif.Model.Icao
import Verif.Model.ImportTable
import Verif.Model.Input
import Verif.Model.Interp
import Verif.Model.Listing
import Verif.Model.Lua
import Verif.Model.Message
import Verif.Model.Notes
import Verif.Model.Options
import Verif.Model.Process
import Verif.Model.Python
import Verif.Model.PythonInfo
import Verif.Model.PythonTables
import Verif.Model.Round
import Verif.Model.Stream
import Verif.Model.Strings
import Verif.Model.Tabledir
import Verif.Model.TabledirPrint
import Verif.Model.Tables
import Verif.Model.Targets
import Verif.Model.Var
import Verif.Model.Varcode
import Verif.Model.Varinfo
import Verif.Model.Verbose
import Verif.Model.Wrep
import Verif.Spec.Assoc
import Verif.Spec.Bitmap
import Verif.Spec.Bits
import Verif.Spec.Bulletin
import Verif.Spec.Compressed
import Verif.Spec.Conv
import Verif.Spec.Crex
import Verif.Spec.CrexMessage
import Verif.Spec.Data
import Verif.Spec.Dump
import Verif.Spec.Field
import Verif.Spec.Format
import Verif.Spec.HeaderOctets
import Verif.Spec.ImportTable
import Verif.Spec.Interp
import Verif.Spec.Items
import Verif.Spec.Listing
import Verif.Spec.Lua
import Verif.Spec.Message
import Verif.Spec.Notes
import Verif.Spec.Num
import Verif.Spec.Operators
import Verif.Spec.Options
import Verif.Spec.Own
import Verif.Spec.Process
import Verif.Spec.Python
import Verif.Spec.PythonInfo
import Verif.Spec.PythonTables
import Verif.Spec.Reread
import Verif.Spec.Round
import Verif.Spec.Sane
import Verif.Spec.Stream
import Verif.Spec.StringField
import Verif.Spec.Strings
import Verif.Spec.Structure
import Verif.Spec.TableText
import Verif.Spec.Tabledir
import Verif.Spec.TabledirPrint
import Verif.Spec.Tables
import Verif.Spec.Tame
import Verif.Spec.Undef
import Verif.Spec.Validate
import Verif.Spec.Var
import Verif.Spec.Varcode
import Verif.Spec.Verbose
import Verif.Spec.Wrep
import Verif.Spec.WrepPrint
import Verif.Spec.WrepTables
import Verif.Lemmas.Alike
import Verif.Lemmas.Base64
import Verif.Lemmas.Bits
import Verif.Lemmas.CDecoderCare
import Verif.Lemmas.Care
import Verif.Lemmas.Codec
import Verif.Lemmas.Compressed
import Verif.Lemmas.CompressedSim
import Verif.Lemmas.Conv
import Verif.Lemmas.Crex
import Verif.Lemmas.CrexCare
import Verif.Lemmas.CrexMessage
import Verif.Lemmas.CrexSafe
import Verif.Lemmas.CrexTrailing
import Verif.Lemmas.Data
import Verif.Lemmas.DataSim
import Verif.Lemmas.Decimal
import Verif.Lemmas.DecimalUnique
import Verif.Lemmas.Decoded
import Verif.Lemmas.DecoderCare
import Verif.Lemmas.Float
import Verif.Lemmas.Header
import Verif.Lemmas.HeaderDec
import Verif.Lemmas.HeaderOctets
import Verif.Lemmas.ImportTable
import Verif.Lemmas.Interp
import Verif.Lemmas.Listing
import Verif.Lemmas.Local
import Verif.Lemmas.Moves
import Verif.Lemmas.Notes
import Verif.Lemmas.NumSetter
import Verif.Lemmas.Own
import Verif.Lemmas.Process
import Verif.Lemmas.Python
import Verif.Lemmas.PythonTables
import Verif.Lemmas.Reread
import Verif.Lemmas.Sane
import Verif.Lemmas.Sim
import Verif.Lemmas.Strings
import Verif.Lemmas.Strings2
import Verif.Lemmas.Structure
import Verif.Lemmas.TableText
import Verif.Lemmas.Tabledir
import Verif.Lemmas.Tables
import Verif.Lemmas.Tame
import Verif.Lemmas.Trailing
import Verif.Lemmas.Var
import Verif.Lemmas.VarCopy
import Verif.Lemmas.VarNum
import Verif.Lemmas.Varcode
import Verif.Lemmas.Varinfo
import Verif.Lemmas.Verbose
import Verif.Lemmas.VerboseCDec
import Verif.Lemmas.VerboseDec
import Verif.Lemmas.Wellmade
import Verif.Lemmas.World
import Verif.Lemmas.WrepPrint
import Verif.Lemmas.WrepRun
import Verif.Props.AflTest
import Verif.Props.Assoc
import Verif.Props.Bitmap
import Verif.Props.Bits
import Verif.Props.Bulletin
import Verif.Props.Compressed
import Verif.Props.CompressedData
import Verif.Props.Conv
import Verif.Props.ConvCode
import Verif.Props.Crex
import Verif.Props.CrexMessage
import Verif.Props.CrexReject
import Verif.Props.DDSPrinter
import Verif.Props.Data
import Verif.Props.Dump
import Verif.Props.Examples
import Verif.Props.Field
import Verif.Props.First
import Verif.Props.Format
import Verif.Props.Header
import Verif.Props.HeaderOctets
import Verif.Props.Hooked
import Verif.Props.Icao
import Verif.Props.ImportTable
import Verif.Props.Interp
import Verif.Props.Limits
import Verif.Props.Lua
import Verif.Props.Notes
import Verif.Props.Operators
import Verif.Props.Options
import Verif.Props.Own
import Verif.Props.Printer
import Verif.Props.Process
import Verif.Props.Python
import Verif.Props.PythonBinary
import Verif.Props.PythonInfo
import Verif.Props.PythonTables
import Verif.Props.RefVal
import Verif.Props.Report
import Verif.Props.Reread
import Verif.Props.Round
import Verif.Props.Safe
import Verif.Props.Samples
import Verif.Props.Scan
import Verif.Props.Stream
import Verif.Props.StringField
import Verif.Props.Strings
import Verif.Props.Structure
import Verif.Props.Subset
import Verif.Props.TableText
import Verif.Props.Tabledir
import Verif.Props.TabledirPrint
import Verif.Props.Tables
import Verif.Props.Trailing
import Verif.Props.Undef
import Verif.Props.UndefCompressed
import Verif.Props.Validate
import Verif.Props.ValidateRun
import Verif.Props.VarAttr
import Verif.Props.VarNum
import Verif.Props.VarText
import Verif.Props.Varcode
import Verif.Props.Varinfo
import Verif.Props.Verbose
import Verif.Props.Wellmade
import Verif.Props.Wrep
import Verif.Props.WrepPrint
import Verif.Props.WrepSamples
import Verif.Props.WrepTables
