import Verif.Base.Bits
import Verif.Base.Out
import Verif.Base.ProfileSpec
import Verif.Base.Profiles
import Verif.Bitstream.Abbrev
import Verif.Bitstream.AbbrevReads
import Verif.Bitstream.Deliver
import Verif.Bitstream.Dump
import Verif.Bitstream.DumpSpec
import Verif.Bitstream.EffectSpec
import Verif.Bitstream.Effects
import Verif.Bitstream.FaultSpec
import Verif.Bitstream.Faults
import Verif.Bitstream.Good
import Verif.Bitstream.Grammar
import Verif.Bitstream.GrammarSpec
import Verif.Bitstream.Grid
import Verif.Bitstream.ItemFaults
import Verif.Bitstream.KeptSpec
import Verif.Bitstream.Lang
import Verif.Bitstream.LangAbbrev
import Verif.Bitstream.LengthSpec
import Verif.Bitstream.Log
import Verif.Bitstream.LogSpec
import Verif.Bitstream.Open
import Verif.Bitstream.Parser
import Verif.Bitstream.Reads
import Verif.Bitstream.Records
import Verif.Bitstream.ReportSpec
import Verif.Bitstream.RoundTrip
import Verif.Bitstream.Run
import Verif.Bitstream.RunSpec
import Verif.Bitstream.Scoping
import Verif.Bitstream.Sim
import Verif.Bitstream.Size
import Verif.Bitstream.Work
import Verif.Bitstream.Writer
import Verif.Cursor.BeltSpec
import Verif.Cursor.Float
import Verif.Cursor.FloatSpec
import Verif.Cursor.Good
import Verif.Cursor.History
import Verif.Cursor.Lemmas
import Verif.Cursor.Log
import Verif.Cursor.LogSpec
import Verif.Cursor.Model
import Verif.Cursor.Spec
import Verif.Cursor.TapeSpec
import Verif.Cursor.Vbr
import Verif.Mapper.AttrSizeSpec
import Verif.Mapper.AttributeLemmas
import Verif.Mapper.AttributeSpec
import Verif.Mapper.Attributes
import Verif.Mapper.BytesSpec
import Verif.Mapper.ContentSpec
import Verif.Mapper.CostSpec
import Verif.Mapper.DataLayout
import Verif.Mapper.DepthSpec
import Verif.Mapper.Display
import Verif.Mapper.EnumAttribute
import Verif.Mapper.ErrorSpec
import Verif.Mapper.FunctionBlock
import Verif.Mapper.FunctionSpec
import Verif.Mapper.GlobalRecords
import Verif.Mapper.GlobalSpec
import Verif.Mapper.HeldSpec
import Verif.Mapper.JoinSpec
import Verif.Mapper.LayoutSpec
import Verif.Mapper.LlvmAliasSpec
import Verif.Mapper.LlvmAttrSpec
import Verif.Mapper.LlvmGlobalSpec
import Verif.Mapper.LlvmLayoutSpec
import Verif.Mapper.LlvmModuleSpec
import Verif.Mapper.LlvmModulesSpec
import Verif.Mapper.LlvmTypeSpec
import Verif.Mapper.MapCtx
import Verif.Mapper.MapError
import Verif.Mapper.MapLog
import Verif.Mapper.MapLogSpec
import Verif.Mapper.MapReportSpec
import Verif.Mapper.MessageSpec
import Verif.Mapper.Module
import Verif.Mapper.ModuleSpec
import Verif.Mapper.NestSpec
import Verif.Mapper.NumberSpec
import Verif.Mapper.PairLemmas
import Verif.Mapper.Print
import Verif.Mapper.PrintSpec
import Verif.Mapper.RangeSpec
import Verif.Mapper.Reserve
import Verif.Mapper.SizeSpec
import Verif.Mapper.Stderr
import Verif.Mapper.StderrSpec
import Verif.Mapper.StopSpec
import Verif.Mapper.Tables
import Verif.Mapper.TreeSpec
import Verif.Mapper.TypeLemmas
import Verif.Mapper.TypeRangeSpec
import Verif.Mapper.TypeRecords
import Verif.Mapper.TypeSpec
import Verif.Mapper.TypeTable
import Verif.Mapper.Unroll
import Verif.Mapper.UnrollLemmas
import Verif.Mapper.UnrollSpec
import Verif.Mapper.Utf8
import Verif.Mapper.VerdictSpec
import Verif.Mapper.Within
import Verif.Props.Align
import Verif.Props.AttrSizes
import Verif.Props.AttributeErrors
import Verif.Props.Attributes
import Verif.Props.Belt
import Verif.Props.Bitstream
import Verif.Props.Bytes
import Verif.Props.CauseLists
import Verif.Props.Causes
import Verif.Props.CleanCauses
import Verif.Props.Content
import Verif.Props.ControlCharacters
import Verif.Props.Costs
import Verif.Props.Cursor
import Verif.Props.CursorLog
import Verif.Props.Cut
import Verif.Props.DataLayout
import Verif.Props.Depth
import Verif.Props.Dump
import Verif.Props.EachReport
import Verif.Props.Enums
import Verif.Props.ErrorCases
import Verif.Props.ErrorReports
import Verif.Props.Faults
import Verif.Props.File
import Verif.Props.FileReports
import Verif.Props.FileVerdict
import Verif.Props.Float
import Verif.Props.Functions
import Verif.Props.Globals
import Verif.Props.Grammar
import Verif.Props.Held
import Verif.Props.Iteration
import Verif.Props.Join
import Verif.Props.JoinCases
import Verif.Props.JoinGrammar
import Verif.Props.JoinTops
import Verif.Props.Kept
import Verif.Props.Layout
import Verif.Props.LlvmAlias
import Verif.Props.LlvmAttributes
import Verif.Props.LlvmFunction
import Verif.Props.LlvmLayout
import Verif.Props.LlvmLayoutFile
import Verif.Props.LlvmLayoutMeaning
import Verif.Props.LlvmModule
import Verif.Props.LlvmModuleCase
import Verif.Props.LlvmModuleTypes
import Verif.Props.LlvmModules
import Verif.Props.LlvmTypes
import Verif.Props.LlvmTypesFile
import Verif.Props.Log
import Verif.Props.LogClaims
import Verif.Props.MapCauses
import Verif.Props.MapLog
import Verif.Props.MapLogFile
import Verif.Props.MapLogModule
import Verif.Props.MapLogTypes
import Verif.Props.MapReports
import Verif.Props.Messages
import Verif.Props.Module
import Verif.Props.ModuleErrors
import Verif.Props.ModuleVerdict
import Verif.Props.Nesting
import Verif.Props.Numbers
import Verif.Props.Orders
import Verif.Props.Packed
import Verif.Props.Position
import Verif.Props.Print
import Verif.Props.Profiles
import Verif.Props.Range
import Verif.Props.Reports
import Verif.Props.Reserve
import Verif.Props.ReserveClaims
import Verif.Props.ReserveFile
import Verif.Props.Sizes
import Verif.Props.Slack
import Verif.Props.SlackLengths
import Verif.Props.Stderr
import Verif.Props.StopCases
import Verif.Props.Stops
import Verif.Props.Tables
import Verif.Props.Tape
import Verif.Props.TextBound
import Verif.Props.TypeErrors
import Verif.Props.TypeRange
import Verif.Props.TypeSizes
import Verif.Props.TypeTables
import Verif.Props.Types
import Verif.Props.Unroll
import Verif.Props.Vbr
import Verif.Props.Verdict
import Verif.Props.Work
import Verif.Props.WorkBits
import Verif.Props.Wrapped
import Verif.Props.Written
import Verif.Support.Align
import Verif.Support.Display
import Verif.Support.EnumLemmas
import Verif.Support.EnumSpec
import Verif.Support.Enums
import Verif.Support.Globals
import Verif.Support.Lemmas
import Verif.Support.Opcode
import Verif.Support.OrderSpec
import Verif.Support.Text
import Verif.Support.TextLemmas
import Verif.Support.Ty
import Verif.Tests.Checks
import Verif.Tests.Cursor
import Verif.Tests.Mapper
import Verif.Tests.Support
