import Verif.Support.Display
import Verif.Mapper.DataLayout
import Verif.Mapper.GlobalRecords
import Verif.Mapper.FunctionBlock
import Verif.Mapper.Attributes

/-!
# The texts of some errors of `llvm-mapper`

`Display` as derived by `thiserror` from the `#[error(..)]` attributes. Where a text quotes one of the standard library or of
`num_enum`, it is left out: `none`.
-/

namespace Verif

/-- `llvm-mapper/src/record/mod.rs:25-36`; the text of `BadEncoding` goes on with the description of what is wrong with the UTF-8. -/
def RecordStringError.text : RecordStringError → Option Str
  | .badIndex i n => some ("impossible string index: ".toList ++ decimal i ++ " >= ".toList ++ decimal n ++
      " (field count)".toList)
  | .badCharacter => some "impossible character value in string: out of range integral type conversion attempted".toList
  | .badEncoding => none

/-- `llvm-mapper/src/record/mod.rs:40-48`. -/
def RecordBlobError.text : RecordBlobError → Str
  | .badIndex i n => "impossible blob index: ".toList ++ decimal i ++ " >= ".toList ++ decimal n ++ " (field count)".toList
  | .badByte => "impossible byte value in blob: out of range integral type conversion attempted".toList

/-- `llvm-mapper/src/record/datalayout.rs:19-48`. -/
def DataLayoutError.text : DataLayoutError → Option Str
  | .badString e => e.text.map ("malformed datalayout record: ".toList ++ ·)
  | .badAlign e => some ("bad alignment value: ".toList ++ e.text)
  | .badAddressSpace _ => some "bad address space".toList
  | .unknownSpec c => some ("unknown datalayout specification: ".toList ++ [c])
  | .emptySpec => some "empty specification in datalayout".toList
  | .badEncoding => some "non-ASCII characters in datalayout string".toList
  | .badInt e => some ("couldn't parse spec field: ".toList ++ e.text)
  | .badSpecParse m => some ("couldn't parse spec: ".toList ++ m)
  | .badAlignSpec e => some ("cou't parse alignment spec: ".toList ++ e.text)

/-- `llvm-mapper/src/record/comdat.rs:15-36`. -/
def ComdatError.text : ComdatError → Option Str
  | .v1Unsupported => some "unsupported COMDAT record format (v1)".toList
  | .tooShort n => some ("COMDAT record doesn't have enough fields (".toList ++ decimal n ++ " < 3)".toList)
  | .name _ | .selectionKind _ => none
  | .map _ => some "mapping error in comdat list".toList

/-- `llvm-mapper/src/record/function.rs:18-67`. -/
def FunctionRecordError.text : FunctionRecordError → Str
  | .tooShort n => "function record too short: ".toList ++ decimal n ++ " < 10 fields".toList
  | .v1Unsupported => "unsupported function record format (v1)".toList
  | .strtab _ => "error while accessing string table".toList
  | .callingConvention _ => "unknown calling convention".toList
  | .typeId v => "invalid type table index: ".toList ++ decimal v.toNat
  | .type => "non-function type for function".toList
  | .attribute v => "invalid attribute entry ID: ".toList ++ decimal v.toNat
  | .alignment _ => "invalid alignment".toList
  | .section n => "invalid section table index: ".toList ++ decimal n
  | .visibility _ => "invalid visibility".toList
  | .gc n => "invalid GC table index: ".toList ++ decimal n
  | .dllStorageClass _ => "invalid storage class".toList

/-- `llvm-mapper/src/record/alias.rs:16-41`. -/
def AliasError.text : AliasError → Str
  | .tooShort n => "alias record too short: ".toList ++ decimal n ++ " < 5 fields".toList
  | .v1Unsupported => "unsupported alias record format (v1)".toList
  | .strtab _ => "error while accessing string table".toList
  | .type v => "invalid type table index: ".toList ++ decimal v.toNat
  | .visibility _ => "invalid visibility".toList
  | .dllStorageClass _ => "invalid storage class".toList

/-- `#[derive(Debug)]` of `FunctionCode`, `llvm-support/src/bitcodes.rs:275-328`: the name of the variant. -/
def FunctionCode.name : FunctionCode → String
  | .declareBlocks => "DeclareBlocks"
  | .instBinop => "InstBinop"
  | .instCast => "InstCast"
  | .instGepOld => "InstGepOld"
  | .instSelect => "InstSelect"
  | .instExtractelt => "InstExtractelt"
  | .instInsertelt => "InstInsertelt"
  | .instShufflevec => "InstShufflevec"
  | .instCmp => "InstCmp"
  | .instRet => "InstRet"
  | .instBr => "InstBr"
  | .instSwitch => "InstSwitch"
  | .instInvoke => "InstInvoke"
  | .instUnreachable => "InstUnreachable"
  | .instPhi => "InstPhi"
  | .instAlloca => "InstAlloca"
  | .instLoad => "InstLoad"
  | .instVaarg => "InstVaarg"
  | .instStoreOld => "InstStoreOld"
  | .instExtractval => "InstExtractval"
  | .instInsertval => "InstInsertval"
  | .instCmp2 => "InstCmp2"
  | .instVselect => "InstVselect"
  | .instInboundsGepOld => "InstInboundsGepOld"
  | .instIndirectbr => "InstIndirectbr"
  | .debugLocAgain => "DebugLocAgain"
  | .instCall => "InstCall"
  | .debugLoc => "DebugLoc"
  | .instFence => "InstFence"
  | .instCmpxchgOld => "InstCmpxchgOld"
  | .instAtomicrmwOld => "InstAtomicrmwOld"
  | .instResume => "InstResume"
  | .instLandingpadOld => "InstLandingpadOld"
  | .instLoadatomic => "InstLoadatomic"
  | .instStoreatomicOld => "InstStoreatomicOld"
  | .instGep => "InstGep"
  | .instStore => "InstStore"
  | .instStoreatomic => "InstStoreatomic"
  | .instCmpxchg => "InstCmpxchg"
  | .instLandingpad => "InstLandingpad"
  | .instCleanupret => "InstCleanupret"
  | .instCatchret => "InstCatchret"
  | .instCatchpad => "InstCatchpad"
  | .instCleanuppad => "InstCleanuppad"
  | .instCatchswitch => "InstCatchswitch"
  | .operandBundle => "OperandBundle"
  | .instUnop => "InstUnop"
  | .instcallbr => "Instcallbr"
  | .instFreeze => "InstFreeze"
  | .instAtomicrmw => "InstAtomicrmw"

/-- `#[derive(Debug)]` of `AttributeCode`, `llvm-support/src/bitcodes.rs:260-269`. -/
def AttributeCode.name : AttributeCode → String
  | .entryOld => "EntryOld"
  | .entry => "Entry"
  | .groupCodeEntry => "GroupCodeEntry"

/-- The message of `BadInst`, `llvm-mapper/src/block/function/mod.rs:84-88,98-101`. -/
def InstMsg.text (c : FunctionCode) : InstMsg → Str
  | .fields n k => "bad ".toList ++ c.name.toList ++ ": expected ".toList ++ decimal n ++ " fields, got ".toList ++ decimal k
  | .type i => "bad ".toList ++ c.name.toList ++ ": invalid type table reference: ".toList ++ decimal i.toNat

/-- `llvm-mapper/src/block/function/mod.rs:19-44`. -/
def FunctionBlockError.text : FunctionBlockError → Str
  | .invalidBlockCount => "function does not declare block count or has zero blocks".toList
  | .unknownFunctionCode _ => "unknown function code".toList
  | .badInst c m => "invalid instruction encoding: ".toList ++ m.text c
  | .badUnOp _ => "invalid unary opcode".toList
  | .badBinOp _ => "invalid binary opcode".toList
  | .map _ => "generic mapping error".toList

/-- `llvm-mapper/src/block/attributes.rs:14-65`. The texts that name an attribute are left out. -/
def AttributeError.text : AttributeError → Option Str
  | .unknownAttributeCode _ => some "unknown attribute code".toList
  | .unknownAttributeKind _ => some "unknown attribute kind".toList
  | .wrongBlock c => some ("wrong block for code: ".toList ++ c.name.toList)
  | .tooShort => some "attribute structure too short".toList
  | .badString => some "bad attribute string".toList
  | .unknownAttributeId _ => some "unknown attribute ID".toList
  | .attributeMalformed _ _ | .intAttributeUnsupported _ => none
  | .badAttributeGroup id => some ("nonexistent attribute group: ".toList ++ decimal id.toNat)
  | .groupTooShort c n => some ("attribute group record for ".toList ++ c.name.toList ++ " too short (".toList ++ decimal n ++
      " < 3)".toList)
  | .groupSizeMismatch a b => some ("under/overconsumed fields in attribute group record (".toList ++ decimal a ++
      " fields, ".toList ++ decimal b ++ " consumed)".toList)

end Verif
