import Verif.Mapper.Display
import Verif.Mapper.Print
import Verif.Bitstream.Dump

/-! The error reports of the example programs, `llvm-bitstream/examples/dump-bitstream.rs` and
`llvm-mapper/examples/unroll-bitstream.rs`: what they write to the standard error if `main` returns an error.

An error is reported with its message and those of its causes. The message of an error is its `Display`, as derived by `thiserror`
from the `#[error(..)]` attributes, and its cause is its `source`, the field with `#[from]`. The functions `causes` below give the
messages of an error and of its causes, from the outside in. Messages that are made with `{:?}` need `Debug`, as derived.

Two things of the standard library are parameters: `plain`, the characters that `{:?}` of a string leaves as they are, and `utf8`,
the description of what is wrong with bytes that are not UTF-8 (errors of the model do not tell). -/

namespace Verif.Stderr

/-! ## `Debug`, without `#` -/

/-- Values with commas between them. -/
def commas : List Str → Str
  | [] => []
  | [v] => v
  | v :: vs => v ++ (", ".toList ++ commas vs)

/-- `DebugStruct` with `{:?}`, for a structure with fields. -/
def debugStruct (name : Str) (fields : List (Str × Str)) : Str :=
  name ++ (" { ".toList ++ (commas (fields.map fun f => f.1 ++ (": ".toList ++ f.2)) ++ " }".toList))

/-- `DebugTuple` with `{:?}`, for a tuple structure with one field. -/
def debugTuple (name value : Str) : Str := name ++ ("(".toList ++ (value ++ ")".toList))

/-- `DebugList` with `{:?}`. -/
def debugList (values : List Str) : Str := "[".toList ++ (commas values ++ "]".toList)

/-- `{:?}` of a `bool`. -/
def debugBool (b : Bool) : Str := if b then "true".toList else "false".toList

/-- `{:?}` of an `Option<String>`. -/
def debugName (plain : Char → Bool) : Option Str → Str
  | none => "None".toList
  | some s => debugTuple "Some".toList (Print.quote plain s)

/-- `llvm-bitcursor/src/error.rs:8-31`: the names of the variants. -/
def cursorName : CErr → Str
  | .eof => "Eof".toList
  | .invalidLength => "InvalidLength".toList
  | .badCast => "BadCast".toList
  | .invalidReadSize => "InvalidReadSize".toList
  | .invalidVbrWidth => "InvalidVbrWidth".toList
  | .short => "Short".toList

/-- `{:?}` of the two `io::Error`s that `seek` makes, `llvm-bitcursor/src/lib.rs:367-370,385-388`. -/
def ioDebug : Cursor.IoErr → Str
  | .unsupported => "Custom { kind: Unsupported, error: \"cannot seek past end\" }".toList
  | .invalidInput => "Custom { kind: InvalidInput, error: \"impossible seek requested\" }".toList

/-- `llvm-support/src/bitcodes.rs:94-107`: the names of the variants. -/
def encodingName : AbbrevOpEnc → Str
  | .fixed => "Fixed".toList
  | .vbr => "Vbr".toList
  | .array => "Array".toList
  | .char6 => "Char6".toList
  | .blob => "Blob".toList

/-- `llvm-support/src/bitcodes.rs:15-32`: the names of the variants. -/
def reservedName : ReservedBlockId → Str
  | .blockInfo => "BlockInfo".toList
  | .reserved1 => "Reserved1".toList
  | .reserved2 => "Reserved2".toList
  | .reserved3 => "Reserved3".toList
  | .reserved4 => "Reserved4".toList
  | .reserved5 => "Reserved5".toList
  | .reserved6 => "Reserved6".toList
  | .reserved7 => "Reserved7".toList

/-- `llvm-support/src/bitcodes.rs:38-77`: the names of the variants. -/
def irName : IrBlockId → Str
  | .«module» => "Module".toList
  | .paramAttr => "ParamAttr".toList
  | .paramAttrGroup => "ParamAttrGroup".toList
  | .constants => "Constants".toList
  | .function => "Function".toList
  | .identification => "Identification".toList
  | .valueSymtab => "ValueSymtab".toList
  | .metadata => "Metadata".toList
  | .metadataAttachment => "MetadataAttachment".toList
  | .type => "Type".toList
  | .uselist => "Uselist".toList
  | .moduleStrtab => "ModuleStrtab".toList
  | .globalValSummary => "GlobalValSummary".toList
  | .operandBundleTags => "OperandBundleTags".toList
  | .metadataKind => "MetadataKind".toList
  | .strtab => "Strtab".toList
  | .fullLtoGlobalValSummary => "FullLtoGlobalValSummary".toList
  | .symtab => "Symtab".toList
  | .syncScopeNames => "SyncScopeNames".toList

/-- `#[derive(Debug)]` of `BlockId`, `llvm-mapper/src/block/mod.rs:46-54`. -/
def blockDebug : BlockId → Str
  | .reserved r => debugTuple "Reserved".toList (reservedName r)
  | .ir i => debugTuple "Ir".toList (irName i)
  | .unknown v => debugTuple "Unknown".toList (decimal v.toNat)

/-- `llvm-support/src/attribute.rs:24-197`: the names of the variants. -/
def attributeName : AttributeId → Str
  | .alignment => "Alignment".toList
  | .alwaysInline => "AlwaysInline".toList
  | .byVal => "ByVal".toList
  | .inlineHint => "InlineHint".toList
  | .inReg => "InReg".toList
  | .minSize => "MinSize".toList
  | .naked => "Naked".toList
  | .nest => "Nest".toList
  | .noAlias => "NoAlias".toList
  | .noBuiltin => "NoBuiltin".toList
  | .noCapture => "NoCapture".toList
  | .noDuplicate => "NoDuplicate".toList
  | .noImplicitFloat => "NoImplicitFloat".toList
  | .noInline => "NoInline".toList
  | .nonLazyBind => "NonLazyBind".toList
  | .noRedZone => "NoRedZone".toList
  | .noReturn => "NoReturn".toList
  | .noUnwind => "NoUnwind".toList
  | .optimizeForSize => "OptimizeForSize".toList
  | .readNone => "ReadNone".toList
  | .readOnly => "ReadOnly".toList
  | .returned => "Returned".toList
  | .returnsTwice => "ReturnsTwice".toList
  | .sExt => "SExt".toList
  | .stackAlignment => "StackAlignment".toList
  | .stackProtect => "StackProtect".toList
  | .stackProtectReq => "StackProtectReq".toList
  | .stackProtectStrong => "StackProtectStrong".toList
  | .structRet => "StructRet".toList
  | .sanitizeAddress => "SanitizeAddress".toList
  | .sanitizeThread => "SanitizeThread".toList
  | .sanitizeMemory => "SanitizeMemory".toList
  | .uwTable => "UwTable".toList
  | .zExt => "ZExt".toList
  | .builtin => "Builtin".toList
  | .cold => "Cold".toList
  | .optimizeNone => "OptimizeNone".toList
  | .inAlloca => "InAlloca".toList
  | .nonNull => "NonNull".toList
  | .jumpTable => "JumpTable".toList
  | .dereferenceable => "Dereferenceable".toList
  | .dereferenceableOrNull => "DereferenceableOrNull".toList
  | .convergent => "Convergent".toList
  | .safeStack => "SafeStack".toList
  | .argMemOnly => "ArgMemOnly".toList
  | .swiftSelf => "SwiftSelf".toList
  | .swiftError => "SwiftError".toList
  | .noRecurse => "NoRecurse".toList
  | .inaccessiblememOnly => "InaccessiblememOnly".toList
  | .inaccessiblememOrArgmemonly => "InaccessiblememOrArgmemonly".toList
  | .allocSize => "AllocSize".toList
  | .writeOnly => "WriteOnly".toList
  | .speculatable => "Speculatable".toList
  | .strictFp => "StrictFp".toList
  | .sanitizeHwAddress => "SanitizeHwAddress".toList
  | .noCfCheck => "NoCfCheck".toList
  | .optForFuzzing => "OptForFuzzing".toList
  | .shadowcallstack => "Shadowcallstack".toList
  | .speculativeLoadHardening => "SpeculativeLoadHardening".toList
  | .immArg => "ImmArg".toList
  | .willReturn => "WillReturn".toList
  | .noFree => "NoFree".toList
  | .noSync => "NoSync".toList
  | .sanitizeMemtag => "SanitizeMemtag".toList
  | .preallocated => "Preallocated".toList
  | .noMerge => "NoMerge".toList
  | .nullPointerIsValid => "NullPointerIsValid".toList
  | .noUndef => "NoUndef".toList
  | .byRef => "ByRef".toList
  | .mustProgress => "MustProgress".toList
  | .noCallback => "NoCallback".toList
  | .hot => "Hot".toList
  | .noProfile => "NoProfile".toList
  | .vScaleRange => "VScaleRange".toList
  | .swiftAsync => "SwiftAsync".toList
  | .noSanitizeCoverage => "NoSanitizeCoverage".toList
  | .elementType => "ElementType".toList
  | .disableSanitizerInstrumentation => "DisableSanitizerInstrumentation".toList
  | .noSanitizeBounds => "NoSanitizeBounds".toList
  | .allocAlign => "AllocAlign".toList
  | .allocatedPointer => "AllocatedPointer".toList
  | .allocKind => "AllocKind".toList
  | .presplitCoroutine => "PresplitCoroutine".toList
  | .fnretthunkExtern => "FnretthunkExtern".toList
  | .skipProfile => "SkipProfile".toList
  | .memory => "Memory".toList

/-- `llvm-support/src/ty.rs:65-77`: the names of the variants. -/
def primName : Prim → Str
  | .half => "Half".toList
  | .bFloat => "BFloat".toList
  | .float => "Float".toList
  | .double => "Double".toList
  | .metadata => "Metadata".toList
  | .x86Fp80 => "X86Fp80".toList
  | .fp128 => "Fp128".toList
  | .ppcFp128 => "PpcFp128".toList
  | .void => "Void".toList
  | .label => "Label".toList
  | .x86Mmx => "X86Mmx".toList
  | .x86Amx => "X86Amx".toList
  | .token => "Token".toList

/-- `#[derive(Debug)]` of `AddressSpace`, `llvm-support/src/align.rs:525-526`. -/
def spaceDebug (a : AddressSpace) : Str := debugTuple "AddressSpace".toList (decimal a.val.toNat)

/-- `#[derive(Debug)]` of `AddressSpaceError`, `llvm-support/src/align.rs:517-522`. -/
def spaceErrorDebug : AddressSpaceError → Str
  | .tooBig v => debugTuple "TooBig".toList (decimal v.toNat)

mutual
/-- `#[derive(Debug)]` of `Type` and of the structures in its variants, `llvm-support/src/ty.rs:62-86,301-309,345-350,395-399,
430-434,468-472,506-511`. -/
def typeDebug (plain : Char → Bool) : Ty → Str
  | .prim p => primName p
  | .integer w => debugTuple "Integer".toList (debugStruct "IntegerType".toList [("bit_width".toList, decimal w.toNat)])
  | .function r ps v => debugTuple "Function".toList (debugStruct "FunctionType".toList
      [("return_type".toList, typeDebug plain r), ("param_types".toList, debugList (typesDebug plain ps)),
        ("is_vararg".toList, debugBool v)])
  | .pointer t a => debugTuple "Pointer".toList (debugStruct "PointerType".toList
      [("pointee".toList, typeDebug plain t), ("address_space".toList, spaceDebug a)])
  | .opaquePointer a => debugTuple "OpaquePointer".toList (spaceDebug a)
  | .struct n fs p => debugTuple "Struct".toList (debugStruct "StructType".toList
      [("name".toList, debugName plain n), ("fields".toList, debugList (typesDebug plain fs)), ("is_packed".toList, debugBool p)])
  | .array n t => debugTuple "Array".toList (debugStruct "ArrayType".toList
      [("num_elements".toList, decimal n.toNat), ("element_type".toList, typeDebug plain t)])
  | .fixedVector n t => debugTuple "FixedVector".toList (debugStruct "VectorType".toList
      [("num_elements".toList, decimal n.toNat), ("element_type".toList, typeDebug plain t)])
  | .scalableVector n t => debugTuple "ScalableVector".toList (debugStruct "VectorType".toList
      [("num_elements".toList, decimal n.toNat), ("element_type".toList, typeDebug plain t)])
/-- Those of a list. -/
def typesDebug (plain : Char → Bool) : List Ty → List Str
  | [] => []
  | t :: ts => typeDebug plain t :: typesDebug plain ts
end

/-! ## The bitstream -/

/-- `Display` of `num_enum::TryFromPrimitiveError`, for the enum with the name. -/
def noDiscriminant (name : String) (v : U64) : Str :=
  "No discriminant in enum `".toList ++ (name.toList ++ ("` matches the value `".toList ++ (decimal v.toNat ++ "`".toList)))

/-- `llvm-bitcursor/src/error.rs:8-31`. -/
def cursorText : CErr → Str
  | .eof => "EOF while reading".toList
  | .invalidLength => "invalid length for buffer supplied to cursor".toList
  | .badCast => "loss of data with cast".toList
  | .invalidReadSize => "invalid read size (zero or too large)".toList
  | .invalidVbrWidth => "invalid VBR width (must be > 1 but <= system word width)".toList
  | .short => "too little data to service request".toList

/-- `llvm-bitstream/src/lib.rs:56,63-66`. -/
def containerText : ContainerMsg → Str
  | .unaligned => "input is not 4-byte aligned".toList
  | .magic e => "bitstream should have begun with magic, but errored: ".toList ++ cursorName e

/-- `llvm-bitstream/src/lib.rs:131`, `llvm-bitstream/src/parser.rs:294,312-314`. -/
def streamText : StreamMsg → Str
  | .seek e => "couldn't seek past bitcode wrapper: ".toList ++ ioDebug e
  | .noSetBid => "DEFINE_ABBREV in BLOCKINFO but no preceding SETBID".toList
  | .recordOutside => "UNABBREV_RECORD outside of any block scope".toList

/-- `llvm-bitstream/src/abbrev.rs:134-136,178,196-199,210`. -/
def abbrevText : AbbrevMsg → Str
  | .noOperand => "expected at least one abbrev operand".toList
  | .arrayIndex => "array operand at invalid index".toList
  | .arrayElement enc => "invalid element type for an array: ".toList ++ encodingName enc
  | .blobIndex => "blob operand at invalid index".toList

/-- `llvm-bitstream/src/parser.rs:93-95,109-111,156-158,216-219,263-265`. -/
def scopeText : ScopeMsg → Str
  | .noAbbrevs => "non-block scope cannot reference abbreviations".toList
  | .noRecords => "non-block scope cannot contain records".toList
  | .noBlockinfo => "can't set BLOCKINFO block ID for non-BLOCKINFO scope".toList
  | .width w => "can't enter block: invalid code side: ".toList ++ decimal w.toNat
  | .emptyStack => "malformed stream: cannot perform END_BLOCK because scope stack is empty".toList

/-- `llvm-bitstream/src/error.rs:10-43`. -/
def bitstreamCauses : BErr → List Str
  | .exhausted => ["bitstream has been exhausted".toList]
  | .cursor e => ["underlying bitcursor error".toList, cursorText e]
  | .badContainer m => ["couldn't parse bitstream container: ".toList ++ containerText m]
  | .badBlockInfoCode v => ["bad record code for BLOCKINFO block".toList, noDiscriminant "BlockInfoCode" v]
  | .badAbbrevOpEnc v => ["bad operand code for DEFINE_ABBREV operand".toList, noDiscriminant "AbbrevOpEnc" v]
  | .streamParse m => ["error while parsing stream: ".toList ++ streamText m]
  | .abbrevParse m => ["error while parsing abbrev record: ".toList ++ abbrevText m]
  | .badAbbrev id => ["unknown abbreviation for ID: ".toList ++ decimal id.toNat]
  | .badScope m => ["error while parsing block scope: ".toList ++ scopeText m]

/-! ## Records -/

/-- `Display` of `core::num::TryFromIntError`. -/
def intText : Str := "out of range integral type conversion attempted".toList

/-- `llvm-mapper/src/record/mod.rs:25-36`. -/
def stringText (utf8 : Str) (e : RecordStringError) : Str := e.text.getD ("invalid string encoding: ".toList ++ utf8)

/-- `llvm-mapper/src/record/mod.rs:25-36`. -/
def stringCauses (utf8 : Str) (e : RecordStringError) : List Str :=
  stringText utf8 e :: match e with
    | .badIndex _ _ => []
    | .badCharacter => [intText]
    | .badEncoding => [utf8]

/-- `llvm-mapper/src/record/mod.rs:40-48`. -/
def blobCauses (e : RecordBlobError) : List Str :=
  e.text :: match e with
    | .badIndex _ _ => []
    | .badByte => [intText]

/-- `llvm-support/src/align.rs:267-295`. -/
def alignSpecCauses (e : AlignSpecError) : List Str :=
  e.text :: match e with
    | .badTypeWidth e => [e.text]
    | .parseAlign e => [e.text]
    | .badInt e => [e.text]
    | .badAddressSpace e => [e.text]
    | .alignPref _ _ | .abiAlignTooLarge _ | .parse _ => []

/-- `llvm-mapper/src/record/datalayout.rs:19-48`. -/
def layoutCauses (utf8 : Str) (e : DataLayoutError) : List Str :=
  e.text.getD ("malformed datalayout record: invalid string encoding: ".toList ++ utf8) :: match e with
    | .badString e => stringCauses utf8 e
    | .badAlign e => [e.text]
    | .badAddressSpace e => [e.text]
    | .badInt e => [e.text]
    | .badAlignSpec e => alignSpecCauses e
    | .unknownSpec _ | .emptySpec | .badEncoding | .badSpecParse _ => []

/-- `llvm-mapper/src/block/strtab.rs:15-36`. -/
def strtabText (utf8 : Str) : StrtabError → Str
  | .missingBlob => "malformed string table: missing blob".toList
  | .badBlob e => "invalid string table: ".toList ++ e.text
  | .badRange => "requested range in string table is invalid".toList
  | .badString => "could not decode range into a UTF-8 string: ".toList ++ utf8

/-- `llvm-mapper/src/block/strtab.rs:15-36`. -/
def strtabCauses (utf8 : Str) (e : StrtabError) : List Str :=
  strtabText utf8 e :: match e with
    | .badBlob e => blobCauses e
    | .badString => [utf8]
    | .missingBlob | .badRange => []

/-- `llvm-mapper/src/unroll.rs:76-93`. -/
def consistencyText : ConsistencyError → Str
  | .missingBlock id => "expected a block with ".toList ++ (blockDebug id ++ " but not present".toList)
  | .tooManyBlocks id => "expected exactly one block with ".toList ++ (blockDebug id ++ " but got more than one".toList)
  | .missingRecord c => "expected a record of code ".toList ++ (decimal c.toNat ++ " but not present".toList)
  | .tooManyRecords c => "expected exactly one record of code ".toList ++ (decimal c.toNat ++ " but got more than one".toList)

/-- `llvm-mapper/src/map.rs:41-50`. -/
def contextText : MapCtxError → Str
  | .noVersion => "mapping context requires a version for disambiguation, but none is available".toList
  | .noTypeTable => "mapping context requires types, but none are available".toList

/-- `llvm-mapper/src/block/type_table.rs:341-343,352-354,377,464-467,502`. -/
def invalidText : InvalidMsg → Str
  | .opaqueUnnamed => "opaque type but no preceding type name".toList
  | .opaqueNamed => "forward-declared opaque type already has name".toList
  | .pointerSpace e => "bad address space for pointer type: ".toList ++ spaceErrorDebug e
  | .structDeclared => "forward-declared struct type already has name and/or type fields".toList
  | .typeSpace e => "bad address space in type: ".toList ++ spaceErrorDebug e

/-- `llvm-mapper/src/map.rs:12-38`, with the message of `llvm-mapper/src/block/type_table.rs:387-389`. `BadBlockMap` is never made;
its message is left out. -/
def mapCauses (utf8 : Str) : MapError → List Str
  | .badBlockMap => ["error while mapping block: ".toList]
  | .inconsistent e => ["inconsistent block or record state".toList, consistencyText e]
  | .unsupported => ["unsupported: unsupported: old function type codes; please implement!".toList]
  | .invalid m => ["invalid: ".toList ++ invalidText m]
  | .recordString e => ("error while extracting string: ".toList ++ stringText utf8 e) :: stringCauses utf8 e
  | .context e => ["missing context for mapping".toList, contextText e]

/-- `llvm-mapper/src/record/comdat.rs:15-36`. -/
def comdatCauses (utf8 : Str) : ComdatError → List Str
  | .name e => ("error while accessing COMDAT name: ".toList ++ strtabText utf8 e) :: strtabCauses utf8 e
  | .selectionKind v => ["unknown or invalid COMDAT selection kind: ".toList ++ noDiscriminant "SelectionKind" v,
      noDiscriminant "SelectionKind" v]
  | .map e => "mapping error in comdat list".toList :: mapCauses utf8 e
  | .v1Unsupported => [(ComdatError.v1Unsupported.text).getD []]
  | .tooShort n => [((ComdatError.tooShort n).text).getD []]

/-- `llvm-mapper/src/record/function.rs:18-67`. -/
def functionCauses (utf8 : Str) (e : FunctionRecordError) : List Str :=
  e.text :: match e with
    | .strtab e => strtabCauses utf8 e
    | .callingConvention v => [noDiscriminant "CallingConvention" v]
    | .alignment e => [e.text]
    | .visibility v => [noDiscriminant "Visibility" v]
    | .dllStorageClass v => [noDiscriminant "DllStorageClass" v]
    | .tooShort _ | .v1Unsupported | .typeId _ | .type | .attribute _ | .section _ | .gc _ => []

/-- `llvm-mapper/src/record/alias.rs:16-41`. -/
def aliasCauses (utf8 : Str) (e : AliasError) : List Str :=
  e.text :: match e with
    | .strtab e => strtabCauses utf8 e
    | .visibility v => [noDiscriminant "Visibility" v]
    | .dllStorageClass v => [noDiscriminant "DllStorageClass" v]
    | .tooShort _ | .v1Unsupported | .type _ => []

/-! ## Blocks -/

/-- `llvm-mapper/src/block/identification.rs:12-29`. `Map` is never made. -/
def identificationText : IdentificationError → Str
  | .missingProducer => "identification block has no producer".toList
  | .badProducer => "malformed producer string".toList
  | .missingEpoch => "identification block has no epoch".toList

/-- `llvm-mapper/src/block/symtab.rs:13-26`. -/
def symtabCauses : SymtabError → List Str
  | .missingBlob => ["malformed symbol table: missing blob".toList]
  | .invalidBlob e => ("invalid string table: ".toList ++ e.text) :: blobCauses e

/-- `llvm-support/src/ty.rs:292-297,331-340,384-389,421-426,456-461,494-502`. -/
def typeErrorText (plain : Char → Bool) : Ty.Error → Str
  | .structBadElement t => "invalid structure element type: ".toList ++ typeDebug plain t
  | .integerBadWidth => "specified bit width is invalid (not in [1, 16777215])".toList
  | .pointerBadPointee t => "invalid pointee type: ".toList ++ typeDebug plain t
  | .arrayBadElement t => "invalid array element type: ".toList ++ typeDebug plain t
  | .vectorBadElement t => "invalid vector element type: ".toList ++ typeDebug plain t
  | .functionBadReturn t => "invalid function return type: ".toList ++ typeDebug plain t
  | .functionBadParameter t => "invalid function parameter type: ".toList ++ typeDebug plain t

/-- `llvm-mapper/src/block/type_table.rs:36-58`: the messages of the variants around the errors of types. -/
def invalidTypeText : Ty.Error → Str
  | .structBadElement _ => "invalid structure type".toList
  | .integerBadWidth => "invalid integer type".toList
  | .pointerBadPointee _ => "invalid pointer type".toList
  | .arrayBadElement _ => "invalid array type".toList
  | .vectorBadElement _ => "invalid vector type".toList
  | .functionBadReturn _ | .functionBadParameter _ => "invalid function type".toList

/-- `llvm-mapper/src/block/type_table.rs:17-62`. -/
def tableCauses (plain : Char → Bool) (utf8 : Str) : TypeTableError → List Str
  | .badSize n m => ["invalid type table size (expected ".toList ++ (decimal n ++ (" elements, got ".toList ++
      (decimal m ++ ")".toList)))]
  | .badIndex i => ["invalid type table index: ".toList ++ decimal i]
  | .unknownTypeCode v => ["unknown type code".toList, noDiscriminant "TypeCode" v]
  | .badTable => ["invalid type table structure (broken records)".toList]
  | .invalidType e => [invalidTypeText e, typeErrorText plain e]
  | .map e => "mapping error in string table".toList :: mapCauses utf8 e

/-- `llvm-mapper/src/block/attributes.rs:233,281,290,298,304,312,320,348`. -/
def malformedText : MalformedMsg → Str
  | .nonEnum => "non-enum attribute ID given".toList
  | .enumGiven => "expected int attribute, but given enum ID".toList
  | .tooLarge => "attribute value too large (invalid alignment)".toList
  | .alignment => "invalid alignment".toList
  | .allocSize => "allocasize argument invalid: cannot be (0, 0)".toList
  | .unwindTable => "Unwind table variant error".toList

/-- `llvm-mapper/src/block/attributes.rs:14-65`: the messages that name an attribute. -/
def attributeText (e : AttributeError) : Str :=
  match e with
  | .attributeMalformed m id => "malformed attribute (format doesn't match ID): ".toList ++ (malformedText m ++ (": ".toList ++
      attributeName id))
  | .intAttributeUnsupported id => "FIXME: unsupported integer attribute: ".toList ++ attributeName id
  | e => e.text.getD []

/-- `llvm-mapper/src/block/attributes.rs:14-65`. -/
def attributeCauses (e : AttributeError) : List Str :=
  attributeText e :: match e with
    | .unknownAttributeCode v => [noDiscriminant "AttributeCode" v]
    | .unknownAttributeKind v => [noDiscriminant "AttributeKind" v]
    | .unknownAttributeId v => [noDiscriminant "AttributeId" v]
    | _ => []

/-- `llvm-support/src/opcode.rs:69-74`. -/
def unaryCauses : UnaryOpError → List Str
  | .opcode v => ["unknown opcode".toList, noDiscriminant "UnaryOpcode" v]

/-- `llvm-support/src/opcode.rs:134-147`. -/
def binaryCauses (plain : Char → Bool) : BinaryOpError → List Str
  | .invalidType t => ["invalid type for binary op: ".toList ++ typeDebug plain t]
  | .incompatibleType t => ["incompatible type for op: ".toList ++ typeDebug plain t]
  | .opcode v => ["unknown opcode".toList, noDiscriminant "BinaryOpcode" v]

/-- `llvm-mapper/src/block/function/mod.rs:19-44`. -/
def bodyCauses (plain : Char → Bool) (utf8 : Str) (e : FunctionBlockError) : List Str :=
  e.text :: match e with
    | .unknownFunctionCode v => [noDiscriminant "FunctionCode" v]
    | .badUnOp e => unaryCauses e
    | .badBinOp e => binaryCauses plain e
    | .map e => mapCauses utf8 e
    | .invalidBlockCount | .badInst _ _ => []

/-- `llvm-mapper/src/block/module.rs:21-62`. `VstBlock` is left out of the model's errors: reading the block cannot fail. -/
def moduleCauses (plain : Char → Bool) (utf8 : Str) : ModuleError → List Str
  | .missingVersion => ["bitcode module has no version".toList]
  | .dataLayoutRecord e => "invalid datalayout record".toList :: layoutCauses utf8 e
  | .typeTableBlock e => "invalid type table block".toList :: tableCauses plain utf8 e
  | .attributeBlock e => "invalid attribute block".toList :: attributeCauses e
  | .comdatRecord e => "invalid COMDAT record".toList :: comdatCauses utf8 e
  | .functionRecord e => "invalid function record".toList :: functionCauses utf8 e
  | .functionBlock e => "invalid function block".toList :: bodyCauses plain utf8 e
  | .alias e => "invalid alias record".toList :: aliasCauses utf8 e
  | .map e => "generic mapping error".toList :: mapCauses utf8 e

/-- `llvm-mapper/src/block/mod.rs:26-43`. -/
def blockCauses (plain : Char → Bool) (utf8 : Str) : BlockMapError → List Str
  | .identification e => ["error while mapping identification block".toList, identificationText e]
  | .module e => "error while mapping module".toList :: moduleCauses plain utf8 e
  | .strtab e => "error while mapping string table".toList :: strtabCauses utf8 e
  | .symtab e => "error while mapping symbol table".toList :: symtabCauses e

/-- `llvm-mapper/src/unroll.rs:281,325,354,359-361,402-405,454,466`. -/
def unrollText : UnrollMsg → Str
  | .unexpectedEnd => "unexpected stream end during unroll".toList
  | .topLevelNonBlock => "bitstream has non-blocks at the top-level scope".toList
  | .moduleWithoutIdentification => "malformed bitstream: MODULE_BLOCK with no preceding IDENTIFICATION_BLOCK".toList
  | .adjacentModules => "malformed bitstream: adjacent MODULE_BLOCKs".toList
  | .unexpectedTopLevel id => "unexpected top-level block: ".toList ++ blockDebug id
  | .missingStrtab => "missing STRTAB_BLOCK for bitcode module".toList
  | .missingModule => "missing MODULE_BLOCK for bitcode module".toList

/-- `llvm-mapper/src/error.rs:12-25`. -/
def mapperCauses (plain : Char → Bool) (utf8 : Str) : MapperError → List Str
  | .parse e => "error while parsing the bitstream".toList :: bitstreamCauses e
  | .unroll m => ["error while unrolling the bitstream: ".toList ++ unrollText m]
  | .map e => "error while mapping the bitsteam".toList :: blockCauses plain utf8 e

/-! ## The report -/

/-- `anyhow::fmt::Indented`: a message as a cause. Its lines are indented, the first with the number if there is one. -/
def indented (number : Option Nat) (message : Str) : Str :=
  match split '\n' message with
  | [] => []
  | l :: ls =>
    (match number with
      | some n => List.replicate (5 - (decimal n).length) ' ' ++ (decimal n ++ ": ".toList)
      | none => "    ".toList) ++
    (l ++ ls.flatMap fun l => '\n' :: ((match number with
      | some _ => "       ".toList
      | none => "    ".toList) ++ l))

/-- The causes with their numbers. -/
def numbered : Nat → List Str → Str
  | _, [] => []
  | n, c :: cs => '\n' :: (indented (some n) c ++ numbered (n + 1) cs)

/-- `{:?}` of `anyhow::Error`, without a backtrace. -/
def anyhowDebug : List Str → Str
  | [] => []
  | [m] => m
  | [m, c] => m ++ ("\n\nCaused by:\n".toList ++ indented none c)
  | m :: cs => m ++ ("\n\nCaused by:".toList ++ numbered 0 cs)

/-- `std::process::Termination` of `Result`: what is written if `main` returns an error. -/
def report (messages : List Str) : Str := "Error: ".toList ++ (anyhowDebug messages ++ ['\n'])

/-- What `main` of `unroll-bitstream` can return: the error of opening the stream, or that of mapping the file. -/
inductive Failure where
  | opening (e : BErr)
  | mapping (e : MapperError)
deriving DecidableEq, Repr

/-- Its messages. -/
def Failure.causes (plain : Char → Bool) (utf8 : Str) : Failure → List Str
  | .opening e => bitstreamCauses e
  | .mapping e => mapperCauses plain utf8 e

/-- `llvm-mapper/examples/unroll-bitstream.rs:21-36`: `main`, after the file has been read: what it writes to the standard output if
it succeeds, or returns if not. -/
def main (pf : Profile) (target : Str) (plain : Char → Bool) (bytes : List U8) : Out Failure Str := do
  let s ← (Bitstream.from pf bytes).mapErr .opening
  let unrolled ← (Bitcode.ofStream pf target s.2).mapErr .mapping
  .ok (Print.bitcode plain unrolled ++ ['\n'])

/-- What the program writes, to the standard output (`ok`) or the standard error (`err`). -/
def program (pf : Profile) (target : Str) (plain : Char → Bool) (utf8 : Str) (bytes : List U8) : Out Str Str :=
  (main pf target plain bytes).mapErr fun e => report (e.causes plain utf8)

/-- `llvm-bitstream/examples/dump-bitstream.rs:20-60`: what the other program writes to the standard output, and to the standard error
if it fails. -/
def dump (pf : Profile) (bytes : List U8) : Str × Out Str Unit :=
  ((Dump.main pf bytes).1, (Dump.main pf bytes).2.mapErr fun e => report (bitstreamCauses e))

end Verif.Stderr
