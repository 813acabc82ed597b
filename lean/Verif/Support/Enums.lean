import Verif.Base.Out

/-! The numeric enumerations of `llvm-support`. Each derives `TryFromPrimitive` (crate `num_enum`): `try_from(v)` gives the
variant whose discriminant is `v`, and an error if there is none. Variants without an explicit discriminant have that of
the variant before them plus one. -/

namespace Verif

/-- An enumeration with `#[derive(TryFromPrimitive)]` and `#[repr(u64)]`: its variants in order of declaration, and their
discriminants (`as u64`, `IntoPrimitive`). -/
class NumEnum (α : Type) where
  all : List α
  code : α → U64

/-- `num_enum`'s derived `TryFrom<u64>`. -/
def tryFromPrimitive {α : Type} [NumEnum α] (v : U64) : Option α :=
  (NumEnum.all : List α).find? fun a => NumEnum.code a == v

/-- `llvm-support/src/bitcodes.rs:15-32` -/
inductive ReservedBlockId where
  | blockInfo | reserved1 | reserved2 | reserved3 | reserved4 | reserved5 | reserved6 | reserved7
deriving DecidableEq, Repr

/-- Discriminants, `llvm-support/src/bitcodes.rs:15-32` -/
def ReservedBlockId.code : ReservedBlockId → U64
  | .blockInfo => 0
  | .reserved1 => 1
  | .reserved2 => 2
  | .reserved3 => 3
  | .reserved4 => 4
  | .reserved5 => 5
  | .reserved6 => 6
  | .reserved7 => 7

instance : NumEnum ReservedBlockId where
  all :=
    [.blockInfo, .reserved1, .reserved2, .reserved3, .reserved4, .reserved5, .reserved6, .reserved7]
  code := ReservedBlockId.code

/-- `llvm-support/src/bitcodes.rs:38-77` -/
inductive IrBlockId where
  | «module» | paramAttr | paramAttrGroup | constants | function | identification | valueSymtab | metadata
  | metadataAttachment | type | uselist | moduleStrtab | globalValSummary | operandBundleTags | metadataKind
  | strtab | fullLtoGlobalValSummary | symtab | syncScopeNames
deriving DecidableEq, Repr

/-- Discriminants, `llvm-support/src/bitcodes.rs:38-77` -/
def IrBlockId.code : IrBlockId → U64
  | .«module» => 8
  | .paramAttr => 9
  | .paramAttrGroup => 10
  | .constants => 11
  | .function => 12
  | .identification => 13
  | .valueSymtab => 14
  | .metadata => 15
  | .metadataAttachment => 16
  | .type => 17
  | .uselist => 18
  | .moduleStrtab => 19
  | .globalValSummary => 20
  | .operandBundleTags => 21
  | .metadataKind => 22
  | .strtab => 23
  | .fullLtoGlobalValSummary => 24
  | .symtab => 25
  | .syncScopeNames => 26

instance : NumEnum IrBlockId where
  all :=
    [.«module», .paramAttr, .paramAttrGroup, .constants, .function, .identification, .valueSymtab, .metadata,
      .metadataAttachment, .type, .uselist, .moduleStrtab, .globalValSummary, .operandBundleTags, .metadataKind,
      .strtab, .fullLtoGlobalValSummary, .symtab, .syncScopeNames]
  code := IrBlockId.code

/-- `llvm-support/src/bitcodes.rs:126-131` -/
inductive IdentificationCode where
  | producerString | epoch
deriving DecidableEq, Repr

/-- Discriminants, `llvm-support/src/bitcodes.rs:126-131` -/
def IdentificationCode.code : IdentificationCode → U64
  | .producerString => 1
  | .epoch => 2

instance : NumEnum IdentificationCode where
  all :=
    [.producerString, .epoch]
  code := IdentificationCode.code

/-- `llvm-support/src/bitcodes.rs:137-181` -/
inductive ModuleCode where
  | version | triple | dataLayout | asm | sectionName | depLib | globalVar | function | aliasOld | gcName | comdat
  | vstOffset | alias | metadataValuesUnused | sourceFilename | hash | iFunc
deriving DecidableEq, Repr

/-- Discriminants, `llvm-support/src/bitcodes.rs:137-181` -/
def ModuleCode.code : ModuleCode → U64
  | .version => 1
  | .triple => 2
  | .dataLayout => 3
  | .asm => 4
  | .sectionName => 5
  | .depLib => 6
  | .globalVar => 7
  | .function => 8
  | .aliasOld => 9
  | .gcName => 11
  | .comdat => 12
  | .vstOffset => 13
  | .alias => 14
  | .metadataValuesUnused => 15
  | .sourceFilename => 16
  | .hash => 17
  | .iFunc => 18

instance : NumEnum ModuleCode where
  all :=
    [.version, .triple, .dataLayout, .asm, .sectionName, .depLib, .globalVar, .function, .aliasOld, .gcName, .comdat,
      .vstOffset, .alias, .metadataValuesUnused, .sourceFilename, .hash, .iFunc]
  code := ModuleCode.code

/-- `llvm-support/src/bitcodes.rs:186-237` -/
inductive TypeCode where
  | numEntry | void | float | double | label | opaque | integer | pointer | functionOld | half | array | vector
  | x86Fp80 | fp128 | ppcFp128 | metadata | x86Mmx | structAnon | structName | structNamed | function | token
  | bFloat | x86Amx | opaquePointer
deriving DecidableEq, Repr

/-- Discriminants, `llvm-support/src/bitcodes.rs:186-237` -/
def TypeCode.code : TypeCode → U64
  | .numEntry => 1
  | .void => 2
  | .float => 3
  | .double => 4
  | .label => 5
  | .opaque => 6
  | .integer => 7
  | .pointer => 8
  | .functionOld => 9
  | .half => 10
  | .array => 11
  | .vector => 12
  | .x86Fp80 => 13
  | .fp128 => 14
  | .ppcFp128 => 15
  | .metadata => 16
  | .x86Mmx => 17
  | .structAnon => 18
  | .structName => 19
  | .structNamed => 20
  | .function => 21
  | .token => 22
  | .bFloat => 23
  | .x86Amx => 24
  | .opaquePointer => 25

instance : NumEnum TypeCode where
  all :=
    [.numEntry, .void, .float, .double, .label, .opaque, .integer, .pointer, .functionOld, .half, .array, .vector,
      .x86Fp80, .fp128, .ppcFp128, .metadata, .x86Mmx, .structAnon, .structName, .structNamed, .function, .token,
      .bFloat, .x86Amx, .opaquePointer]
  code := TypeCode.code

/-- `llvm-support/src/bitcodes.rs:243-246` -/
inductive StrtabCode where
  | blob
deriving DecidableEq, Repr

/-- Discriminants, `llvm-support/src/bitcodes.rs:243-246` -/
def StrtabCode.code : StrtabCode → U64
  | .blob => 1

instance : NumEnum StrtabCode where
  all :=
    [.blob]
  code := StrtabCode.code

/-- `llvm-support/src/bitcodes.rs:252-255` -/
inductive SymtabCode where
  | blob
deriving DecidableEq, Repr

/-- Discriminants, `llvm-support/src/bitcodes.rs:252-255` -/
def SymtabCode.code : SymtabCode → U64
  | .blob => 1

instance : NumEnum SymtabCode where
  all :=
    [.blob]
  code := SymtabCode.code

/-- `llvm-support/src/bitcodes.rs:262-269` -/
inductive AttributeCode where
  | entryOld | entry | groupCodeEntry
deriving DecidableEq, Repr

/-- Discriminants, `llvm-support/src/bitcodes.rs:262-269` -/
def AttributeCode.code : AttributeCode → U64
  | .entryOld => 1
  | .entry => 2
  | .groupCodeEntry => 3

instance : NumEnum AttributeCode where
  all :=
    [.entryOld, .entry, .groupCodeEntry]
  code := AttributeCode.code

/-- `llvm-support/src/bitcodes.rs:277-328` -/
inductive FunctionCode where
  | declareBlocks | instBinop | instCast | instGepOld | instSelect | instExtractelt | instInsertelt | instShufflevec
  | instCmp | instRet | instBr | instSwitch | instInvoke | instUnreachable | instPhi | instAlloca | instLoad
  | instVaarg | instStoreOld | instExtractval | instInsertval | instCmp2 | instVselect | instInboundsGepOld
  | instIndirectbr | debugLocAgain | instCall | debugLoc | instFence | instCmpxchgOld | instAtomicrmwOld
  | instResume | instLandingpadOld | instLoadatomic | instStoreatomicOld | instGep | instStore | instStoreatomic
  | instCmpxchg | instLandingpad | instCleanupret | instCatchret | instCatchpad | instCleanuppad | instCatchswitch
  | operandBundle | instUnop | instcallbr | instFreeze | instAtomicrmw
deriving DecidableEq, Repr

/-- Discriminants, `llvm-support/src/bitcodes.rs:277-328` -/
def FunctionCode.code : FunctionCode → U64
  | .declareBlocks => 1
  | .instBinop => 2
  | .instCast => 3
  | .instGepOld => 4
  | .instSelect => 5
  | .instExtractelt => 6
  | .instInsertelt => 7
  | .instShufflevec => 8
  | .instCmp => 9
  | .instRet => 10
  | .instBr => 11
  | .instSwitch => 12
  | .instInvoke => 13
  | .instUnreachable => 15
  | .instPhi => 16
  | .instAlloca => 19
  | .instLoad => 20
  | .instVaarg => 23
  | .instStoreOld => 24
  | .instExtractval => 26
  | .instInsertval => 27
  | .instCmp2 => 28
  | .instVselect => 29
  | .instInboundsGepOld => 30
  | .instIndirectbr => 31
  | .debugLocAgain => 33
  | .instCall => 34
  | .debugLoc => 35
  | .instFence => 36
  | .instCmpxchgOld => 37
  | .instAtomicrmwOld => 38
  | .instResume => 39
  | .instLandingpadOld => 40
  | .instLoadatomic => 41
  | .instStoreatomicOld => 42
  | .instGep => 43
  | .instStore => 44
  | .instStoreatomic => 45
  | .instCmpxchg => 46
  | .instLandingpad => 47
  | .instCleanupret => 48
  | .instCatchret => 49
  | .instCatchpad => 50
  | .instCleanuppad => 51
  | .instCatchswitch => 52
  | .operandBundle => 55
  | .instUnop => 56
  | .instcallbr => 57
  | .instFreeze => 58
  | .instAtomicrmw => 59

instance : NumEnum FunctionCode where
  all :=
    [.declareBlocks, .instBinop, .instCast, .instGepOld, .instSelect, .instExtractelt, .instInsertelt,
      .instShufflevec, .instCmp, .instRet, .instBr, .instSwitch, .instInvoke, .instUnreachable, .instPhi,
      .instAlloca, .instLoad, .instVaarg, .instStoreOld, .instExtractval, .instInsertval, .instCmp2, .instVselect,
      .instInboundsGepOld, .instIndirectbr, .debugLocAgain, .instCall, .debugLoc, .instFence, .instCmpxchgOld,
      .instAtomicrmwOld, .instResume, .instLandingpadOld, .instLoadatomic, .instStoreatomicOld, .instGep, .instStore,
      .instStoreatomic, .instCmpxchg, .instLandingpad, .instCleanupret, .instCatchret, .instCatchpad,
      .instCleanuppad, .instCatchswitch, .operandBundle, .instUnop, .instcallbr, .instFreeze, .instAtomicrmw]
  code := FunctionCode.code

/-- `llvm-support/src/bitcodes.rs:336-338` -/
inductive UnaryOpcode where
  | fNeg
deriving DecidableEq, Repr

/-- Discriminants, `llvm-support/src/bitcodes.rs:336-338` -/
def UnaryOpcode.code : UnaryOpcode → U64
  | .fNeg => 0

instance : NumEnum UnaryOpcode where
  all :=
    [.fNeg]
  code := UnaryOpcode.code

/-- `llvm-support/src/bitcodes.rs:346-360` -/
inductive BinaryOpcode where
  | add | sub | mul | uDiv | sDiv | uRem | sRem | shl | lShr | aShr | and | or | xor
deriving DecidableEq, Repr

/-- Discriminants, `llvm-support/src/bitcodes.rs:346-360` -/
def BinaryOpcode.code : BinaryOpcode → U64
  | .add => 0
  | .sub => 1
  | .mul => 2
  | .uDiv => 3
  | .sDiv => 4
  | .uRem => 5
  | .sRem => 6
  | .shl => 7
  | .lShr => 8
  | .aShr => 9
  | .and => 10
  | .or => 11
  | .xor => 12

instance : NumEnum BinaryOpcode where
  all :=
    [.add, .sub, .mul, .uDiv, .sDiv, .uRem, .sRem, .shl, .lShr, .aShr, .and, .or, .xor]
  code := BinaryOpcode.code

/-- `llvm-support/src/bitcodes.rs:367-381` -/
inductive RMWOperation where
  | xchg | add | sub | and | nand | or | xor | max | min | uMax | uMin | fAdd | fSub
deriving DecidableEq, Repr

/-- Discriminants, `llvm-support/src/bitcodes.rs:367-381` -/
def RMWOperation.code : RMWOperation → U64
  | .xchg => 0
  | .add => 1
  | .sub => 2
  | .and => 3
  | .nand => 4
  | .or => 5
  | .xor => 6
  | .max => 7
  | .min => 8
  | .uMax => 9
  | .uMin => 10
  | .fAdd => 11
  | .fSub => 12

instance : NumEnum RMWOperation where
  all :=
    [.xchg, .add, .sub, .and, .nand, .or, .xor, .max, .min, .uMax, .uMin, .fAdd, .fSub]
  code := RMWOperation.code

/-- `llvm-support/src/lib.rs:154-163` -/
inductive Visibility where
  | «default» | hidden | «protected»
deriving DecidableEq, Repr

/-- Discriminants, `llvm-support/src/lib.rs:154-163` -/
def Visibility.code : Visibility → U64
  | .«default» => 0
  | .hidden => 1
  | .«protected» => 2

instance : NumEnum Visibility where
  all :=
    [.«default», .hidden, .«protected»]
  code := Visibility.code

/-- `llvm-support/src/lib.rs:170-179` -/
inductive DllStorageClass where
  | «default» | import | export
deriving DecidableEq, Repr

/-- Discriminants, `llvm-support/src/lib.rs:170-179` -/
def DllStorageClass.code : DllStorageClass → U64
  | .«default» => 0
  | .import => 1
  | .export => 2

instance : NumEnum DllStorageClass where
  all :=
    [.«default», .import, .export]
  code := DllStorageClass.code

/-- `llvm-support/src/lib.rs:275-318` -/
inductive CallingConvention where
  | c | fast | cold | ghc | hiPE | webKitJS | anyReg | preserveMost | preserveAll | swift | cxxfasttls | x86Stdcall
  | x86Fastcall | armapcs | armaapcs | armaapcsvfp | msp430INTR | x86ThisCall | ptxKernel | ptxDevice | spirfunc
  | spirkernel | intelOCLBI | x8664SysV | win64 | x86VectorCall | hhvm | hhvmc | x86INTR | avrintr | avrsignal
  | avrbuiltin | amdgpuvs | amdgpugs | amdgpups | amdgpucs | amdgpukernel | x86RegCall | amdgpuhs | msp430BUILTIN
  | amdgpuls | amdgpues
deriving DecidableEq, Repr

/-- Discriminants, `llvm-support/src/lib.rs:275-318` -/
def CallingConvention.code : CallingConvention → U64
  | .c => 0
  | .fast => 8
  | .cold => 9
  | .ghc => 10
  | .hiPE => 11
  | .webKitJS => 12
  | .anyReg => 13
  | .preserveMost => 14
  | .preserveAll => 15
  | .swift => 16
  | .cxxfasttls => 17
  | .x86Stdcall => 64
  | .x86Fastcall => 65
  | .armapcs => 66
  | .armaapcs => 67
  | .armaapcsvfp => 68
  | .msp430INTR => 69
  | .x86ThisCall => 70
  | .ptxKernel => 71
  | .ptxDevice => 72
  | .spirfunc => 75
  | .spirkernel => 76
  | .intelOCLBI => 77
  | .x8664SysV => 78
  | .win64 => 79
  | .x86VectorCall => 80
  | .hhvm => 81
  | .hhvmc => 82
  | .x86INTR => 83
  | .avrintr => 84
  | .avrsignal => 85
  | .avrbuiltin => 86
  | .amdgpuvs => 87
  | .amdgpugs => 88
  | .amdgpups => 89
  | .amdgpucs => 90
  | .amdgpukernel => 91
  | .x86RegCall => 92
  | .amdgpuhs => 93
  | .msp430BUILTIN => 94
  | .amdgpuls => 95
  | .amdgpues => 96

instance : NumEnum CallingConvention where
  all :=
    [.c, .fast, .cold, .ghc, .hiPE, .webKitJS, .anyReg, .preserveMost, .preserveAll, .swift, .cxxfasttls,
      .x86Stdcall, .x86Fastcall, .armapcs, .armaapcs, .armaapcsvfp, .msp430INTR, .x86ThisCall, .ptxKernel,
      .ptxDevice, .spirfunc, .spirkernel, .intelOCLBI, .x8664SysV, .win64, .x86VectorCall, .hhvm, .hhvmc, .x86INTR,
      .avrintr, .avrsignal, .avrbuiltin, .amdgpuvs, .amdgpugs, .amdgpups, .amdgpucs, .amdgpukernel, .x86RegCall,
      .amdgpuhs, .msp430BUILTIN, .amdgpuls, .amdgpues]
  code := CallingConvention.code

/-- `llvm-support/src/attribute.rs:8-18` -/
inductive AttributeKind where
  | enum | intKeyValue | strKey | strKeyValue
deriving DecidableEq, Repr

/-- Discriminants, `llvm-support/src/attribute.rs:8-18` -/
def AttributeKind.code : AttributeKind → U64
  | .enum => 0
  | .intKeyValue => 1
  | .strKey => 3
  | .strKeyValue => 4

instance : NumEnum AttributeKind where
  all :=
    [.enum, .intKeyValue, .strKey, .strKeyValue]
  code := AttributeKind.code

/-- `llvm-support/src/attribute.rs:24-197` -/
inductive AttributeId where
  | alignment | alwaysInline | byVal | inlineHint | inReg | minSize | naked | nest | noAlias | noBuiltin | noCapture
  | noDuplicate | noImplicitFloat | noInline | nonLazyBind | noRedZone | noReturn | noUnwind | optimizeForSize
  | readNone | readOnly | returned | returnsTwice | sExt | stackAlignment | stackProtect | stackProtectReq
  | stackProtectStrong | structRet | sanitizeAddress | sanitizeThread | sanitizeMemory | uwTable | zExt | builtin
  | cold | optimizeNone | inAlloca | nonNull | jumpTable | dereferenceable | dereferenceableOrNull | convergent
  | safeStack | argMemOnly | swiftSelf | swiftError | noRecurse | inaccessiblememOnly | inaccessiblememOrArgmemonly
  | allocSize | writeOnly | speculatable | strictFp | sanitizeHwAddress | noCfCheck | optForFuzzing
  | shadowcallstack | speculativeLoadHardening | immArg | willReturn | noFree | noSync | sanitizeMemtag
  | preallocated | noMerge | nullPointerIsValid | noUndef | byRef | mustProgress | noCallback | hot | noProfile
  | vScaleRange | swiftAsync | noSanitizeCoverage | elementType | disableSanitizerInstrumentation | noSanitizeBounds
  | allocAlign | allocatedPointer | allocKind | presplitCoroutine | fnretthunkExtern | skipProfile | memory
deriving DecidableEq, Repr

/-- Discriminants, `llvm-support/src/attribute.rs:24-197` -/
def AttributeId.code : AttributeId → U64
  | .alignment => 1
  | .alwaysInline => 2
  | .byVal => 3
  | .inlineHint => 4
  | .inReg => 5
  | .minSize => 6
  | .naked => 7
  | .nest => 8
  | .noAlias => 9
  | .noBuiltin => 10
  | .noCapture => 11
  | .noDuplicate => 12
  | .noImplicitFloat => 13
  | .noInline => 14
  | .nonLazyBind => 15
  | .noRedZone => 16
  | .noReturn => 17
  | .noUnwind => 18
  | .optimizeForSize => 19
  | .readNone => 20
  | .readOnly => 21
  | .returned => 22
  | .returnsTwice => 23
  | .sExt => 24
  | .stackAlignment => 25
  | .stackProtect => 26
  | .stackProtectReq => 27
  | .stackProtectStrong => 28
  | .structRet => 29
  | .sanitizeAddress => 30
  | .sanitizeThread => 31
  | .sanitizeMemory => 32
  | .uwTable => 33
  | .zExt => 34
  | .builtin => 35
  | .cold => 36
  | .optimizeNone => 37
  | .inAlloca => 38
  | .nonNull => 39
  | .jumpTable => 40
  | .dereferenceable => 41
  | .dereferenceableOrNull => 42
  | .convergent => 43
  | .safeStack => 44
  | .argMemOnly => 45
  | .swiftSelf => 46
  | .swiftError => 47
  | .noRecurse => 48
  | .inaccessiblememOnly => 49
  | .inaccessiblememOrArgmemonly => 50
  | .allocSize => 51
  | .writeOnly => 52
  | .speculatable => 53
  | .strictFp => 54
  | .sanitizeHwAddress => 55
  | .noCfCheck => 56
  | .optForFuzzing => 57
  | .shadowcallstack => 58
  | .speculativeLoadHardening => 59
  | .immArg => 60
  | .willReturn => 61
  | .noFree => 62
  | .noSync => 63
  | .sanitizeMemtag => 64
  | .preallocated => 65
  | .noMerge => 66
  | .nullPointerIsValid => 67
  | .noUndef => 68
  | .byRef => 69
  | .mustProgress => 70
  | .noCallback => 71
  | .hot => 72
  | .noProfile => 73
  | .vScaleRange => 74
  | .swiftAsync => 75
  | .noSanitizeCoverage => 76
  | .elementType => 77
  | .disableSanitizerInstrumentation => 78
  | .noSanitizeBounds => 79
  | .allocAlign => 80
  | .allocatedPointer => 81
  | .allocKind => 82
  | .presplitCoroutine => 83
  | .fnretthunkExtern => 84
  | .skipProfile => 85
  | .memory => 86

instance : NumEnum AttributeId where
  all :=
    [.alignment, .alwaysInline, .byVal, .inlineHint, .inReg, .minSize, .naked, .nest, .noAlias, .noBuiltin,
      .noCapture, .noDuplicate, .noImplicitFloat, .noInline, .nonLazyBind, .noRedZone, .noReturn, .noUnwind,
      .optimizeForSize, .readNone, .readOnly, .returned, .returnsTwice, .sExt, .stackAlignment, .stackProtect,
      .stackProtectReq, .stackProtectStrong, .structRet, .sanitizeAddress, .sanitizeThread, .sanitizeMemory,
      .uwTable, .zExt, .builtin, .cold, .optimizeNone, .inAlloca, .nonNull, .jumpTable, .dereferenceable,
      .dereferenceableOrNull, .convergent, .safeStack, .argMemOnly, .swiftSelf, .swiftError, .noRecurse,
      .inaccessiblememOnly, .inaccessiblememOrArgmemonly, .allocSize, .writeOnly, .speculatable, .strictFp,
      .sanitizeHwAddress, .noCfCheck, .optForFuzzing, .shadowcallstack, .speculativeLoadHardening, .immArg,
      .willReturn, .noFree, .noSync, .sanitizeMemtag, .preallocated, .noMerge, .nullPointerIsValid, .noUndef, .byRef,
      .mustProgress, .noCallback, .hot, .noProfile, .vScaleRange, .swiftAsync, .noSanitizeCoverage, .elementType,
      .disableSanitizerInstrumentation, .noSanitizeBounds, .allocAlign, .allocatedPointer, .allocKind,
      .presplitCoroutine, .fnretthunkExtern, .skipProfile, .memory]
  code := AttributeId.code

end Verif
