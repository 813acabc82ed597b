import Verif.Support.Enums
import Verif.Support.Globals

/-! The numbering of LLVM's bitcode (`llvm/Bitcode/LLVMBitCodes.h`, `BitCodes.h` and `IR/CallingConv.h`), as runs of
consecutive numbers. -/

namespace Verif.Spec

/-- The elements numbered one after the other, beginning with `n`. -/
def numbered {α : Type} (n : Nat) : List α → List (Nat × α)
  | [] => []
  | a :: l => (n, a) :: numbered (n + 1) l

def reservedBlockIdTable : List (Nat × ReservedBlockId) :=
  numbered 0 [.blockInfo, .reserved1, .reserved2, .reserved3, .reserved4, .reserved5, .reserved6, .reserved7]

def irBlockIdTable : List (Nat × IrBlockId) :=
  numbered 8 [.«module», .paramAttr, .paramAttrGroup, .constants, .function, .identification, .valueSymtab, .metadata,
    .metadataAttachment, .type, .uselist, .moduleStrtab, .globalValSummary, .operandBundleTags, .metadataKind,
    .strtab, .fullLtoGlobalValSummary, .symtab, .syncScopeNames]

def identificationCodeTable : List (Nat × IdentificationCode) :=
  numbered 1 [.producerString, .epoch]

def moduleCodeTable : List (Nat × ModuleCode) :=
  numbered 1 [.version, .triple, .dataLayout, .asm, .sectionName, .depLib, .globalVar, .function, .aliasOld] ++
  numbered 11 [.gcName, .comdat, .vstOffset, .alias, .metadataValuesUnused, .sourceFilename, .hash, .iFunc]

def typeCodeTable : List (Nat × TypeCode) :=
  numbered 1 [.numEntry, .void, .float, .double, .label, .opaque, .integer, .pointer, .functionOld, .half, .array,
    .vector, .x86Fp80, .fp128, .ppcFp128, .metadata, .x86Mmx, .structAnon, .structName, .structNamed, .function,
    .token, .bFloat, .x86Amx, .opaquePointer]

def strtabCodeTable : List (Nat × StrtabCode) :=
  numbered 1 [.blob]

def symtabCodeTable : List (Nat × SymtabCode) :=
  numbered 1 [.blob]

def attributeCodeTable : List (Nat × AttributeCode) :=
  numbered 1 [.entryOld, .entry, .groupCodeEntry]

def functionCodeTable : List (Nat × FunctionCode) :=
  numbered 1 [.declareBlocks, .instBinop, .instCast, .instGepOld, .instSelect, .instExtractelt, .instInsertelt,
    .instShufflevec, .instCmp, .instRet, .instBr, .instSwitch, .instInvoke] ++
  numbered 15 [.instUnreachable, .instPhi] ++
  numbered 19 [.instAlloca, .instLoad] ++
  numbered 23 [.instVaarg, .instStoreOld] ++
  numbered 26 [.instExtractval, .instInsertval, .instCmp2, .instVselect, .instInboundsGepOld, .instIndirectbr] ++
  numbered 33 [.debugLocAgain, .instCall, .debugLoc, .instFence, .instCmpxchgOld, .instAtomicrmwOld, .instResume,
    .instLandingpadOld, .instLoadatomic, .instStoreatomicOld, .instGep, .instStore, .instStoreatomic, .instCmpxchg,
    .instLandingpad, .instCleanupret, .instCatchret, .instCatchpad, .instCleanuppad, .instCatchswitch] ++
  numbered 55 [.operandBundle, .instUnop, .instcallbr, .instFreeze, .instAtomicrmw]

def unaryOpcodeTable : List (Nat × UnaryOpcode) :=
  numbered 0 [.fNeg]

def binaryOpcodeTable : List (Nat × BinaryOpcode) :=
  numbered 0 [.add, .sub, .mul, .uDiv, .sDiv, .uRem, .sRem, .shl, .lShr, .aShr, .and, .or, .xor]

def rmwOperationTable : List (Nat × RMWOperation) :=
  numbered 0 [.xchg, .add, .sub, .and, .nand, .or, .xor, .max, .min, .uMax, .uMin, .fAdd, .fSub]

def visibilityTable : List (Nat × Visibility) :=
  numbered 0 [.«default», .hidden, .«protected»]

def dllStorageClassTable : List (Nat × DllStorageClass) :=
  numbered 0 [.«default», .import, .export]

def callingConventionTable : List (Nat × CallingConvention) :=
  numbered 0 [.c] ++
  numbered 8 [.fast, .cold, .ghc, .hiPE, .webKitJS, .anyReg, .preserveMost, .preserveAll, .swift, .cxxfasttls] ++
  numbered 64 [.x86Stdcall, .x86Fastcall, .armapcs, .armaapcs, .armaapcsvfp, .msp430INTR, .x86ThisCall, .ptxKernel,
    .ptxDevice] ++
  numbered 75 [.spirfunc, .spirkernel, .intelOCLBI, .x8664SysV, .win64, .x86VectorCall, .hhvm, .hhvmc, .x86INTR,
    .avrintr, .avrsignal, .avrbuiltin, .amdgpuvs, .amdgpugs, .amdgpups, .amdgpucs, .amdgpukernel, .x86RegCall,
    .amdgpuhs, .msp430BUILTIN, .amdgpuls, .amdgpues]

def attributeKindTable : List (Nat × AttributeKind) :=
  numbered 0 [.enum, .intKeyValue] ++
  numbered 3 [.strKey, .strKeyValue]

def attributeIdTable : List (Nat × AttributeId) :=
  numbered 1 [.alignment, .alwaysInline, .byVal, .inlineHint, .inReg, .minSize, .naked, .nest, .noAlias, .noBuiltin,
    .noCapture, .noDuplicate, .noImplicitFloat, .noInline, .nonLazyBind, .noRedZone, .noReturn, .noUnwind,
    .optimizeForSize, .readNone, .readOnly, .returned, .returnsTwice, .sExt, .stackAlignment, .stackProtect,
    .stackProtectReq, .stackProtectStrong, .structRet, .sanitizeAddress, .sanitizeThread, .sanitizeMemory, .uwTable,
    .zExt, .builtin, .cold, .optimizeNone, .inAlloca, .nonNull, .jumpTable, .dereferenceable,
    .dereferenceableOrNull, .convergent, .safeStack, .argMemOnly, .swiftSelf, .swiftError, .noRecurse,
    .inaccessiblememOnly, .inaccessiblememOrArgmemonly, .allocSize, .writeOnly, .speculatable, .strictFp,
    .sanitizeHwAddress, .noCfCheck, .optForFuzzing, .shadowcallstack, .speculativeLoadHardening, .immArg,
    .willReturn, .noFree, .noSync, .sanitizeMemtag, .preallocated, .noMerge, .nullPointerIsValid, .noUndef, .byRef,
    .mustProgress, .noCallback, .hot, .noProfile, .vScaleRange, .swiftAsync, .noSanitizeCoverage, .elementType,
    .disableSanitizerInstrumentation, .noSanitizeBounds, .allocAlign, .allocatedPointer, .allocKind,
    .presplitCoroutine, .fnretthunkExtern, .skipProfile, .memory]

/-- Linkage has several numbers for the same meaning, as in LLVM's reader (`getDecodedLinkage`). -/
def linkageTable : List (Nat × Linkage) :=
  numbered 0 [.external, .weakAny, .appending, .internal, .linkOnceAny, .external, .external, .externalWeak, .common,
    .«private», .weakOdr, .linkOnceOdr, .availableExternally, .«private», .«private», .external, .weakAny, .weakOdr,
    .linkOnceAny, .linkOnceOdr]

def threadLocalModeTable : List (Nat × ThreadLocalMode) :=
  numbered 0 [.notThreadLocal, .generalDynamicTls, .localDynamicTls, .initialExecTls, .localExecTls]

def unnamedAddrTable : List (Nat × UnnamedAddr) := numbered 0 [.none, .«global», .«local»]

def runtimePreemptionTable : List (Nat × RuntimePreemption) := numbered 0 [.dsoPreemptable, .dsoLocal]

end Verif.Spec
