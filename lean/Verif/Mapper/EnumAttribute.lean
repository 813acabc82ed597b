import Verif.Support.EnumLemmas
import Verif.Support.EnumSpec

/-! `EnumAttribute` and `UwTableVariant`: `llvm-mapper/src/block/attributes.rs`. -/

namespace Verif

/-- `llvm-mapper/src/block/attributes.rs:70-225` -/
inductive EnumAttribute where
  | alwaysInline | byVal | inlineHint | inReg | minSize | naked | nest | noAlias | noBuiltin | noCapture
  | noDuplicate | noImplicitFloat | noInline | nonLazyBind | noRedZone | noReturn | noUnwind | optimizeForSize
  | readNone | readOnly | returned | returnsTwice | sExt | stackProtect | stackProtectReq | stackProtectStrong
  | structRet | sanitizeAddress | sanitizeThread | sanitizeMemory | uwTable | zExt | builtin | cold | optimizeNone
  | inAlloca | nonNull | jumpTable | convergent | safeStack | argMemOnly | swiftSelf | swiftError | noRecurse
  | inaccessiblememOnly | inaccessiblememOrArgmemonly | writeOnly | speculatable | strictFp | sanitizeHwAddress
  | noCfCheck | optForFuzzing | shadowcallstack | speculativeLoadHardening | immArg | willReturn | noFree | noSync
  | sanitizeMemtag | preallocated | noMerge | nullPointerIsValid | noUndef | byRef | mustProgress | noCallback | hot
  | noProfile | swiftAsync | noSanitizeCoverage | elementType | disableSanitizerInstrumentation | allocAlign
  | allocatedPointer | presplitCoroutine | fnretthunkExtern | skipProfile
deriving DecidableEq, Repr

/-- Discriminants, `llvm-mapper/src/block/attributes.rs:70-225`: those of the attribute ids. -/
def EnumAttribute.id : EnumAttribute → AttributeId
  | .alwaysInline => .alwaysInline
  | .byVal => .byVal
  | .inlineHint => .inlineHint
  | .inReg => .inReg
  | .minSize => .minSize
  | .naked => .naked
  | .nest => .nest
  | .noAlias => .noAlias
  | .noBuiltin => .noBuiltin
  | .noCapture => .noCapture
  | .noDuplicate => .noDuplicate
  | .noImplicitFloat => .noImplicitFloat
  | .noInline => .noInline
  | .nonLazyBind => .nonLazyBind
  | .noRedZone => .noRedZone
  | .noReturn => .noReturn
  | .noUnwind => .noUnwind
  | .optimizeForSize => .optimizeForSize
  | .readNone => .readNone
  | .readOnly => .readOnly
  | .returned => .returned
  | .returnsTwice => .returnsTwice
  | .sExt => .sExt
  | .stackProtect => .stackProtect
  | .stackProtectReq => .stackProtectReq
  | .stackProtectStrong => .stackProtectStrong
  | .structRet => .structRet
  | .sanitizeAddress => .sanitizeAddress
  | .sanitizeThread => .sanitizeThread
  | .sanitizeMemory => .sanitizeMemory
  | .uwTable => .uwTable
  | .zExt => .zExt
  | .builtin => .builtin
  | .cold => .cold
  | .optimizeNone => .optimizeNone
  | .inAlloca => .inAlloca
  | .nonNull => .nonNull
  | .jumpTable => .jumpTable
  | .convergent => .convergent
  | .safeStack => .safeStack
  | .argMemOnly => .argMemOnly
  | .swiftSelf => .swiftSelf
  | .swiftError => .swiftError
  | .noRecurse => .noRecurse
  | .inaccessiblememOnly => .inaccessiblememOnly
  | .inaccessiblememOrArgmemonly => .inaccessiblememOrArgmemonly
  | .writeOnly => .writeOnly
  | .speculatable => .speculatable
  | .strictFp => .strictFp
  | .sanitizeHwAddress => .sanitizeHwAddress
  | .noCfCheck => .noCfCheck
  | .optForFuzzing => .optForFuzzing
  | .shadowcallstack => .shadowcallstack
  | .speculativeLoadHardening => .speculativeLoadHardening
  | .immArg => .immArg
  | .willReturn => .willReturn
  | .noFree => .noFree
  | .noSync => .noSync
  | .sanitizeMemtag => .sanitizeMemtag
  | .preallocated => .preallocated
  | .noMerge => .noMerge
  | .nullPointerIsValid => .nullPointerIsValid
  | .noUndef => .noUndef
  | .byRef => .byRef
  | .mustProgress => .mustProgress
  | .noCallback => .noCallback
  | .hot => .hot
  | .noProfile => .noProfile
  | .swiftAsync => .swiftAsync
  | .noSanitizeCoverage => .noSanitizeCoverage
  | .elementType => .elementType
  | .disableSanitizerInstrumentation => .disableSanitizerInstrumentation
  | .allocAlign => .allocAlign
  | .allocatedPointer => .allocatedPointer
  | .presplitCoroutine => .presplitCoroutine
  | .fnretthunkExtern => .fnretthunkExtern
  | .skipProfile => .skipProfile

/-- `as u64` -/
def EnumAttribute.code (a : EnumAttribute) : U64 := a.id.code

instance : NumEnum EnumAttribute where
  all :=
    [.alwaysInline, .byVal, .inlineHint, .inReg, .minSize, .naked, .nest, .noAlias, .noBuiltin, .noCapture,
      .noDuplicate, .noImplicitFloat, .noInline, .nonLazyBind, .noRedZone, .noReturn, .noUnwind, .optimizeForSize,
      .readNone, .readOnly, .returned, .returnsTwice, .sExt, .stackProtect, .stackProtectReq, .stackProtectStrong,
      .structRet, .sanitizeAddress, .sanitizeThread, .sanitizeMemory, .uwTable, .zExt, .builtin, .cold,
      .optimizeNone, .inAlloca, .nonNull, .jumpTable, .convergent, .safeStack, .argMemOnly, .swiftSelf,
      .swiftError, .noRecurse, .inaccessiblememOnly, .inaccessiblememOrArgmemonly, .writeOnly, .speculatable,
      .strictFp, .sanitizeHwAddress, .noCfCheck, .optForFuzzing, .shadowcallstack, .speculativeLoadHardening,
      .immArg, .willReturn, .noFree, .noSync, .sanitizeMemtag, .preallocated, .noMerge, .nullPointerIsValid,
      .noUndef, .byRef, .mustProgress, .noCallback, .hot, .noProfile, .swiftAsync, .noSanitizeCoverage,
      .elementType, .disableSanitizerInstrumentation, .allocAlign, .allocatedPointer, .presplitCoroutine,
      .fnretthunkExtern, .skipProfile]
  code := EnumAttribute.code

instance : LawfulNumEnum EnumAttribute where
  complete a := by cases a <;> decide
  nodup := by decide +kernel

/-- `llvm-mapper/src/block/attributes.rs:240-247` -/
inductive UwTableVariant where
  | none | sync | async
deriving DecidableEq, Repr

/-- Discriminants, `llvm-mapper/src/block/attributes.rs:240-247` -/
def UwTableVariant.code : UwTableVariant → U64
  | .none => 0
  | .sync => 1
  | .async => 2

instance : NumEnum UwTableVariant where
  all := [.none, .sync, .async]
  code := UwTableVariant.code

instance : LawfulNumEnum UwTableVariant where
  complete a := by cases a <;> decide
  nodup := by decide +kernel

namespace Spec

/-- The attributes without a value, in LLVM's numbering (`AttributeKindCodes` in `LLVMBitCodes.h`). -/
def enumAttributeTable : List (Nat × EnumAttribute) :=
  numbered 2 [.alwaysInline, .byVal, .inlineHint, .inReg, .minSize, .naked, .nest, .noAlias, .noBuiltin, .noCapture,
    .noDuplicate, .noImplicitFloat, .noInline, .nonLazyBind, .noRedZone, .noReturn, .noUnwind, .optimizeForSize,
    .readNone, .readOnly, .returned, .returnsTwice, .sExt] ++
  numbered 26 [.stackProtect, .stackProtectReq, .stackProtectStrong, .structRet, .sanitizeAddress, .sanitizeThread,
    .sanitizeMemory, .uwTable, .zExt, .builtin, .cold, .optimizeNone, .inAlloca, .nonNull, .jumpTable] ++
  numbered 43 [.convergent, .safeStack, .argMemOnly, .swiftSelf, .swiftError, .noRecurse, .inaccessiblememOnly,
    .inaccessiblememOrArgmemonly] ++
  numbered 52 [.writeOnly, .speculatable, .strictFp, .sanitizeHwAddress, .noCfCheck, .optForFuzzing, .shadowcallstack,
    .speculativeLoadHardening, .immArg, .willReturn, .noFree, .noSync, .sanitizeMemtag, .preallocated, .noMerge,
    .nullPointerIsValid, .noUndef, .byRef, .mustProgress, .noCallback, .hot, .noProfile] ++
  numbered 75 [.swiftAsync, .noSanitizeCoverage, .elementType, .disableSanitizerInstrumentation] ++
  numbered 80 [.allocAlign, .allocatedPointer] ++
  numbered 83 [.presplitCoroutine, .fnretthunkExtern, .skipProfile]

end Spec

end Verif
