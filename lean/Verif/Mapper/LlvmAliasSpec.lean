import Verif.Mapper.LlvmGlobalSpec

/-!
# Aliases and COMDATs as LLVM writes them

The records that LLVM's writer makes of aliases and COMDATs (`BitcodeWriter.cpp`, `MODULE_CODE_ALIAS` and `MODULE_CODE_COMDAT`), and when a mapped
one is the one that was written.
-/

namespace Verif.Spec

/-- An alias as LLVM writes it. -/
structure WrittenAlias where
  name : List U8
  type : Nat
  addressSpace : Nat
  aliasee : Nat
  linkage : Linkage
  visibility : Visibility
  storageClass : DllStorageClass
  tlsMode : ThreadLocalMode
  unnamedAddr : UnnamedAddr
  dsoLocal : Bool
  partition : Nat × Nat

/-- `getEncodedThreadLocalMode`. -/
def llvmThreadLocalMode : ThreadLocalMode → Nat
  | .notThreadLocal => 0
  | .generalDynamicTls => 1
  | .localDynamicTls => 2
  | .initialExecTls => 3
  | .localExecTls => 4

/-- The fields of the record, with the name at the given offset of the string table. -/
def WrittenAlias.fields (a : WrittenAlias) (offset : Nat) : List Nat :=
  [offset, a.name.length, a.type, a.addressSpace, a.aliasee, llvmLinkage a.linkage, llvmVisibility a.visibility, llvmStorageClass a.storageClass,
   llvmThreadLocalMode a.tlsMode, llvmUnnamedAddr a.unnamedAddr, a.dsoLocal.toNat, a.partition.1, a.partition.2]

/-- The alias fits in a module with the given tables; aliases have these linkages (`GlobalAlias::isValidLinkage`). -/
structure WrittenAlias.Allowed (a : WrittenAlias) (offset : Nat) (ctx : MapCtx) : Prop where
  version : 2 ≤ ctx.version.toNat
  name : ∃ pre post, ctx.strtab.bytes = pre ++ (a.name ++ post) ∧ pre.length = offset
  type : a.type < ctx.typeTable.length
  linkage : a.linkage ∈ [.external, .internal, .private, .weakAny, .weakOdr, .linkOnceAny, .linkOnceOdr, .availableExternally]
  small : ∀ n ∈ a.fields offset, n < 2 ^ 64

/-- The mapped alias is the one that was written. -/
structure SameAlias (ctx : MapCtx) (a : WrittenAlias) (b : Alias) : Prop where
  name : utf8 b.name = a.name
  type : ctx.typeTable[a.type]? = some b.ty
  aliasee : b.valueIndex.toNat = a.aliasee
  linkage : b.linkage = a.linkage
  visibility : b.visibility = a.visibility
  storageClass : b.storageClass = a.storageClass
  tlsMode : b.tlsMode = a.tlsMode
  unnamedAddr : b.unnamedAddr = a.unnamedAddr
  dsoLocal : b.preemptionSpecifier = if a.dsoLocal then .dsoLocal else .dsoPreemptable

/-- All properties of the alias that have one are at their default, its aliasee has the number of its address space, and this number does not stand for a
linkage other than `external`. -/
structure WrittenAlias.Plain (a : WrittenAlias) : Prop where
  aliasee : a.aliasee = a.addressSpace
  number : ∀ l, (a.aliasee, l) ∈ linkageTable → l = .external
  linkage : a.linkage = .external
  visibility : a.visibility = .default
  storageClass : a.storageClass = .default
  tlsMode : a.tlsMode = .notThreadLocal
  unnamedAddr : a.unnamedAddr = .none
  dsoLocal : a.dsoLocal = false

/-- A COMDAT as LLVM writes it. -/
structure WrittenComdat where
  name : List U8
  kind : SelectionKind

/-- `getEncodedComdatSelectionKind`. -/
def llvmSelectionKind : SelectionKind → Nat
  | .any => 1
  | .exactMatch => 2
  | .largest => 3
  | .noDeduplicate => 4
  | .sameSize => 5

/-- The fields of the record, with the name at the given offset of the string table. -/
def WrittenComdat.fields (c : WrittenComdat) (offset : Nat) : List Nat := [offset, c.name.length, llvmSelectionKind c.kind]

/-- The name is in the string table. -/
structure WrittenComdat.Allowed (c : WrittenComdat) (offset : Nat) (bytes : List U8) : Prop where
  name : ∃ pre post, bytes = pre ++ (c.name ++ post) ∧ pre.length = offset
  small : offset < 2 ^ 64 ∧ c.name.length < 2 ^ 64

/-- The kind that is reported for another one. -/
def reportedKind : SelectionKind → Option SelectionKind
  | .any => some .exactMatch
  | .exactMatch => some .largest
  | .largest => some .noDeduplicate
  | .noDeduplicate => some .sameSize
  | .sameSize => none

end Verif.Spec
