import Verif.Mapper.GlobalRecords
import Verif.Mapper.UnrollSpec
import Verif.Support.EnumSpec

/-! Specification of function, alias and COMDAT records: what each field stands for. -/

namespace Verif.Spec

/-- The number in field `i`; fields that are left out count as 0. -/
def field (fs : List U64) (i : Nat) : Nat := (fs[i]?.getD 0).toNat

/-- `s` is the text of `size` bytes at `offset`. -/
def NameAt (bytes : List U8) (offset size : Nat) (s : Str) : Prop :=
  1 ≤ size ∧ ∃ pre post, bytes = pre ++ (utf8 s ++ post) ∧ pre.length = offset ∧ (utf8 s).length = size

/-- Entry number `i` of a table, counted from 1; 0 stands for no entry. -/
inductive OneBased {α : Type} (l : List α) : Nat → Option α → Prop
  | none : OneBased l 0 none
  | some {i : Nat} {a : α} : l[i]? = some a → OneBased l (i + 1) (some a)

/-- What a number stands for in a table of numbers, with a value for all numbers that are not listed. -/
def Stands {α : Type} (table : List (Nat × α)) (other : α) (v : Nat) (a : α) : Prop :=
  (v, a) ∈ table ∨ ((∀ b, (v, b) ∉ table) ∧ a = other)

/-- Alignments are written as the logarithm plus one, up to 2 ^ 63; 0 stands for none. -/
inductive AlignNumber : Nat → MaybeAlign → Prop
  | none : AlignNumber 0 ⟨none⟩
  | some {a : Align} : a.shift.toNat < 64 → AlignNumber (a.shift.toNat + 1) ⟨some a⟩

/-- What a function record says about a function, given the tables of its module. Of the alignment only the low byte
counts. -/
structure FunctionSays (ctx : MapCtx) (fs : List U64) (f : FunctionRecord) : Prop where
  version : 2 ≤ ctx.version.toNat
  length : 10 ≤ fs.length
  name : NameAt ctx.strtab.bytes (field fs 0) (field fs 1) f.name
  type : ctx.typeTable[field fs 2]? = some (.function f.ty.returnType f.ty.paramTypes f.ty.isVararg)
  callingConvention : (field fs 3, f.callingConvention) ∈ callingConventionTable
  isDeclaration : f.isDeclaration = true ↔ field fs 4 ≠ 0
  linkage : Stands linkageTable .external (field fs 5) f.linkage
  attributes : OneBased ctx.attributes (field fs 6) f.attributes
  alignment : AlignNumber (field fs 7 % 256) f.alignment
  «section» : OneBased ctx.sectionTable (field fs 8) f.section
  visibility : (field fs 9, f.visibility) ∈ visibilityTable
  gcName : OneBased ctx.gcTable (field fs 10) f.gcName
  unnamedAddr : Stands unnamedAddrTable .none (field fs 11) f.unnamedAddr
  storageClass : (field fs 13, f.storageClass) ∈ dllStorageClassTable

/-- What an alias record says about an alias, in the layout the crate assumes. -/
structure AliasSays (ctx : MapCtx) (fs : List U64) (a : Alias) : Prop where
  version : 2 ≤ ctx.version.toNat
  length : 5 ≤ fs.length
  name : NameAt ctx.strtab.bytes (field fs 0) (field fs 1) a.name
  type : ctx.typeTable[field fs 2]? = some a.ty
  valueIndex : a.valueIndex.toNat = field fs 3
  linkage : Stands linkageTable .external (field fs 4) a.linkage
  visibility : (field fs 5, a.visibility) ∈ visibilityTable
  storageClass : (field fs 6, a.storageClass) ∈ dllStorageClassTable
  tlsMode : Stands threadLocalModeTable .generalDynamicTls (field fs 7) a.tlsMode
  unnamedAddr : Stands unnamedAddrTable .none (field fs 8) a.unnamedAddr
  preemptionSpecifier : Stands runtimePreemptionTable .dsoPreemptable (field fs 9) a.preemptionSpecifier

/-- The selection kinds as the crate numbers them. -/
def selectionKindTable : List (Nat × SelectionKind) :=
  numbered 0 [.any, .exactMatch, .largest, .noDeduplicate, .sameSize]

/-- The selection kinds as LLVM numbers them in bitcode (`ComdatSelectionKindCodes` in `LLVMBitCodes.h`). -/
def llvmSelectionKindTable : List (Nat × SelectionKind) :=
  numbered 1 [.any, .exactMatch, .largest, .noDeduplicate, .sameSize]

/-- What a COMDAT record says. -/
structure ComdatSays (version : U64) (bytes : List U8) (fs : List U64) (c : Comdat) : Prop where
  version : 2 ≤ version.toNat
  length : fs.length = 3
  name : NameAt bytes (field fs 0) (field fs 1) c.name
  selectionKind : (field fs 2, c.selectionKind) ∈ selectionKindTable

/-- The name of the record, by its first two fields, lies so far beyond the end of any memory that offset and size do not
add up in 64 bits, although the offset by itself is inside the string table. -/
def NameOverflows (bytes : List U8) (fs : List U64) : Prop :=
  field fs 0 < bytes.length ∧ 2 ^ 64 ≤ field fs 0 + field fs 1

/-- What an error about a function record means. -/
def FunctionErrorMeans (ctx : MapCtx) (fs : List U64) : FunctionRecordError → Prop
  | .v1Unsupported => ctx.version.toNat < 2
  | .tooShort n => fs.length = n ∧ n < 10
  | .strtab _ => ∀ s, ¬ NameAt ctx.strtab.bytes (field fs 0) (field fs 1) s
  | .typeId v => v.toNat = field fs 2 ∧ ctx.typeTable.length ≤ v.toNat
  | .type => ∃ t, ctx.typeTable[field fs 2]? = some t ∧ ∀ r ps va, t ≠ .function r ps va
  | .callingConvention v => v.toNat = field fs 3 ∧ ∀ x, (v.toNat, x) ∉ callingConventionTable
  | .attribute v => v.toNat = field fs 6 ∧ ctx.attributes.length < v.toNat
  | .alignment _ => 64 < field fs 7 % 256
  | .section n => n + 1 = field fs 8 ∧ ctx.sectionTable.length ≤ n
  | .visibility v => v.toNat = field fs 9 ∧ ∀ x, (v.toNat, x) ∉ visibilityTable
  | .gc n => n + 1 = field fs 10 ∧ ctx.gcTable.length ≤ n
  | .dllStorageClass v => v.toNat = field fs 13 ∧ ∀ x, (v.toNat, x) ∉ dllStorageClassTable

/-- What an error about an alias record means. -/
def AliasErrorMeans (ctx : MapCtx) (fs : List U64) : AliasError → Prop
  | .v1Unsupported => ctx.version.toNat < 2
  | .tooShort n => fs.length = n ∧ n < 5
  | .strtab _ => ∀ s, ¬ NameAt ctx.strtab.bytes (field fs 0) (field fs 1) s
  | .type v => v.toNat = field fs 2 ∧ ctx.typeTable.length ≤ v.toNat
  | .visibility v => v.toNat = field fs 5 ∧ ∀ x, (v.toNat, x) ∉ visibilityTable
  | .dllStorageClass v => v.toNat = field fs 6 ∧ ∀ x, (v.toNat, x) ∉ dllStorageClassTable

/-- What an error about a COMDAT record means, if the version is known. -/
def ComdatErrorMeans (version : U64) (bytes : List U8) (fs : List U64) : ComdatError → Prop
  | .v1Unsupported => version.toNat < 2
  | .tooShort n => fs.length = n ∧ n ≠ 3
  | .name _ => ∀ s, ¬ NameAt bytes (field fs 0) (field fs 1) s
  | .selectionKind v => v.toNat = field fs 2 ∧ ∀ x, (v.toNat, x) ∉ selectionKindTable
  | .map _ => False

end Verif.Spec
