import Verif.Mapper.GlobalSpec

/-!
# Functions as LLVM writes them

The record that LLVM's writer makes of a function (`BitcodeWriter.cpp`, `MODULE_CODE_FUNCTION`; LLVM's manual, "Bitcode File Format"), and when
a mapped function is the one that was written.
-/

namespace Verif.Spec

/-- A function as LLVM writes it: names are any bytes; tables are referred to by index; alignments are logarithms. -/
structure LlvmFunction where
  name : List U8
  type : Nat
  callingConvention : Nat
  isDeclaration : Bool
  linkage : Linkage
  attributes : Option Nat
  align : Option Nat
  «section» : Option Nat
  visibility : Visibility
  gc : Option Nat
  unnamedAddr : UnnamedAddr
  prologue : Nat
  storageClass : DllStorageClass
  comdat : Nat
  prefixData : Nat
  personality : Nat
  dsoLocal : Bool
  addressSpace : Nat
  partition : Nat × Nat

/-- `getEncodedLinkage`. -/
def llvmLinkage : Linkage → Nat
  | .external => 0
  | .appending => 2
  | .internal => 3
  | .externalWeak => 7
  | .common => 8
  | .private => 9
  | .availableExternally => 12
  | .weakAny => 16
  | .weakOdr => 17
  | .linkOnceAny => 18
  | .linkOnceOdr => 19

/-- `getEncodedVisibility`. -/
def llvmVisibility : Visibility → Nat
  | .default => 0
  | .hidden => 1
  | .protected => 2

/-- `getEncodedUnnamedAddr`. -/
def llvmUnnamedAddr : UnnamedAddr → Nat
  | .none => 0
  | .global => 1
  | .local => 2

/-- `getEncodedDLLStorageClass`. -/
def llvmStorageClass : DllStorageClass → Nat
  | .default => 0
  | .import => 1
  | .export => 2

/-- An index counted from 1; 0 if there is none. Alignments are written in the same way. -/
def oneUp : Option Nat → Nat
  | none => 0
  | some i => i + 1

/-- The fields of the record, with the name at the given offset of the string table. -/
def LlvmFunction.fields (f : LlvmFunction) (offset : Nat) : List Nat :=
  [offset, f.name.length, f.type, f.callingConvention, f.isDeclaration.toNat, llvmLinkage f.linkage, oneUp f.attributes, oneUp f.align,
   oneUp f.section, llvmVisibility f.visibility, oneUp f.gc, llvmUnnamedAddr f.unnamedAddr, f.prologue, llvmStorageClass f.storageClass,
   f.comdat, f.prefixData, f.personality, f.dsoLocal.toNat, f.addressSpace, f.partition.1, f.partition.2]

/-- The function fits in a module with the given tables: its type is a function type, the other tables have the entries it refers to, its name is in
the string table, calling conventions have 10 bits, and alignments are at most `2 ^ 32`. -/
structure LlvmFunction.Allowed (f : LlvmFunction) (offset : Nat) (ctx : MapCtx) : Prop where
  version : 2 ≤ ctx.version.toNat
  name : ∃ pre post, ctx.strtab.bytes = pre ++ (f.name ++ post) ∧ pre.length = offset
  type : ∃ result params vararg, ctx.typeTable[f.type]? = some (.function result params vararg)
  callingConvention : f.callingConvention < 2 ^ 10
  attributes : ∀ i, f.attributes = some i → i < ctx.attributes.length
  align : ∀ k, f.align = some k → k ≤ 32
  «section» : ∀ i, f.section = some i → i < ctx.sectionTable.length
  gc : ∀ i, f.gc = some i → i < ctx.gcTable.length
  small : ∀ n ∈ f.fields offset, n < 2 ^ 64

/-- The entry of a table that an index refers to. -/
def Refers {α : Type} (l : List α) (i : Option Nat) (a : Option α) : Prop :=
  match i, a with
  | none, none => True
  | some i, some a => l[i]? = some a
  | _, _ => False

/-- The mapped function is the one that was written. -/
structure SameFunction (ctx : MapCtx) (f : LlvmFunction) (g : FunctionRecord) : Prop where
  name : utf8 g.name = f.name
  type : ctx.typeTable[f.type]? = some (.function g.ty.returnType g.ty.paramTypes g.ty.isVararg)
  callingConvention : (f.callingConvention, g.callingConvention) ∈ callingConventionTable
  isDeclaration : g.isDeclaration = f.isDeclaration
  linkage : g.linkage = f.linkage
  attributes : Refers ctx.attributes f.attributes g.attributes
  align : g.alignment.align.map (·.shift.toNat) = f.align
  «section» : Refers ctx.sectionTable f.section g.section
  visibility : g.visibility = f.visibility
  gc : Refers ctx.gcTable f.gc g.gcName
  unnamedAddr : g.unnamedAddr = f.unnamedAddr
  storageClass : g.storageClass = f.storageClass

end Verif.Spec
