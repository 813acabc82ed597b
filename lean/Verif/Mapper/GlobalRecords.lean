import Verif.Mapper.MapCtx
import Verif.Support.Globals

/-! COMDAT, function and alias records: `llvm-mapper/src/record/{comdat,function,alias}.rs`. -/

namespace Verif

/-- `llvm-mapper/src/record/comdat.rs:16-36`: `ComdatError`. -/
inductive ComdatError where
  | v1Unsupported
  | tooShort (n : Nat)
  | name (e : StrtabError)
  | selectionKind (v : U64)
  | map (e : MapError)
deriving DecidableEq, Repr

/-- `llvm-mapper/src/record/comdat.rs:67-92`: `PartialCtxMappable<Record> for Comdat`. -/
def Comdat.tryMap (pf : Profile) (r : BRecord) (ctx : PartialMapCtx) : Out ComdatError Comdat := do
  let useStrtab ← ctx.useStrtab.mapErr fun e => .map (.context e)
  if !useStrtab then .err .v1Unsupported
  else if r.fields.length ≠ 3 then .err (.tooShort r.fields.length)
  else do
    let offset ← fieldAt r.fields 0
    let size ← fieldAt r.fields 1
    let name ← (ctx.strtab.tryGet pf { offset, size }).mapErr .name
    let k ← fieldAt r.fields 2
    let selectionKind ← Out.ofOption (.selectionKind k) (tryFromPrimitive k)
    .ok { selectionKind, name }

/-- `fields.get(i).map_or_else(|| Ok(..), ..)`, `llvm-mapper/src/record/function.rs:178-188,197-200` and
`llvm-mapper/src/record/alias.rs:101-108`: an optional field whose value may be refused. -/
def optField {ε α : Type} (fields : List U64) (i : Nat) (missing : α) (f : U64 → Out ε α) : Out ε α :=
  match fields[i]? with
  | none => .ok missing
  | some v => f v

/-- `fields.get(i).copied().map(..).unwrap_or(..)`, `llvm-mapper/src/record/function.rs:190-194` and
`llvm-mapper/src/record/alias.rs:110-126`: an optional field all of whose values are accepted. -/
def optValue {α : Type} (fields : List U64) (i : Nat) (missing : α) (f : U64 → α) : α :=
  match fields[i]? with
  | none => missing
  | some v => f v

/-- `llvm-mapper/src/record/function.rs:19-67`: `FunctionError`. -/
inductive FunctionRecordError where
  | tooShort (n : Nat)
  | v1Unsupported
  | strtab (e : StrtabError)
  | callingConvention (v : U64)
  | typeId (v : U64)
  | type
  | attribute (v : U64)
  | alignment (e : AlignError)
  | «section» (n : Nat)
  | visibility (v : U64)
  | gc (n : Nat)
  | dllStorageClass (v : U64)
deriving DecidableEq, Repr

/-- `llvm-support/src/ty.rs:507-511`: `FunctionType`. -/
structure FunctionType where
  returnType : Ty
  paramTypes : List Ty
  isVararg : Bool
deriving DecidableEq

/-- `llvm-mapper/src/record/function.rs:72-108`: `Function`. -/
structure FunctionRecord where
  name : Str
  ty : FunctionType
  callingConvention : CallingConvention
  isDeclaration : Bool
  linkage : Linkage
  attributes : Option AttributeEntry
  alignment : MaybeAlign
  «section» : Option Str
  visibility : Visibility
  gcName : Option Str
  unnamedAddr : UnnamedAddr
  storageClass : DllStorageClass
deriving DecidableEq

/-- `let Type::Function(ty) = ... else`, `llvm-mapper/src/record/function.rs:130-136`. -/
def functionType (types : TypeTable) (i : U64) : Out FunctionRecordError FunctionType := do
  let t ← Out.ofOption (.typeId i) (types.get i)
  match t with
  | .function returnType paramTypes isVararg => .ok { returnType, paramTypes, isVararg }
  | _ => .err .type

/-- `llvm-mapper/src/record/function.rs:141-158`: the attributes. -/
def functionAttributes (a : Attributes) (v : U64) : Out FunctionRecordError (Option AttributeEntry) :=
  if v = 0 then .ok none
  else do
    let e ← Out.ofOption (.attribute v) (a.get (v - 1))
    .ok (some e)

/-- `llvm-mapper/src/record/function.rs:164-172,178-188`: an entry of the section or GC table. `usize` is 64 bits wide. -/
def tableEntry (err : Nat → FunctionRecordError) (table : List Str) (v : U64) : Out FunctionRecordError (Option Str) :=
  if v = 0 then .ok none
  else do
    let s ← Out.ofOption (err (v.toNat - 1)) table[v.toNat - 1]?
    .ok (some s)

/-- `llvm-mapper/src/record/function.rs:110-220`: `CtxMappable<Record> for Function`. -/
def FunctionRecord.tryMap (pf : Profile) (r : BRecord) (ctx : MapCtx) : Out FunctionRecordError FunctionRecord :=
  if !ctx.useStrtab then .err .v1Unsupported
  else if r.fields.length < 10 then .err (.tooShort r.fields.length)
  else do
    let name ← (ctx.strtab.readName pf r).mapErr .strtab
    let f2 ← fieldAt r.fields 2
    let ty ← functionType ctx.typeTable f2
    let f3 ← fieldAt r.fields 3
    let callingConvention ← Out.ofOption (.callingConvention f3) (tryFromPrimitive f3)
    let f4 ← fieldAt r.fields 4
    let f5 ← fieldAt r.fields 5
    let f6 ← fieldAt r.fields 6
    let attributes ← functionAttributes ctx.attributes f6
    let f7 ← fieldAt r.fields 7
    let alignment ← (MaybeAlign.tryFrom (f7.setWidth 8)).mapErr .alignment
    let f8 ← fieldAt r.fields 8
    let sect ← tableEntry .section ctx.sectionTable f8
    let f9 ← fieldAt r.fields 9
    let visibility ← Out.ofOption (.visibility f9) (tryFromPrimitive f9)
    let gcName ← optField r.fields 10 none (tableEntry .gc ctx.gcTable)
    let unnamedAddr := optValue r.fields 11 .none .ofU64
    let storageClass ← optField r.fields 13 .default fun v => Out.ofOption (.dllStorageClass v) (tryFromPrimitive v)
    .ok { name, ty, callingConvention, isDeclaration := f4 ≠ 0, linkage := .ofU64 f5, attributes, alignment,
          «section» := sect, visibility, gcName, unnamedAddr, storageClass }

/-- `llvm-mapper/src/record/alias.rs:17-41`: `AliasError`. -/
inductive AliasError where
  | tooShort (n : Nat)
  | v1Unsupported
  | strtab (e : StrtabError)
  | type (v : U64)
  | visibility (v : U64)
  | dllStorageClass (v : U64)
deriving DecidableEq, Repr

/-- `llvm-mapper/src/record/alias.rs:45-72`: `Alias`. -/
structure Alias where
  name : Str
  ty : Ty
  valueIndex : U64
  linkage : Linkage
  visibility : Visibility
  storageClass : DllStorageClass
  tlsMode : ThreadLocalMode
  unnamedAddr : UnnamedAddr
  preemptionSpecifier : RuntimePreemption
deriving DecidableEq

/-- `llvm-mapper/src/record/alias.rs:74-138`: `CtxMappable<Record> for Alias`. -/
def Alias.tryMap (pf : Profile) (r : BRecord) (ctx : MapCtx) : Out AliasError Alias :=
  if !ctx.useStrtab then .err .v1Unsupported
  else if r.fields.length < 5 then .err (.tooShort r.fields.length)
  else do
    let name ← (ctx.strtab.readName pf r).mapErr .strtab
    let f2 ← fieldAt r.fields 2
    let ty ← Out.ofOption (.type f2) (ctx.typeTable.get f2)
    let valueIndex ← fieldAt r.fields 3
    let f4 ← fieldAt r.fields 4
    let visibility ← optField r.fields 5 .default fun v => Out.ofOption (.visibility v) (tryFromPrimitive v)
    let storageClass ← optField r.fields 6 .default fun v => Out.ofOption (.dllStorageClass v) (tryFromPrimitive v)
    let tlsMode := optValue r.fields 7 .notThreadLocal .ofU64
    let unnamedAddr := optValue r.fields 8 .none .ofU64
    let preemptionSpecifier := optValue r.fields 9 .dsoPreemptable .ofU64
    .ok { name, ty, valueIndex, linkage := .ofU64 f4, visibility, storageClass, tlsMode, unnamedAddr,
          preemptionSpecifier }

end Verif
