import Verif.Mapper.Module

/-! What the mapper logs: the calls of `log::debug!` of `llvm-mapper`, with what they print, in order. Each function that logs, or
calls one that does, is written again with its messages beside its outcome; `Props/MapLog.lean` shows that the outcomes are those of
the model. What is between the values, and how they are formatted, is not modelled. -/

namespace Verif

/-- A message, by the line that logs it. -/
inductive MapLine where
  /-- `llvm-mapper/src/block/type_table.rs:162`: the vector type, which is its length and the reference to its elements. -/
  | vector (numElements : U64) (elementType : TypeRef)
  /-- `llvm-mapper/src/block/type_table.rs:165`: `none` stands for the error that there is no such entry. -/
  | element (p : Option PType)
  /-- `llvm-mapper/src/block/type_table.rs:256` -/
  | resolves (ref : TypeRef) (p : PType)
  /-- `llvm-mapper/src/block/attributes.rs:484` -/
  | groupId (id : U32)
  /-- `llvm-mapper/src/map.rs:73` -/
  | reifying (ctx : PartialMapCtx)
  /-- `llvm-mapper/src/block/module.rs:217` -/
  | functions (records : List FunctionRecord)
  /-- `llvm-mapper/src/block/module.rs:225` -/
  | aliases (as : List Alias)
deriving DecidableEq

/-- Messages and an outcome. -/
def Logged (ε α : Type) := List MapLine × Out ε α

namespace Logged
variable {ε δ α β : Type}

/-- The messages. -/
def lines (x : Logged ε α) : List MapLine := x.1

/-- The outcome. -/
def out (x : Logged ε α) : Out ε α := x.2

/-- Without messages. -/
def of (x : Out ε α) : Logged ε α := ([], x)

/-- `log::debug!`. -/
def tell (l : MapLine) : Logged ε Unit := ([l], .ok ())

/-- One after the other, if the first succeeds. -/
def bind (x : Logged ε α) (f : α → Logged ε β) : Logged ε β :=
  match x.2 with
  | .ok a => (x.1 ++ (f a).1, (f a).2)
  | .err e => (x.1, .err e)
  | .panic p => (x.1, .panic p)
  | .diverge => (x.1, .diverge)

instance : Monad (Logged ε) where
  pure a := of (.ok a)
  bind := bind

def mapErr (g : ε → δ) (x : Logged ε α) : Logged δ α := (x.1, x.2.mapErr g)

/-- As `mapOut`. -/
def mapAll (f : α → Logged ε β) : List α → Logged ε (List β)
  | [] => of (.ok [])
  | a :: l => do
    let b ← f a
    let bs ← mapAll f l
    of (.ok (b :: bs))

/-- As `orElse`. -/
def orElse (x : Option α) (missing : β) (f : α → Logged ε β) : Logged ε β :=
  match x with
  | none => of (.ok missing)
  | some a => f a

end Logged

namespace MapLog
open Logged

/-- `llvm-mapper/src/block/type_table.rs:111-175`, as `PType.resolve`. -/
def resolve (table : List PType) (ref : TypeRef → Logged TypeTableError Ty) : PType → Logged TypeTableError Ty
  | .prim p => of (.ok (.prim p))
  | .integer w => of ((Ty.newInteger w).mapErr .invalidType)
  | .function ret params va => do
    let r ← ref ret
    let ps ← mapAll ref params
    of ((Ty.newFunction r ps va).mapErr .invalidType)
  | .pointer p a => do
    let t ← ref p
    of ((Ty.newPointer t a).mapErr .invalidType)
  | .opaquePointer a => of (.ok (.opaquePointer a))
  | .struct name fields packed => do
    let fs ← mapAll ref fields
    of ((Ty.newStruct name fs packed).mapErr .invalidType)
  | .array n e => do
    let t ← ref e
    of ((Ty.newArray n t).mapErr .invalidType)
  | .fixedVector n e => do
    tell (.vector n e)
    let t ← ref e
    tell (.element table[e.toNat]?)
    of ((Ty.newVector n t).mapErr .invalidType)
  | .scalableVector n e => do
    let t ← ref e
    of ((Ty.newScalableVector n t).mapErr .invalidType)

/-- `llvm-mapper/src/block/type_table.rs:244-259`, as `resolveRef`. -/
def resolveRef (table : List PType) : Nat → TypeRef → Logged TypeTableError Ty
  | 0, _ => of .diverge
  | n + 1, r =>
    match table[r.toNat]? with
    | some p => do
      tell (.resolves r p)
      resolve table (resolveRef table n) p
    | none => of (.err (.badIndex r.toNat))

/-- `llvm-mapper/src/block/type_table.rs:262-276`, as `reifyTypes`, with room for `d` calls of `get` inside each other. -/
def reifyTypes (d : Nat) (numEntries : Nat) (table : List PType) : Logged TypeTableError TypeTable :=
  if table.length ≠ numEntries then of (.err (.badSize numEntries table.length))
  else mapAll (resolve table (resolveRef table d)) table

/-- `llvm-mapper/src/block/type_table.rs:290-512`, as `TypeTable.tryFromWithin`: with room for `d` calls of `get` inside each other,
where `d` may depend on the number of entries. -/
def typesWithin (pf : Profile) (d : Nat → Nat) (b : UBlock) : Logged TypeTableError TypeTable := do
  let r ← of (Out.ofOption .badTable (Records.one b.records TypeCode.numEntry.code))
  let n ← of (Out.ofOption .badTable r.fields.head?)
  of (typeCapacity n)
  let s ← of (b.records.foldlM (typeStep pf) { inner := [], lastName := [] })
  reifyTypes (d s.inner.length) n.toNat s.inner

/-- `llvm-mapper/src/block/type_table.rs:290-512`, as `TypeTable.tryFrom`. -/
def types (pf : Profile) (b : UBlock) : Logged TypeTableError TypeTable := typesWithin pf (· + 1) b

/-- `llvm-mapper/src/block/attributes.rs:481-493`, as `groupRef`. -/
def groupRef (g : AttributeGroups) (f : U64) : Logged AttributeError AttributeGroup := do
  tell (.groupId (f.setWidth 32))
  of (Out.ofOption (.badAttributeGroup (f.setWidth 32)) (g.get (f.setWidth 32)))

/-- `llvm-mapper/src/block/attributes.rs:473-500`, as `attrsStep`. -/
def attrsStep (g : AttributeGroups) (r : BRecord) : Logged AttributeError AttributeEntry := do
  let code ← of (Out.ofOption (.unknownAttributeCode r.code) (tryFromPrimitive r.code : Option AttributeCode))
  match code with
  | .entryOld => of (.panic .unimplemented)
  | .entry => mapAll (groupRef g) r.fields
  | .groupCodeEntry => of (.err (.wrongBlock code))

/-- `llvm-mapper/src/block/attributes.rs:467-503`, as `Attributes.tryFrom`. -/
def attributes (b : UBlock) (g : AttributeGroups) : Logged AttributeError Attributes := mapAll (attrsStep g) b.records

/-- `llvm-mapper/src/block/module.rs:82-165`, as `Module.fill`. -/
def fill (pf : Profile) (b : UBlock) (ctx : PartialMapCtx) : Logged ModuleError PartialMapCtx := do
  let version ← of (moduleVersion b)
  let dl ← of (inconsistent (Records.oneOrNone b.records ModuleCode.dataLayout.code))
  let datalayout ← of (Verif.orElse dl ctx.datalayout fun r => (DataLayout.tryMap pf r).mapErr .dataLayoutRecord)
  let sectionTable ← of (moduleStrings pf b.records .sectionName)
  let gcTable ← of (moduleStrings pf b.records .gcName)
  let tb ← of (inconsistent (Blocks.exactlyOne b.blocks (.ir .type)))
  let types ← (types pf tb).mapErr .typeTableBlock
  let _vst ← of (inconsistent (Blocks.exactlyOne b.blocks (.ir .valueSymtab)))
  let gb ← of (inconsistent (Blocks.oneOrNone b.blocks (.ir .paramAttrGroup)))
  let attributeGroups ← of (Verif.orElse gb ctx.attributeGroups fun g => (AttributeGroups.tryFrom g).mapErr .attributeBlock)
  let ab ← of (inconsistent (Blocks.oneOrNone b.blocks (.ir .paramAttr)))
  let attributes ← Logged.orElse ab ctx.attributes fun a => (attributes a attributeGroups).mapErr .attributeBlock
  let ctx := { ctx with version := some version, datalayout, sectionTable, gcTable, typeTable := some types,
                        attributeGroups, attributes }
  let comdats ← of ((mapOut (fun r => Comdat.tryMap pf r ctx) (Records.byCode b.records ModuleCode.comdat.code)).mapErr
    .comdatRecord)
  of (.ok { ctx with comdats })

/-- `llvm-mapper/src/map.rs:72-85`, as `PartialMapCtx.reify`. -/
def reify (c : PartialMapCtx) : Logged MapCtxError MapCtx := do
  tell (.reifying c)
  of c.reify

/-- `llvm-mapper/src/block/module.rs:171-231`, as `Module.finish`. -/
def finish (pf : Profile) (target : Str) (b : UBlock) (ctx : MapCtx) :
    Logged ModuleError (Module × List FunctionRecord × List Alias) := do
  let tr ← of (inconsistent (Records.oneOrNone b.records ModuleCode.triple.code))
  let triple ← of (Verif.orElse tr target fun r => (r.tryString pf 0).mapErr fun e => .map (.recordString e))
  let ar ← of (inconsistent (Records.oneOrNone b.records ModuleCode.asm.code))
  let asm ← of (Verif.orElse ar [] fun r => do
    let s ← (r.tryString pf 0).mapErr fun e => .map (.recordString e)
    .ok (split '\n' s))
  let deplibs ← of (moduleStrings pf b.records .depLib)
  let functions ← of ((mapOut (fun r => FunctionRecord.tryMap pf r ctx)
    (Records.byCode b.records ModuleCode.function.code)).mapErr .functionRecord)
  let _blocks ← of ((mapOut (fun f => FunctionBlock.tryFrom f ctx.typeTable) (Blocks.byId b.blocks (.ir .function))).mapErr
    .functionBlock)
  tell (.functions functions)
  let aliases ← of ((mapOut (fun r => Alias.tryMap pf r ctx) (Records.byCode b.records ModuleCode.alias.code)).mapErr .alias)
  tell (.aliases aliases)
  of (.ok ({ triple, asm, deplibs }, functions, aliases))

/-- `llvm-mapper/src/block/module.rs:76-233`, as `Module.tryFromFull`. -/
def moduleFull (pf : Profile) (target : Str) (b : UBlock) (ctx : PartialMapCtx) :
    Logged ModuleError (Module × MapCtx × List FunctionRecord × List Alias) := do
  let ctx ← fill pf b ctx
  let ctx ← (reify ctx).mapErr fun e => .map (.context e)
  let m ← finish pf target b ctx
  of (.ok (m.1, ctx, m.2))

/-- `llvm-mapper/src/unroll.rs:446-484`, as `PartialModule.reify`. -/
def «module» (pf : Profile) (target : Str) (p : PartialModule) : Logged MapperError BitcodeModule := do
  let sb ← of (Out.ofOption (.unroll .missingStrtab) p.strtab)
  let strtab ← of ((Strtab.tryFrom pf sb).mapErr fun e => .map (.strtab e))
  let identification ← of ((Identification.tryFrom pf p.identification).mapErr fun e => .map (.identification e))
  let mb ← of (Out.ofOption (.unroll .missingModule) p.module)
  let m ← (moduleFull pf target mb { PartialMapCtx.default with strtab }).mapErr fun e => .map (.module e)
  let symtab ← of ((optSymtab pf p.symtab).mapErr fun e => .map (.symtab e))
  of (.ok { identification, module := m.1, strtab, symtab })

/-- `llvm-mapper/src/unroll.rs:250-418`, as `Bitcode.tryFrom`. The whole stream is read before anything of it is mapped. -/
def file (pf : Profile) (target : Str) (bytes : List U8) : Logged MapperError Bitcode := do
  let s ← of ((Bitstream.from pf bytes).mapErr .parse)
  let ps ← of ((unroll pf s.2).mapErr UErr.toMapperError)
  let modules ← mapAll («module» pf target) ps
  of (.ok { modules })

end MapLog
end Verif
