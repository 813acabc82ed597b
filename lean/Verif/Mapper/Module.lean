import Verif.Mapper.GlobalRecords
import Verif.Mapper.FunctionBlock

/-! Modules and whole bitcode files: `llvm-mapper/src/block/module.rs`, the end of `llvm-mapper/src/unroll.rs`, and
`llvm-mapper/src/error.rs`. -/

namespace Verif

/-- `llvm-mapper/src/block/module.rs:22-62`: `ModuleError`. `VstBlock` holds a value of an empty type
(`llvm-mapper/src/block/vst.rs:14`), so it cannot occur and is left out. -/
inductive ModuleError where
  | missingVersion
  | dataLayoutRecord (e : DataLayoutError)
  | typeTableBlock (e : TypeTableError)
  | attributeBlock (e : AttributeError)
  | comdatRecord (e : ComdatError)
  | functionRecord (e : FunctionRecordError)
  | functionBlock (e : FunctionBlockError)
  | alias (e : AliasError)
  | map (e : MapError)
deriving DecidableEq, Repr

/-- `llvm-mapper/src/block/module.rs:67-74`: `Module`. -/
structure Module where
  triple : Str
  asm : List Str
  deplibs : List Str
deriving DecidableEq, Repr

/-- `.map_err(MapError::Inconsistent)?` -/
def inconsistent {α : Type} (x : Out ConsistencyError α) : Out ModuleError α := x.mapErr fun e => .map (.inconsistent e)

/-- `match .. { Some(x) => .., None => .. }`, `llvm-mapper/src/block/module.rs:95-101,140-158,171-193`. -/
def orElse {ε α β : Type} (x : Option α) (missing : β) (f : α → Out ε β) : Out ε β :=
  match x with
  | none => .ok missing
  | some a => f a

/-- `block.records.by_code(..).map(|rec| rec.try_string(0)).collect()`,
`llvm-mapper/src/block/module.rs:104-109,112-117,196-201`. -/
def moduleStrings (pf : Profile) (rs : Records) (code : ModuleCode) : Out ModuleError (List Str) :=
  (mapOut (fun r => r.tryString pf 0) (Records.byCode rs code.code)).mapErr fun e => .map (.recordString e)

/-- `llvm-mapper/src/block/module.rs:82-92`: the version. -/
def moduleVersion (b : UBlock) : Out ModuleError U64 := do
  let r ← inconsistent (Records.exactlyOne b.records ModuleCode.version.code)
  Out.ofOption .missingVersion r.fields.head?

/-- `llvm-mapper/src/block/module.rs:82-165`: filling in the mapping context. The context that is passed in is used for its
string table and for what is not replaced. `Vst::try_from` (`llvm-mapper/src/block/vst.rs:30-37`) always succeeds without
looking at the block. -/
def Module.fill (pf : Profile) (b : UBlock) (ctx : PartialMapCtx) : Out ModuleError PartialMapCtx := do
  let version ← moduleVersion b
  let dl ← inconsistent (Records.oneOrNone b.records ModuleCode.dataLayout.code)
  let datalayout ← orElse dl ctx.datalayout fun r => (DataLayout.tryMap pf r).mapErr .dataLayoutRecord
  let sectionTable ← moduleStrings pf b.records .sectionName
  let gcTable ← moduleStrings pf b.records .gcName
  let tb ← inconsistent (Blocks.exactlyOne b.blocks (.ir .type))
  let types ← (TypeTable.tryFrom pf tb).mapErr .typeTableBlock
  let _vst ← inconsistent (Blocks.exactlyOne b.blocks (.ir .valueSymtab))
  let gb ← inconsistent (Blocks.oneOrNone b.blocks (.ir .paramAttrGroup))
  let attributeGroups ← orElse gb ctx.attributeGroups fun g => (AttributeGroups.tryFrom g).mapErr .attributeBlock
  let ab ← inconsistent (Blocks.oneOrNone b.blocks (.ir .paramAttr))
  let attributes ← orElse ab ctx.attributes fun a => (Attributes.tryFrom a attributeGroups).mapErr .attributeBlock
  let ctx := { ctx with version := some version, datalayout, sectionTable, gcTable, typeTable := some types,
                        attributeGroups, attributes }
  let comdats ← (mapOut (fun r => Comdat.tryMap pf r ctx) (Records.byCode b.records ModuleCode.comdat.code)).mapErr
    .comdatRecord
  .ok { ctx with comdats }

/-- `llvm-mapper/src/block/module.rs:171-231`: the module itself, and the functions and aliases, which the code reports by
`log::debug!` only. `target` stands for the constant `TARGET_TRIPLE` (`llvm-support/src/lib.rs:45`), which is fixed when the
crate is compiled. -/
def Module.finish (pf : Profile) (target : Str) (b : UBlock) (ctx : MapCtx) :
    Out ModuleError (Module × List FunctionRecord × List Alias) := do
  let tr ← inconsistent (Records.oneOrNone b.records ModuleCode.triple.code)
  let triple ← orElse tr target fun r => (r.tryString pf 0).mapErr fun e => .map (.recordString e)
  let ar ← inconsistent (Records.oneOrNone b.records ModuleCode.asm.code)
  let asm ← orElse ar [] fun r => do
    let s ← (r.tryString pf 0).mapErr fun e => .map (.recordString e)
    .ok (split '\n' s)
  let deplibs ← moduleStrings pf b.records .depLib
  let functions ← (mapOut (fun r => FunctionRecord.tryMap pf r ctx)
    (Records.byCode b.records ModuleCode.function.code)).mapErr .functionRecord
  let _blocks ← (mapOut (fun f => FunctionBlock.tryFrom f ctx.typeTable) (Blocks.byId b.blocks (.ir .function))).mapErr
    .functionBlock
  let aliases ← (mapOut (fun r => Alias.tryMap pf r ctx) (Records.byCode b.records ModuleCode.alias.code)).mapErr .alias
  .ok ({ triple, asm, deplibs }, functions, aliases)

/-- `llvm-mapper/src/block/module.rs:76-233`: `TryFrom<(&Block, &mut PartialMapCtx)> for Module`, with everything it finds:
the module, the filled-in context, the functions and the aliases. -/
def Module.tryFromFull (pf : Profile) (target : Str) (b : UBlock) (ctx : PartialMapCtx) :
    Out ModuleError (Module × MapCtx × List FunctionRecord × List Alias) := do
  let ctx ← Module.fill pf b ctx
  let ctx ← ctx.reify.mapErr fun e => .map (.context e)
  let m ← Module.finish pf target b ctx
  .ok (m.1, ctx, m.2)

/-- `llvm-mapper/src/block/module.rs:76-233`: `TryFrom<(&Block, &mut PartialMapCtx)> for Module`. -/
def Module.tryFrom (pf : Profile) (target : Str) (b : UBlock) (ctx : PartialMapCtx) : Out ModuleError Module := do
  let m ← Module.tryFromFull pf target b ctx
  .ok m.1

/-- `llvm-mapper/src/block/mod.rs:27-43`: `BlockMapError`. -/
inductive BlockMapError where
  | identification (e : IdentificationError)
  | «module» (e : ModuleError)
  | strtab (e : StrtabError)
  | symtab (e : SymtabError)
deriving DecidableEq, Repr

/-- `llvm-mapper/src/error.rs:13-25`: `Error`. -/
inductive MapperError where
  | parse (e : BErr)
  | unroll (m : UnrollMsg)
  | map (e : BlockMapError)
deriving DecidableEq, Repr

/-- The errors of unrolling among those of the crate. -/
def UErr.toMapperError : UErr → MapperError
  | .parse e => .parse e
  | .unroll m => .unroll m

/-- `llvm-mapper/src/unroll.rs:491-500`: `BitcodeModule`. -/
structure BitcodeModule where
  identification : Identification
  module : Module
  strtab : Strtab
  symtab : Option Symtab
deriving DecidableEq, Repr

/-- `.map(|s| Symtab::try_from(&s)).transpose()`, `llvm-mapper/src/unroll.rs:471-474`. -/
def optSymtab (pf : Profile) : Option UBlock → Out SymtabError (Option Symtab)
  | none => .ok none
  | some b => do
    let s ← Symtab.tryFrom pf b
    .ok (some s)

/-- `llvm-mapper/src/unroll.rs:446-484`: `PartialBitcodeModule::reify`. Mapping the module does not change the string table
in the context. -/
def PartialModule.reify (pf : Profile) (target : Str) (p : PartialModule) : Out MapperError BitcodeModule := do
  let sb ← Out.ofOption (.unroll .missingStrtab) p.strtab
  let strtab ← (Strtab.tryFrom pf sb).mapErr fun e => .map (.strtab e)
  let identification ← (Identification.tryFrom pf p.identification).mapErr fun e => .map (.identification e)
  let mb ← Out.ofOption (.unroll .missingModule) p.module
  let m ← (Module.tryFrom pf target mb { PartialMapCtx.default with strtab }).mapErr fun e => .map (.module e)
  let symtab ← (optSymtab pf p.symtab).mapErr fun e => .map (.symtab e)
  .ok { identification, module := m, strtab, symtab }

/-- `llvm-mapper/src/unroll.rs:244-248`: `Bitcode`. -/
structure Bitcode where
  modules : List BitcodeModule
deriving DecidableEq, Repr

/-- `llvm-mapper/src/unroll.rs:261-418`: `TryFrom<Bitstream<T>> for Bitcode`. -/
def Bitcode.ofStream (pf : Profile) (target : Str) (b : Bitstream) : Out MapperError Bitcode := do
  let ps ← (unroll pf b).mapErr UErr.toMapperError
  let modules ← mapOut (PartialModule.reify pf target) ps
  .ok { modules }

/-- `llvm-mapper/src/unroll.rs:250-259`: `TryFrom<&[u8]> for Bitcode`. -/
def Bitcode.tryFrom (pf : Profile) (target : Str) (bytes : List U8) : Out MapperError Bitcode := do
  let s ← (Bitstream.from pf bytes).mapErr .parse
  Bitcode.ofStream pf target s.2

end Verif
