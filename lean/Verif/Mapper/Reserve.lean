import Verif.Mapper.Module

/-! What is asked of the allocator in advance: the calls of `Vec::with_capacity` of both crates, in bytes. For each function that
makes such calls, or calls one that does, there is the list of them, in order, up to the end of the function, whatever its
outcome. It follows the function step by step, and so has the same structure. The memory that vectors take when they grow by
`push`, `extend` and `collect` is not counted: it is in proportion to what they hold (C54, C76). -/

namespace Verif.Reserve

/-- `llvm-bitstream/src/abbrev.rs:58-110`: `AbbrevOp::parse` reserves room for arrays (l. 81) and blobs (l. 101), of 8 bytes for each
element. Elements of arrays reserve nothing, as they are Fixed, VBR or Char6 (`C15_accepted_wellformed`). -/
def op (pf : Profile) : AbbrevOp → Cursor → List Nat
  | .array _, c | .blob, c =>
    match (Cursor.readVbr pf 6 c).1 with
    | .ok n => [8 * n.toNat]
    | _ => []
  | _, _ => []

/-- `llvm-bitstream/src/abbrev.rs:230-239`: `Abbrev::parse`. -/
def fields (pf : Profile) : List AbbrevOp → Cursor → List Nat
  | [], _ => []
  | o :: ops, c =>
    op pf o c ++
    match o.parse pf c with
    | (.ok _, c') => fields pf ops c'
    | _ => []

/-- `llvm-bitstream/src/parser.rs:308-349`: `parse_unabbrev`, from l. 321 on: the code, the number of operands, and room for these
(l. 325). -/
def unabbrev (pf : Profile) (c : Cursor) : List Nat :=
  match Cursor.readVbr pf 6 c with
  | (.ok _, c') =>
    match (Cursor.readVbr pf 6 c').1 with
    | .ok n => [8 * n.toNat]
    | _ => []
  | _ => []

/-- `llvm-bitstream/src/parser.rs:385-430`: one round of `advance`. Only records reserve anything. -/
def step (pf : Profile) (p : Parser) : List Nat :=
  if p.cursor.exhausted then []
  else
    match p.scopes with
    | [] => []
    | s :: _ =>
      match Cursor.read s.abbrevIdWidth.toNat p.cursor with
      | (.ok id, c) =>
        if id.toNat < 3 then []
        else if id.toNat = 3 then
          if s = .initial then [] else unabbrev pf c
        else
          match s.getAbbrev pf id with
          | .ok a => fields pf a.operands c
          | _ => []
      | _ => []

/-- `llvm-bitstream/src/parser.rs:384-431`: `advance`, with fuel for its recursion. -/
def advance (pf : Profile) : Nat → Parser → List Nat
  | 0, _ => []
  | n + 1, p =>
    step pf p ++
    match Parser.step pf p with
    | (.ok none, p') => advance pf n p'
    | _ => []

/-- `llvm-bitstream/src/lib.rs:147-153`: `Iterator::next`. -/
def next (pf : Profile) (b : Bitstream) : List Nat := advance pf (b.parser.cursor.bitLen + 1) b.parser

/-- `llvm-mapper/src/unroll.rs:266-302`: `enter_block`. -/
def enter (pf : Profile) : Nat → Bitstream → List Nat
  | 0, _ => []
  | n + 1, b =>
    next pf b ++
    match Bitstream.next pf b with
    | (.item (.record _), b') => enter pf n b'
    | (.item (.subBlock s), b') =>
      enter pf n b' ++
      match enterLoop pf n (UBlock.new s.blockId) b' with
      | (.ok _, b'') => enter pf n b''
      | _ => []
    | _ => []

/-- `llvm-mapper/src/unroll.rs:311-408`: the main loop. -/
def unrollLoop (pf : Profile) : Nat → List PartialModule → Bitstream → List Nat
  | 0, _, _ => []
  | n + 1, ps, b =>
    next pf b ++
    match Bitstream.next pf b with
    | (.item e, b') =>
      match e.asBlock with
      | none => []
      | some s =>
        enter pf n b' ++
        match enterUBlock pf n s b' with
        | (.ok top, b'') =>
          match addTop ps top with
          | .ok ps' => unrollLoop pf n ps' b''
          | _ => []
        | _ => []
    | _ => []

/-- `llvm-mapper/src/unroll.rs:265-408`: unrolling. -/
def unroll (pf : Profile) (b : Bitstream) : List Nat := unrollLoop pf (unrollFuel b) [] b

/-- `llvm-mapper/src/block/type_table.rs:290-512`: `TryFrom<&Block> for TypeTable` reserves room for as many types as are announced. -/
def types (b : UBlock) : List Nat :=
  match Records.one b.records TypeCode.numEntry.code with
  | none => []
  | some r =>
    match r.fields.head? with
    | none => []
    | some n => [n.toNat * partialTypeSize]

/-- `llvm-mapper/src/block/function/mod.rs:54-201`: `TryFrom<(&Block, &MapCtx)> for Function` reserves room for as many basic blocks as are
announced. -/
def body (b : UBlock) : List Nat :=
  match Records.exactlyOne b.records FunctionCode.declareBlocks.code with
  | .ok r =>
    match r.fields.head? with
    | none => []
    | some n => [n.toNat * basicBlockSize]
  | _ => []

/-- The function bodies of a module, one after the other up to the first that does not map, `llvm-mapper/src/block/module.rs:210-215`. -/
def bodies (types : TypeTable) : List UBlock → List Nat
  | [] => []
  | f :: fs =>
    body f ++
    match FunctionBlock.tryFrom f types with
    | .ok _ => bodies types fs
    | _ => []

/-- `llvm-mapper/src/block/module.rs:82-119`: what comes before the type table. -/
def typeBlock (pf : Profile) (b : UBlock) (ctx : PartialMapCtx) : Out ModuleError UBlock := do
  let _ ← moduleVersion b
  let dl ← inconsistent (Records.oneOrNone b.records ModuleCode.dataLayout.code)
  let _ ← orElse dl ctx.datalayout fun r => (DataLayout.tryMap pf r).mapErr .dataLayoutRecord
  let _ ← moduleStrings pf b.records .sectionName
  let _ ← moduleStrings pf b.records .gcName
  inconsistent (Blocks.exactlyOne b.blocks (.ir .type))

/-- `llvm-mapper/src/block/module.rs:82-208`: what comes before the function bodies. -/
def beforeBodies (pf : Profile) (target : Str) (b : UBlock) (ctx : PartialMapCtx) : Out ModuleError MapCtx := do
  let ctx ← Module.fill pf b ctx
  let ctx ← ctx.reify.mapErr fun e => .map (.context e)
  let tr ← inconsistent (Records.oneOrNone b.records ModuleCode.triple.code)
  let _ ← orElse tr target fun r => (r.tryString pf 0).mapErr fun e => .map (.recordString e)
  let ar ← inconsistent (Records.oneOrNone b.records ModuleCode.asm.code)
  let _ ← orElse ar [] fun r => do
    let s ← (r.tryString pf 0).mapErr fun e => .map (.recordString e)
    .ok (split '\n' s)
  let _ ← moduleStrings pf b.records .depLib
  let _ ← (mapOut (fun r => FunctionRecord.tryMap pf r ctx)
    (Records.byCode b.records ModuleCode.function.code)).mapErr .functionRecord
  .ok ctx

/-- `llvm-mapper/src/block/module.rs:76-233`: `TryFrom<(&Block, &mut PartialMapCtx)> for Module`. -/
def module (pf : Profile) (target : Str) (b : UBlock) (ctx : PartialMapCtx) : List Nat :=
  (match typeBlock pf b ctx with
   | .ok tb => types tb
   | _ => []) ++
  match beforeBodies pf target b ctx with
  | .ok ctx => bodies ctx.typeTable (Blocks.byId b.blocks (.ir .function))
  | _ => []

/-- `llvm-mapper/src/unroll.rs:446-484`: `PartialBitcodeModule::reify`. -/
def reify (pf : Profile) (target : Str) (p : PartialModule) : List Nat :=
  match p.strtab with
  | none => []
  | some sb =>
    match Strtab.tryFrom pf sb with
    | .ok strtab =>
      match Identification.tryFrom pf p.identification with
      | .ok _ =>
        match p.module with
        | none => []
        | some mb => module pf target mb { PartialMapCtx.default with strtab }
      | _ => []
    | _ => []

/-- The modules of a file, one after the other up to the first that does not map, `llvm-mapper/src/unroll.rs:410-417`. -/
def modules (pf : Profile) (target : Str) : List PartialModule → List Nat
  | [] => []
  | p :: ps =>
    reify pf target p ++
    match p.reify pf target with
    | .ok _ => modules pf target ps
    | _ => []

/-- `llvm-mapper/src/unroll.rs:250-418`: `TryFrom<&[u8]> for Bitcode`. -/
def file (pf : Profile) (target : Str) (bytes : List U8) : List Nat :=
  match Bitstream.from pf bytes with
  | .ok (_, b) =>
    unroll pf b ++
    match Verif.unroll pf b with
    | .ok ps => modules pf target ps
    | _ => []
  | _ => []

end Verif.Reserve
