import Verif.Mapper.StopSpec

/-! Specification of the outcome of mapping, when it is not a result: which error is returned, or how it stops, if there are
several things wrong with the input. The input is checked for one thing after the other, and the first check that finds
something decides. -/

namespace Verif

/-- A way of not having a result. -/
inductive Bad (ε : Type) where
  | error (e : ε)
  | stop (s : Stop)
deriving DecidableEq, Repr

def Bad.map {ε δ : Type} (g : ε → δ) : Bad ε → Bad δ
  | .error e => .error (g e)
  | .stop s => .stop s

/-- `x.Ends b`: there is no result, but `b`. -/
def Out.Ends {ε α : Type} (x : Out ε α) : Bad ε → Prop
  | .error e => x = .err e
  | .stop s => x.Stops s

end Verif

namespace Verif.Spec

/-- A check: what it finds. -/
abbrev Check (ε : Type) := Bad ε → Prop

/-- What the first check finds that finds anything. -/
inductive First {ε : Type} : List (Check ε) → Check ε
  | here {c : Check ε} {cs : List (Check ε)} {b : Bad ε} : c b → First (c :: cs) b
  | later {c : Check ε} {cs : List (Check ε)} {b : Bad ε} : (∀ x, ¬ c x) → First cs b → First (c :: cs) b

/-- The same check of all elements, in order. -/
def All {ε α : Type} (c : α → Check ε) (l : List α) : Check ε := First (l.map c)

/-- The same check, with other errors. -/
def under {ε δ : Type} (g : ε → δ) (c : Check ε) : Check δ := fun b => ∃ x, c x ∧ b = x.map g

/-- A check that gives the error `e` if `p` holds. -/
def fails {ε : Type} (p : Prop) (e : ε) : Check ε := fun b => p ∧ b = .error e

/-- A check that stops if `p` holds. -/
def halts {ε : Type} (p : Prop) (s : Stop) : Check ε := fun b => p ∧ b = .stop s

/-! ## Records and blocks -/

def TextBad (pf : Profile) (r : BRecord) : Check RecordStringError
  | .error e => TextFault r e
  | .stop s => EmptyText pf r s

def BlobBad (pf : Profile) (r : BRecord) : Check RecordBlobError
  | .error e => BlobFault r e
  | .stop s => EmptyText pf r s

/-- There has to be exactly one record with this code. -/
def OneRecord (rs : List BRecord) (code : U64) : Check ConsistencyError := First [
  fails (withCode rs code.toNat = []) (.missingRecord code),
  fails (2 ≤ (withCode rs code.toNat).length) (.tooManyRecords code)]

def AtMostOneRecord (rs : List BRecord) (code : U64) : Check ConsistencyError :=
  fails (2 ≤ (withCode rs code.toNat).length) (.tooManyRecords code)

/-- There has to be exactly one block with this id. -/
def OneBlock (t : Forest) (id : U64) : Check ConsistencyError := First [
  fails (t.withId id = []) (.missingBlock (.ofU64 id)),
  fails (2 ≤ (t.withId id).length) (.tooManyBlocks (.ofU64 id))]

def AtMostOneBlock (t : Forest) (id : U64) : Check ConsistencyError :=
  fails (2 ≤ (t.withId id).length) (.tooManyBlocks (.ofU64 id))

/-! ## String tables, symbol tables and identifications -/

def StrtabBad (pf : Profile) (rs : List BRecord) : Check StrtabError := First [
  fails (NoRecord 1 rs) .missingBlob,
  fun b => ∃ r, FirstWith 1 rs r ∧ under .badBlob (BlobBad pf r) b]

def SymtabBad (pf : Profile) (rs : List BRecord) : Check SymtabError := First [
  fails (NoRecord 1 rs) .missingBlob,
  fun b => ∃ r, FirstWith 1 rs r ∧ under .invalidBlob (BlobBad pf r) b]

def IdentificationBad (pf : Profile) (rs : List BRecord) : Check IdentificationError := First [
  fails (NoRecord 1 rs) .missingProducer,
  fun b => ∃ r, FirstWith 1 rs r ∧ under (fun _ => .badProducer) (TextBad pf r) b,
  fails (NoRecord 2 rs) .missingEpoch,
  fails (∃ r, FirstWith 2 rs r ∧ r.fields = []) .missingEpoch]

/-! ## The tables of a module -/

def LayoutBad (pf : Profile) (r : BRecord) : Check DataLayoutError := First [
  under .badString (TextBad pf r),
  fun b => ∃ s e, Holds pf r s ∧ LayoutFault s e ∧ b = .error e]

def TypesBad (pf : Profile) (rs : List BRecord) : Check TypeTableError
  | .error e => TypesFault pf rs e
  | .stop s => TypesStop pf rs s

/-- A record of a table of attribute groups. -/
def GroupBad (r : BRecord) : Check AttributeError
  | .error e => GroupFault r e
  | .stop s => CutInKey r ∧ s = .panic .attrSlice

/-- A record of a table of attribute lists, given the groups: one of the old kind [1], a group [3], which has no place there,
or a list [2] of numbers of groups, of which the low 32 bits count. -/
def ListBad (groups : AttributeGroups) (r : BRecord) : Check AttributeError := First [
  fails (r.code.toNat ∉ [1, 2, 3]) (.unknownAttributeCode r.code),
  halts (r.code = 1) (.panic .unimplemented),
  fails (r.code = 3) (.wrongBlock .groupCodeEntry),
  All (fun f => fails (∀ x, (f.setWidth 32, x) ∉ groups) (.badAttributeGroup (f.setWidth 32))) r.fields]

/-! ## Functions, aliases and COMDATs -/

/-- Field `i`; 0 if it is left out. -/
def value (fs : List U64) (i : Nat) : U64 := fs[i]?.getD 0

/-- The name, by the first two fields. -/
def NameBad (pf : Profile) (bytes : List U8) (fs : List U64) : Check StrtabError := First [
  fails (field fs 1 = 0 ∨ bytes.length ≤ field fs 0) .badRange,
  halts (2 ^ 64 ≤ field fs 0 + field fs 1) (.panic (nameSite pf)),
  fails (bytes.length < field fs 0 + field fs 1) .badRange,
  fails (∀ s, ¬ NameAt bytes (field fs 0) (field fs 1) s) .badString]

def FunctionBad (pf : Profile) (ctx : MapCtx) (fs : List U64) : Check FunctionRecordError := First [
  fails (ctx.version.toNat < 2) .v1Unsupported,
  fails (fs.length < 10) (.tooShort fs.length),
  under .strtab (NameBad pf ctx.strtab.bytes fs),
  fails (ctx.typeTable.length ≤ field fs 2) (.typeId (value fs 2)),
  fails (∀ r ps va, ctx.typeTable[field fs 2]? ≠ some (.function r ps va)) .type,
  fails (∀ x, (field fs 3, x) ∉ callingConventionTable) (.callingConvention (value fs 3)),
  fails (ctx.attributes.length < field fs 6) (.attribute (value fs 6)),
  fails (64 < field fs 7 % 256) (.alignment (.shiftTooBig ((value fs 7).setWidth 8 - 1))),
  fails (ctx.sectionTable.length < field fs 8) (.section (field fs 8 - 1)),
  fails (∀ x, (field fs 9, x) ∉ visibilityTable) (.visibility (value fs 9)),
  fails (ctx.gcTable.length < field fs 10) (.gc (field fs 10 - 1)),
  fails (∀ x, (field fs 13, x) ∉ dllStorageClassTable) (.dllStorageClass (value fs 13))]

def AliasBad (pf : Profile) (ctx : MapCtx) (fs : List U64) : Check AliasError := First [
  fails (ctx.version.toNat < 2) .v1Unsupported,
  fails (fs.length < 5) (.tooShort fs.length),
  under .strtab (NameBad pf ctx.strtab.bytes fs),
  fails (ctx.typeTable.length ≤ field fs 2) (.type (value fs 2)),
  fails (∀ x, (field fs 5, x) ∉ visibilityTable) (.visibility (value fs 5)),
  fails (∀ x, (field fs 6, x) ∉ dllStorageClassTable) (.dllStorageClass (value fs 6))]

def ComdatBad (pf : Profile) (version : U64) (bytes : List U8) (fs : List U64) : Check ComdatError := First [
  fails (version.toNat < 2) .v1Unsupported,
  fails (fs.length ≠ 3) (.tooShort fs.length),
  under .name (NameBad pf bytes fs),
  fails (∀ x, (field fs 2, x) ∉ selectionKindTable) (.selectionKind (value fs 2))]

/-! ## Function bodies -/

/-- A check that names the code of a record. -/
def Naming {ε : Type} (code : U64) (check : FunctionCode → Check ε) : Check ε := fun b =>
  ∃ c, (code.toNat, c) ∈ functionCodeTable ∧ check c b

/-- One record of a body. Binary operators [2], casts [3], allocations [19], loads [20] and stores [44] need four fields, and
unary operators [56] three. The last check finds something for every binary operator (C47). -/
def InstructionBad (types : List Ty) (r : BRecord) : Check FunctionBlockError := First [
  fails (∀ c, (r.code.toNat, c) ∉ functionCodeTable) (.unknownFunctionCode r.code),
  halts (r.code.toNat ∉ [1, 2, 3, 19, 20, 44, 56]) (.panic .unimplemented),
  Naming r.code fun c => fails (r.code.toNat ∈ [2, 3, 19, 20, 44] ∧ r.fields.length ≠ 4) (.badInst c (.fields 4 r.fields.length)),
  Naming r.code fun c => fails (r.code = 56 ∧ r.fields.length ≠ 3) (.badInst c (.fields 3 r.fields.length)),
  Naming r.code fun c => fails (r.code.toNat ∈ [2, 56] ∧ types.length ≤ field r.fields 1) (.badInst c (.type (value r.fields 1))),
  fails (r.code = 56 ∧ field r.fields 2 ≠ 0) (.badUnOp (.opcode (value r.fields 2))),
  fails (r.code = 2 ∧ 13 ≤ field r.fields 3) (.badBinOp (.opcode (value r.fields 3))),
  fun b => r.code = 2 ∧ ∃ ty, types[field r.fields 1]? = some ty ∧ b = .error (.badBinOp (.invalidType ty))]

/-- A body: the declared number of blocks [1], which must not be too large to reserve memory for, and the records. The end is
not implemented, so there is always something to find. -/
def BodyBad (types : List Ty) (rs : List BRecord) : Check FunctionBlockError := First [
  under (fun e => .map (.inconsistent e)) (OneRecord rs 1),
  All (fun r => fails (r.fields = []) .invalidBlockCount) (withCode rs 1),
  All (fun r => halts (2 ^ 63 ≤ field r.fields 0 * 24) (.panic .capacity)) (withCode rs 1),
  All (InstructionBad types) rs,
  halts True (.panic .unimplemented)]

/-! ## Modules -/

/-- A module. Once it is known that there is at most one of something, checking all of them is checking the one. -/
def ModuleBad (pf : Profile) (strtab : Strtab) (t : Forest) : Check ModuleError := First [
  -- the version
  under (fun e => .map (.inconsistent e)) (OneRecord t.records 1),
  All (fun r => fails (r.fields = []) .missingVersion) (withCode t.records 1),
  -- the datalayout
  under (fun e => .map (.inconsistent e)) (AtMostOneRecord t.records 3),
  All (fun r => under .dataLayoutRecord (LayoutBad pf r)) (withCode t.records 3),
  -- sections and garbage collectors
  All (fun r => under (fun e => .map (.recordString e)) (TextBad pf r)) (withCode t.records 5),
  All (fun r => under (fun e => .map (.recordString e)) (TextBad pf r)) (withCode t.records 11),
  -- types
  under (fun e => .map (.inconsistent e)) (OneBlock t 17),
  All (fun c => under .typeTableBlock (TypesBad pf c.2.records)) (t.withId 17),
  -- symbols
  under (fun e => .map (.inconsistent e)) (OneBlock t 14),
  -- attribute groups
  under (fun e => .map (.inconsistent e)) (AtMostOneBlock t 10),
  All (fun c => under .attributeBlock (All GroupBad c.2.records)) (t.withId 10),
  -- attribute lists
  under (fun e => .map (.inconsistent e)) (AtMostOneBlock t 9),
  fun b => ∃ g, Optionally (fun c g => GroupsSay c.2.records g) [] (t.withId 10) g ∧
    All (fun c => under .attributeBlock (All (ListBad g) c.2.records)) (t.withId 9) b,
  -- COMDATs
  fun b => ∃ r version rest, withCode t.records 1 = [r] ∧ r.fields = version :: rest ∧
    All (fun r => under .comdatRecord (ComdatBad pf version strtab.bytes r.fields)) (withCode t.records 12) b,
  -- the triple, the assembly and the libraries
  under (fun e => .map (.inconsistent e)) (AtMostOneRecord t.records 2),
  All (fun r => under (fun e => .map (.recordString e)) (TextBad pf r)) (withCode t.records 2),
  under (fun e => .map (.inconsistent e)) (AtMostOneRecord t.records 4),
  All (fun r => under (fun e => .map (.recordString e)) (TextBad pf r)) (withCode t.records 4),
  All (fun r => under (fun e => .map (.recordString e)) (TextBad pf r)) (withCode t.records 6),
  -- functions, function bodies and aliases
  fun b => ∃ ctx, TablesSay pf strtab t ctx ∧
    All (fun r => under .functionRecord (FunctionBad pf ctx r.fields)) (withCode t.records 8) b,
  fun b => ∃ ctx, TablesSay pf strtab t ctx ∧
    All (fun c => under .functionBlock (BodyBad ctx.typeTable c.2.records)) (t.withId 12) b,
  fun b => ∃ ctx, TablesSay pf strtab t ctx ∧
    All (fun r => under .alias (AliasBad pf ctx r.fields)) (withCode t.records 14) b]

/-! ## Files -/

/-- The blocks of one module. -/
def PartsBad (pf : Profile) (p : Parts (BBlock × Forest)) : Check MapperError := First [
  fails (p.strtab = none) (.unroll .missingStrtab),
  fun b => ∃ c, p.strtab = some c ∧ under (fun e => .map (.strtab e)) (StrtabBad pf c.2.records) b,
  under (fun e => .map (.identification e)) (IdentificationBad pf p.identification.2.records),
  fails (p.module = none) (.unroll .missingModule),
  fun b => ∃ c bytes d, p.strtab = some c ∧ TableSays pf c.2.records bytes ∧ p.module = some d ∧
    under (fun e => .map (.module e)) (ModuleBad pf ⟨bytes⟩ d.2) b,
  fun b => ∃ c, p.symtab = some c ∧ under (fun e => .map (.symtab e)) (SymtabBad pf c.2.records) b]

/-- A top-level block after those before it. -/
def TopBad (pre : List (BBlock × Forest)) (c : BBlock × Forest) : Check MapperError := First [
  fails (c.1.blockId.toNat ∉ [8, 13, 23, 25]) (.unroll (.unexpectedTopLevel (.ofU64 c.1.blockId))),
  fails (c.1.blockId = 8 ∧ ∀ d ∈ pre, d.1.blockId ≠ 13) (.unroll .moduleWithoutIdentification),
  fails (c.1.blockId = 8 ∧ ∃ a d between, pre = a ++ d :: between ∧ d.1.blockId = 8 ∧ ∀ x ∈ between, x.1.blockId ≠ 13)
    (.unroll .adjacentModules)]

/-- All top-level blocks, in order. -/
def TopsBad (tops : List (BBlock × Forest)) : Check MapperError :=
  All (fun i => fun b => ∃ c, tops[i]? = some c ∧ TopBad (tops.take i) c b) (List.range tops.length)

/-- The end of the stream. -/
def EndBad (r : Bitstream.Next) : Check MapperError := fun b =>
  (∃ e, r = .error e ∧ b = .error (.parse e)) ∨ ∃ p, r = .panic p ∧ b = .stop (.panic p)

/-- A file: first whether it can be opened, then whether its top-level blocks are in order, as far as the stream goes, then
why the stream ended, then the modules. -/
def FileBad (pf : Profile) (bytes : List U8) : Check MapperError := fun b =>
  (∃ e, Bitstream.from pf bytes = .err e ∧ b = .error (.parse e)) ∨
  ∃ tops stillOpen r, Begins pf bytes tops stillOpen r ∧ First [
    TopsBad tops,
    EndBad r,
    fails (stillOpen ≠ []) (.unroll .unexpectedEnd),
    All (PartsBad pf) (parts tops)] b

end Verif.Spec
