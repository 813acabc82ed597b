import Verif.Mapper.ModuleSpec
import Verif.Support.EnumSpec

/-! Specification of the errors: what each of them says about the input. -/

namespace Verif.Spec

/-- Why a record holds no text. -/
def TextFault (r : BRecord) : RecordStringError → Prop
  | .badIndex i n => i = 0 ∧ n = 1 ∧ r.fields.length = 1
  | .badCharacter => r.fields.length ≠ 1 ∧ ∃ f ∈ r.fields, 256 ≤ f.toNat
  | .badEncoding => r.fields.length ≠ 1 ∧ ∃ bs, AreBytes r.fields bs ∧ ∀ s, utf8 s ≠ bs

/-- Why a record holds no bytes. -/
def BlobFault (r : BRecord) : RecordBlobError → Prop
  | .badIndex i n => i = 0 ∧ n = 1 ∧ r.fields.length = 1
  | .badByte => r.fields.length ≠ 1 ∧ ∃ f ∈ r.fields, 256 ≤ f.toNat

/-! ## Types -/

/-- Why a record of a type block is refused after the types `ds`, with the name `nm` pending. -/
inductive RecordFault (ds : List TyDecl) (nm : Str) (r : BRecord) : TypeTableError → Prop
  | code : r.code.toNat = 0 ∨ 25 < r.code.toNat → RecordFault ds nm r (.unknownTypeCode r.code)
  | short : r.fields.length < neededFields r.code.toNat → RecordFault ds nm r .badTable
  | oldFunction : r.code = 9 → RecordFault ds nm r (.map .unsupported)
  | pointerSpace {a : U64} : r.code = 8 → r.fields[1]? = some a → 2 ^ 23 ≤ a.toNat →
      RecordFault ds nm r (.map (.invalid (.pointerSpace (.tooBig a))))
  | typeSpace {a : U64} : r.code = 25 → r.fields[0]? = some a → 2 ^ 23 ≤ a.toNat →
      RecordFault ds nm r (.map (.invalid (.typeSpace (.tooBig a))))
  | unnamed : r.code = 6 → nm = [] → RecordFault ds nm r (.map (.invalid .opaqueUnnamed))
  /-- A named structure after a structure with a name or with fields. -/
  | namedAfter {n : Option Str} {fs : List Nat} {q : Bool} : r.code = 20 → r.fields ≠ [] →
      ds.getLast? = some (.struct n fs q) → n ≠ none ∨ fs ≠ [] → RecordFault ds nm r (.map (.invalid .structDeclared))
  /-- An opaque structure after a structure with a name. -/
  | opaqueAfter {n : Str} {fs : List Nat} {q : Bool} : r.code = 6 → nm ≠ [] → ds.getLast? = some (.struct (some n) fs q) →
      RecordFault ds nm r (.map (.invalid .opaqueNamed))
  | name {e : RecordStringError} : r.code = 19 → TextFault r e → RecordFault ds nm r (.map (.recordString e))

/-- `Rejected ds i e`: following the references from the entry `i` in order, the first thing that is wrong is `e`. -/
inductive Rejected (ds : List TyDecl) : Nat → TypeTableError → Prop
  | index {i : Nat} : ds.length ≤ i → Rejected ds i (.badIndex i)
  | within {i j : Nat} {d : TyDecl} {pre post : List Nat} {e : TypeTableError} : ds[i]? = some d → d.refs = pre ++ j :: post →
      (∀ k ∈ pre, Sound ds k) → Rejected ds j e → Rejected ds i e
  | entry {i : Nat} {d : TyDecl} {e : Ty.Error} : ds[i]? = some d → (∀ k ∈ d.refs, Sound ds k) → EntryFault ds d e →
      Rejected ds i (.invalidType e)

/-- `TypesFault pf rs e`: the records `rs` of a type block have the fault that the error `e` reports, and it is the first
one. -/
inductive TypesFault (pf : Profile) (rs : List BRecord) : TypeTableError → Prop
  | noCount : (∀ n, ¬ Counts rs n) → TypesFault pf rs .badTable
  | record {n : U64} {pre post : List BRecord} {r : BRecord} {ds : List TyDecl} {nm : Str} {e : TypeTableError} : Counts rs n →
      n.toNat * 56 < 2 ^ 63 → rs = pre ++ r :: post → Builds pf [] [] pre ds nm → RecordFault ds nm r e → TypesFault pf rs e
  | count {n : U64} {ds : List TyDecl} {nm : Str} : Counts rs n → n.toNat * 56 < 2 ^ 63 → Builds pf [] [] rs ds nm →
      ds.length ≠ n.toNat → TypesFault pf rs (.badSize n.toNat ds.length)
  | entry {ds : List TyDecl} {i : Nat} {e : TypeTableError} : Declares pf rs ds → i < ds.length → (∀ k < i, Sound ds k) →
      Rejected ds i e → TypesFault pf rs e

/-! ## String tables, symbol tables and identifications -/

def NoRecord (code : U64) (rs : List BRecord) : Prop := ∀ r ∈ rs, r.code ≠ code

def StrtabFault (rs : List BRecord) : StrtabError → Prop
  | .missingBlob => NoRecord 1 rs
  | .badBlob e => ∃ r, FirstWith 1 rs r ∧ BlobFault r e
  | _ => False

def SymtabFault (rs : List BRecord) : SymtabError → Prop
  | .missingBlob => NoRecord 1 rs
  | .invalidBlob e => ∃ r, FirstWith 1 rs r ∧ BlobFault r e

def IdentificationFault (rs : List BRecord) : IdentificationError → Prop
  | .missingProducer => NoRecord 1 rs
  | .badProducer => ∃ r e, FirstWith 1 rs r ∧ TextFault r e
  | .missingEpoch => NoRecord 2 rs ∨ ∃ r, FirstWith 2 rs r ∧ r.fields = []

/-! ## Modules -/

/-- What is wrong with a list of attributes, given the groups. -/
inductive ListFault (rs : List BRecord) (groups : AttributeGroups) : AttributeError → Prop
  | code {r : BRecord} : r ∈ rs → r.code.toNat ∉ [1, 2, 3] → ListFault rs groups (.unknownAttributeCode r.code)
  | group {r : BRecord} : r ∈ rs → r.code = 3 → ListFault rs groups (.wrongBlock .groupCodeEntry)
  | undefined {r : BRecord} {f : U64} {id : U32} : r ∈ rs → r.code = 2 → f ∈ r.fields → id.toNat = f.toNat % 2 ^ 32 →
      (∀ x, (id, x) ∉ groups) → ListFault rs groups (.badAttributeGroup id)

/-- What is wrong with a function body whose records are `rs`. -/
inductive BodyFault (types : List Ty) (rs : List BRecord) : FunctionBlockError → Prop
  | noCount : withCode rs 1 = [] → BodyFault types rs (.map (.inconsistent (.missingRecord 1)))
  | counts : 2 ≤ (withCode rs 1).length → BodyFault types rs (.map (.inconsistent (.tooManyRecords 1)))
  | emptyCount {r : BRecord} : withCode rs 1 = [r] → r.fields = [] → BodyFault types rs .invalidBlockCount
  | code {r : BRecord} : r ∈ rs → (∀ c, (r.code.toNat, c) ∉ functionCodeTable) →
      BodyFault types rs (.unknownFunctionCode r.code)
  /-- Binary operators [2], casts [3], allocations [19], loads [20] and stores [44] of other than four fields, and unary
  operators [56] of other than three. -/
  | fields {r : BRecord} {c : FunctionCode} {n : Nat} : r ∈ rs → (r.code.toNat, c) ∈ functionCodeTable →
      (r.code.toNat ∈ [2, 3, 19, 20, 44] ∧ n = 4) ∨ (r.code = 56 ∧ n = 3) → r.fields.length ≠ n →
      BodyFault types rs (.badInst c (.fields n r.fields.length))
  | type {r : BRecord} {c : FunctionCode} {i : U64} : r ∈ rs → (r.code.toNat, c) ∈ functionCodeTable →
      r.code.toNat ∈ [2, 56] → r.fields[1]? = some i → types.length ≤ i.toNat → BodyFault types rs (.badInst c (.type i))
  | unary {r : BRecord} {v i op : U64} : r ∈ rs → r.code = 56 → r.fields = [v, i, op] → op ≠ 0 →
      BodyFault types rs (.badUnOp (.opcode op))
  | opcode {r : BRecord} {v i w op : U64} : r ∈ rs → r.code = 2 → r.fields = [v, i, w, op] → 13 ≤ op.toNat →
      BodyFault types rs (.badBinOp (.opcode op))
  /-- A binary operator of a type that is fine or not: this error says nothing about the input. -/
  | operand {r : BRecord} {v i w op : U64} {ty : Ty} : r ∈ rs → r.code = 2 → r.fields = [v, i, w, op] →
      types[i.toNat]? = some ty → BodyFault types rs (.badBinOp (.invalidType ty))

/-- `ModuleFault pf strtab t e`: the contents `t` of a module block have the fault that the error `e` reports. -/
inductive ModuleFault (pf : Profile) (strtab : Strtab) (t : Forest) : ModuleError → Prop
  | noVersion : withCode t.records 1 = [] → ModuleFault pf strtab t (.map (.inconsistent (.missingRecord 1)))
  | emptyVersion {r : BRecord} : withCode t.records 1 = [r] → r.fields = [] → ModuleFault pf strtab t .missingVersion
  /-- More than one version, triple, datalayout or assembly. -/
  | records {code : U64} : code.toNat ∈ [1, 2, 3, 4] → 2 ≤ (withCode t.records code.toNat).length →
      ModuleFault pf strtab t (.map (.inconsistent (.tooManyRecords code)))
  | noTypes : t.withId 17 = [] → ModuleFault pf strtab t (.map (.inconsistent (.missingBlock (.ir .type))))
  | noSymbols : t.withId 14 = [] → ModuleFault pf strtab t (.map (.inconsistent (.missingBlock (.ir .valueSymtab))))
  /-- More than one type table, symbol table, table of groups or table of attributes. -/
  | blocks {id : U64} : id.toNat ∈ [9, 10, 14, 17] → 2 ≤ (t.withId id).length →
      ModuleFault pf strtab t (.map (.inconsistent (.tooManyBlocks (.ofU64 id))))
  /-- The triple, the assembly, or the name of a section, library or garbage collector. -/
  | text {r : BRecord} {e : RecordStringError} : r ∈ t.records → r.code.toNat ∈ [2, 4, 5, 6, 11] → TextFault r e →
      ModuleFault pf strtab t (.map (.recordString e))
  | datalayoutText {r : BRecord} {e : RecordStringError} : withCode t.records 3 = [r] → TextFault r e →
      ModuleFault pf strtab t (.dataLayoutRecord (.badString e))
  | datalayout {r : BRecord} {s : Str} {e : DataLayoutError} : withCode t.records 3 = [r] → Holds pf r s →
      LayoutFault s e → ModuleFault pf strtab t (.dataLayoutRecord e)
  | types {c : BBlock × Forest} {e : TypeTableError} : t.withId 17 = [c] →
      TypesFault pf c.2.records e → ModuleFault pf strtab t (.typeTableBlock e)
  | groups {c : BBlock × Forest} {pre post : List BRecord} {r : BRecord} {e : AttributeError} : t.withId 10 = [c] →
      c.2.records = pre ++ r :: post → GroupFault r e → ModuleFault pf strtab t (.attributeBlock e)
  | attributes {c : BBlock × Forest} {g : AttributeGroups} {e : AttributeError} :
      Optionally (fun c g => GroupsSay c.2.records g) [] (t.withId 10) g →
      t.withId 9 = [c] → ListFault c.2.records g e → ModuleFault pf strtab t (.attributeBlock e)
  | comdat {v r : BRecord} {version : U64} {rest : List U64} {e : ComdatError} : withCode t.records 1 = [v] →
      v.fields = version :: rest → r ∈ t.records → r.code = 12 → ComdatErrorMeans version strtab.bytes r.fields e →
      ModuleFault pf strtab t (.comdatRecord e)
  | function {ctx : MapCtx} {r : BRecord} {e : FunctionRecordError} : TablesSay pf strtab t ctx → r ∈ t.records →
      r.code = 8 → FunctionErrorMeans ctx r.fields e → ModuleFault pf strtab t (.functionRecord e)
  | body {ctx : MapCtx} {c : BBlock × Forest} {e : FunctionBlockError} : TablesSay pf strtab t ctx → c ∈ t.withId 12 →
      BodyFault ctx.typeTable c.2.records e → ModuleFault pf strtab t (.functionBlock e)
  | alias {ctx : MapCtx} {r : BRecord} {e : AliasError} : TablesSay pf strtab t ctx → r ∈ t.records → r.code = 14 →
      AliasErrorMeans ctx r.fields e → ModuleFault pf strtab t (.alias e)

/-! ## Files -/

/-- The bytes are a stream that begins with the complete blocks `tops`, then opens the blocks `stillOpen` one inside the
other, and then goes on with `r`, which is no entry. -/
def Begins (pf : Profile) (bytes : List U8) (tops stillOpen : List (BBlock × Forest)) (r : Bitstream.Next) : Prop :=
  ∃ w b b₁ b₂ es, Bitstream.from pf bytes = .ok (w, b) ∧ es = completeEntries tops ++ openEntries stillOpen ∧
    iterate pf es.length b = (es.map .item, b₁) ∧ Bitstream.next pf b₁ = (r, b₂) ∧ ∀ e, r ≠ .item e

/-- `FileFault pf bytes e`: the bytes have the fault that the error `e` reports. -/
inductive FileFault (pf : Profile) (bytes : List U8) : MapperError → Prop
  | header {e : BErr} : Bitstream.from pf bytes = .err e → FileFault pf bytes (.parse e)
  | stream {tops stillOpen : List (BBlock × Forest)} {e : BErr} : Begins pf bytes tops stillOpen (.error e) →
      FileFault pf bytes (.parse e)
  /-- The stream ends inside a block. -/
  | truncated {tops stillOpen : List (BBlock × Forest)} : Begins pf bytes tops stillOpen .done → stillOpen ≠ [] →
      FileFault pf bytes (.unroll .unexpectedEnd)
  /-- A module [8] with no identification block [13] anywhere before it. -/
  | unidentified {pre post stillOpen : List (BBlock × Forest)} {c : BBlock × Forest} {r : Bitstream.Next} :
      Begins pf bytes (pre ++ c :: post) stillOpen r → c.1.blockId = 8 → (∀ d ∈ pre, d.1.blockId ≠ 13) →
      FileFault pf bytes (.unroll .moduleWithoutIdentification)
  /-- Two modules with no identification block between them. -/
  | adjacent {pre between post stillOpen : List (BBlock × Forest)} {c d : BBlock × Forest} {r : Bitstream.Next} :
      Begins pf bytes (pre ++ c :: between ++ d :: post) stillOpen r → c.1.blockId = 8 → d.1.blockId = 8 →
      (∀ x ∈ between, x.1.blockId ≠ 13) → FileFault pf bytes (.unroll .adjacentModules)
  | unexpected {tops stillOpen : List (BBlock × Forest)} {c : BBlock × Forest} {r : Bitstream.Next} :
      Begins pf bytes tops stillOpen r → c ∈ tops → c.1.blockId.toNat ∉ [8, 13, 23, 25] →
      FileFault pf bytes (.unroll (.unexpectedTopLevel (.ofU64 c.1.blockId)))
  | noStrtab {tops : List (BBlock × Forest)} {p : Parts (BBlock × Forest)} : Begins pf bytes tops [] .done →
      p ∈ parts tops → p.strtab = none → FileFault pf bytes (.unroll .missingStrtab)
  | noModule {tops : List (BBlock × Forest)} {p : Parts (BBlock × Forest)} : Begins pf bytes tops [] .done →
      p ∈ parts tops → p.module = none → FileFault pf bytes (.unroll .missingModule)
  | strtab {tops : List (BBlock × Forest)} {p : Parts (BBlock × Forest)} {c : BBlock × Forest} {e : StrtabError} :
      Begins pf bytes tops [] .done → p ∈ parts tops → p.strtab = some c → StrtabFault c.2.records e →
      FileFault pf bytes (.map (.strtab e))
  | symtab {tops : List (BBlock × Forest)} {p : Parts (BBlock × Forest)} {c : BBlock × Forest} {e : SymtabError} :
      Begins pf bytes tops [] .done → p ∈ parts tops → p.symtab = some c → SymtabFault c.2.records e →
      FileFault pf bytes (.map (.symtab e))
  | identification {tops : List (BBlock × Forest)} {p : Parts (BBlock × Forest)} {e : IdentificationError} :
      Begins pf bytes tops [] .done → p ∈ parts tops → IdentificationFault p.identification.2.records e →
      FileFault pf bytes (.map (.identification e))
  | inModule {tops : List (BBlock × Forest)} {p : Parts (BBlock × Forest)} {c d : BBlock × Forest} {strtab : Strtab}
      {e : ModuleError} : Begins pf bytes tops [] .done → p ∈ parts tops → p.strtab = some c →
      TableSays pf c.2.records strtab.bytes → p.module = some d → ModuleFault pf strtab d.2 e →
      FileFault pf bytes (.map (.module e))

end Verif.Spec
