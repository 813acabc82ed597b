import Verif.Mapper.Module
import Verif.Mapper.GlobalSpec
import Verif.Mapper.TypeSpec
import Verif.Mapper.AttributeSpec
import Verif.Mapper.LayoutSpec

/-! Specification of module blocks and of whole files: what the records and blocks of a module say (LLVM's bitcode format
document, "MODULE_BLOCK Contents"), independently of the order in which they are looked at. Numbers in brackets are the codes
and ids of that document. -/

namespace Verif.Spec

/-- The records with a given code, in order. -/
def withCode (rs : List BRecord) (code : Nat) : List BRecord := rs.filter fun r => r.code.toNat == code

/-- As `Holds`, for blobs. -/
def HoldsBytes (pf : Profile) (r : BRecord) (bs : List U8) : Prop :=
  AreBytes r.fields bs ∧ r.fields.length ≠ 1 ∧ (r.fields = [] → pf = .release)

/-- Two lists agree element by element. -/
def Each {α β : Type} (P : α → β → Prop) (l : List α) (m : List β) : Prop :=
  m.length = l.length ∧ ∀ (i : Nat) (a : α) (b : β), l[i]? = some a → m[i]? = some b → P a b

/-- Something that may occur once or not at all. -/
inductive Optionally {α β : Type} (P : α → β → Prop) (missing : β) : List α → β → Prop
  | absent : Optionally P missing [] missing
  | present {a : α} {b : β} : P a b → Optionally P missing [a] b

/-- The lines of a text: what is between its line feeds. -/
def Lines (s : Str) (lines : List Str) : Prop :=
  lines ≠ [] ∧ (∀ l ∈ lines, '\n' ∉ l) ∧ ['\n'].intercalate lines = s

/-- The tables that the records and blocks directly in a module set up: the version [1], the datalayout [3], section names [5],
names of garbage collectors [11], comdats [12], the type table [17], the symbol table [14], which has to be there, and attribute
groups [10] and lists [9]. -/
structure TablesSay (pf : Profile) (strtab : Strtab) (t : Forest) (ctx : MapCtx) : Prop where
  version : ∃ r rest, withCode t.records 1 = [r] ∧ r.fields = ctx.version :: rest
  datalayout : Optionally (fun r d => ∃ s, Holds pf r s ∧ LayoutSays s d) .default (withCode t.records 3)
    ctx.datalayout
  sections : Each (Holds pf) (withCode t.records 5) ctx.sectionTable
  gcs : Each (Holds pf) (withCode t.records 11) ctx.gcTable
  strtab : ctx.strtab = strtab
  types : ∃ c, t.withId 17 = [c] ∧ TypesSay pf c.2.records ctx.typeTable
  symbols : ∃ c, t.withId 14 = [c]
  groups : Optionally (fun c g => GroupsSay c.2.records g) [] (t.withId 10) ctx.attributeGroups
  attributes : Optionally (fun c as => ListsSay ctx.attributeGroups c.2.records as) [] (t.withId 9) ctx.attributes
  comdats : Each (fun r c => ComdatSays ctx.version ctx.strtab.bytes r.fields c) (withCode t.records 12) ctx.comdats

/-- What a module block says: its tables, the target triple [2] (or that of the platform the crate was built for), the lines
of assembly [4], the libraries [6], the functions [8] and aliases [14]. There are no function bodies [12]. -/
structure ModuleSays (pf : Profile) (target : Str) (strtab : Strtab) (t : Forest) (m : Module) (ctx : MapCtx)
    (functions : List FunctionRecord) (aliases : List Alias) : Prop where
  tables : TablesSay pf strtab t ctx
  triple : Optionally (Holds pf) target (withCode t.records 2) m.triple
  asm : Optionally (fun r ls => ∃ s, Holds pf r s ∧ Lines s ls) [] (withCode t.records 4) m.asm
  deplibs : Each (Holds pf) (withCode t.records 6) m.deplibs
  functions : Each (fun r f => FunctionSays ctx r.fields f) (withCode t.records 8) functions
  noBodies : t.withId 12 = []
  aliases : Each (fun r a => AliasSays ctx r.fields a) (withCode t.records 14) aliases

/-! ## Whole files -/

/-- The top-level blocks of a module: the identification, the module and the tables. -/
structure Parts (α : Type) where
  identification : α
  module : Option α
  strtab : Option α
  symtab : Option α

/-- For every identification block [13], in order: the block itself, the first module block [8] before the next
identification block, and the first string table [23] and symbol table [25] anywhere after it. -/
def parts : List (BBlock × Forest) → List (Parts (BBlock × Forest))
  | [] => []
  | c :: cs =>
    if c.1.blockId = 13 then
      { identification := c
        module := (cs.takeWhile fun d => d.1.blockId != 13).find? fun d => d.1.blockId == 8
        strtab := cs.find? fun d => d.1.blockId == 23
        symtab := cs.find? fun d => d.1.blockId == 25 } :: parts cs
    else parts cs

/-- Only blocks of these four kinds, and no module without an identification block directly before it, string and symbol
tables apart. -/
def InOrder (tops : List (BBlock × Forest)) : Prop :=
  ∀ pre c post, tops = pre ++ c :: post → c.1.blockId ∈ [13, 23, 25] ∨
    (c.1.blockId = 8 ∧ ∃ a i b, pre = a ++ i :: b ∧ i.1.blockId = 13 ∧ ∀ d ∈ b, d.1.blockId ∈ [23, 25])

/-- The producer string [1] and the epoch [2]. -/
def IdentificationSays (pf : Profile) (rs : List BRecord) (i : Identification) : Prop :=
  (∃ r, FirstWith 1 rs r ∧ Holds pf r i.producer) ∧ ∃ r fs, FirstWith 2 rs r ∧ r.fields = i.epoch :: fs

/-- The contents of a string or symbol table [1]. -/
def TableSays (pf : Profile) (rs : List BRecord) (bs : List U8) : Prop := ∃ r, FirstWith 1 rs r ∧ HoldsBytes pf r bs

/-- What the blocks of one module say. -/
structure PartsSay (pf : Profile) (target : Str) (p : Parts (BBlock × Forest)) (m : BitcodeModule) : Prop where
  identification : IdentificationSays pf p.identification.2.records m.identification
  strtab : ∃ c, p.strtab = some c ∧ TableSays pf c.2.records m.strtab.bytes
  module : ∃ c ctx fs as, p.module = some c ∧ ModuleSays pf target m.strtab c.2 m.module ctx fs as
  symtab : (p.symtab = none ∧ m.symtab = none) ∨
    ∃ c s, p.symtab = some c ∧ m.symtab = some s ∧ TableSays pf c.2.records s.bytes

/-- What a file says. -/
def FileSays (pf : Profile) (target : Str) (tops : List (BBlock × Forest)) (f : Bitcode) : Prop :=
  InOrder tops ∧ Each (PartsSay pf target) (parts tops) f.modules

end Verif.Spec
