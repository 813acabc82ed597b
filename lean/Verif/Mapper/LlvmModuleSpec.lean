import Verif.Mapper.LlvmAliasSpec
import Verif.Mapper.LlvmAttrSpec
import Verif.Mapper.LlvmLayoutSpec
import Verif.Mapper.LlvmTypeSpec

/-!
# Modules as LLVM writes them

What LLVM's writer puts into a file with one module (`BitcodeWriter.cpp`, `ModuleBitcodeWriter::write`), as far as this library looks at it, and
which of these modules are read.
-/

namespace Verif.Spec

/-- A module as LLVM has it. Texts and names are any bytes. COMDATs, functions and aliases come with the offset of their name in the string table. -/
structure LlvmModule where
  triple : List U8
  layout : List LlvmSpec
  asm : List U8
  sections : List (List U8)
  gcs : List (List U8)
  types : List Ty
  groups : List LlvmGroup
  lists : List (List U32)
  comdats : List (WrittenComdat × Nat)
  functions : List (LlvmFunction × Nat)
  aliases : List (WrittenAlias × Nat)

/-! ## What LLVM allows -/

/-- The name is at the offset. -/
def NamedAt (text name : List U8) (offset : Nat) : Prop := ∃ pre post, text = pre ++ (name ++ post) ∧ pre.length = offset

/-- A function that the module may have: its type is a function type, what it refers to is there, its name is in the string table, calling conventions
have 10 bits, and alignments are at most `2 ^ 32`. -/
structure LlvmModule.MayHave (M : LlvmModule) (text : List U8) (f : LlvmFunction) (offset : Nat) : Prop where
  name : NamedAt text f.name offset
  type : ∃ result params vararg, M.types[f.type]? = some (.function result params vararg)
  callingConvention : f.callingConvention < 2 ^ 10
  attributes : ∀ i, f.attributes = some i → i < M.lists.length
  align : ∀ k, f.align = some k → k ≤ 32
  «section» : ∀ i, f.section = some i → i < M.sections.length
  gc : ∀ i, f.gc = some i → i < M.gcs.length
  small : ∀ n ∈ f.fields offset, n < 2 ^ 64

/-- A module that LLVM allows, with the string table `text`: datalayout, types and attributes are as LLVM allows them, groups have different numbers,
lists are of groups that are there, and so is what functions, aliases and COMDATs refer to. Names of sections and collectors are not empty. -/
structure LlvmModule.Allowed (M : LlvmModule) (text : List U8) : Prop where
  layout : ∀ s ∈ M.layout, s.Allowed
  sections : ∀ s ∈ M.sections, s ≠ []
  gcs : ∀ s ∈ M.gcs, s ≠ []
  types : ∀ t ∈ M.types, LlvmValid t
  typeCount : M.types.length < 2 ^ 57
  groups : ∀ g ∈ M.groups, g.Allowed
  groupIds : (M.groups.map (·.id)).Nodup
  lists : ∀ l ∈ M.lists, ∀ id ∈ l, id ∈ M.groups.map (·.id)
  comdats : ∀ c ∈ M.comdats, c.1.Allowed c.2 text
  functions : ∀ f ∈ M.functions, M.MayHave text f.1 f.2
  aliases : ∀ a ∈ M.aliases, NamedAt text a.1.name a.2 ∧ a.1.type < M.types.length ∧
    a.1.linkage ∈ [.external, .internal, .private, .weakAny, .weakOdr, .linkOnceAny, .linkOnceOdr, .availableExternally] ∧
    ∀ n ∈ a.1.fields a.2, n < 2 ^ 64
  small : text.length < 2 ^ 64

/-! ## What LLVM writes -/

/-- The fields of a text. -/
def textFields (s : List U8) : List U64 := s.map (·.setWidth 64)

/-- A text that is not written if it is empty. -/
def unlessEmpty (s : List U8) : List (List U64) := if s = [] then [] else [textFields s]

/-- The fields of the records with a code, in order. -/
def fieldsOf (t : Forest) (code : Nat) : List (List U64) := (withCode t.records code).map (·.fields)

/-- The records declare the types: each entry, in LLVM's sense, stands for one, and there are as many as announced. No named structure comes directly
after another structure. -/
def DeclaresTypes (rs : List BRecord) (types : List Ty) : Prop :=
  ∃ ds r rest, FirstWith 1 rs r ∧ r.fields = BitVec.ofNat 64 types.length :: rest ∧ Lists [] rs ds ∧ Regular ds ∧ ds.length = types.length ∧
    ∀ i t, types[i]? = some t → Denotes ds i t

/-- `t` is what LLVM writes into the module block: the version, the texts and the records, in any order, one block of types, one with symbols, those of
attributes if there are any, and one for the body of each function that is defined. Other records and blocks do not matter. -/
structure LlvmModule.WrittenAs (M : LlvmModule) (t : Forest) : Prop where
  version : fieldsOf t 1 = [[2]]
  triple : fieldsOf t 2 = unlessEmpty M.triple
  layout : fieldsOf t 3 = unlessEmpty (utf8 (llvmText M.layout))
  asm : fieldsOf t 4 = unlessEmpty M.asm
  sections : fieldsOf t 5 = M.sections.map textFields
  libraries : fieldsOf t 6 = []
  functions : fieldsOf t 8 = M.functions.map fun f => (f.1.fields f.2).map (BitVec.ofNat 64)
  gcs : fieldsOf t 11 = M.gcs.map textFields
  comdats : fieldsOf t 12 = M.comdats.map fun c => (c.1.fields c.2).map (BitVec.ofNat 64)
  aliases : fieldsOf t 14 = M.aliases.map fun a => (a.1.fields a.2).map (BitVec.ofNat 64)
  types : ∃ c, t.withId 17 = [c] ∧ DeclaresTypes c.2.records M.types
  symbols : ∃ c, t.withId 14 = [c]
  groups : (M.groups = [] ∧ t.withId 10 = []) ∨ ∃ c, t.withId 10 = [c] ∧ c.2.records = M.groups.map LlvmGroup.toRecord
  lists : (M.lists = [] ∧ t.withId 9 = []) ∨
    ∃ c, t.withId 9 = [c] ∧ c.2.records = M.lists.map fun l => ⟨none, 2, l.map (·.setWidth 64)⟩
  bodies : (t.withId 12).length = (M.functions.filter fun f => !f.1.isDeclaration).length

/-- The blocks of an identification, with the name of the producer and the epoch. -/
def IsIdentification (i : BBlock × Forest) (producer : Str) (epoch : U64) : Prop :=
  i.1.blockId = 13 ∧ i.2.records.map (fun r => (r.code, r.fields)) = [(1, textFields (utf8 producer)), (2, [epoch])]

/-- A block with one record that has the given bytes. -/
def IsBytes (c : BBlock × Forest) (id : U64) (bytes : List U8) : Prop :=
  c.1.blockId = id ∧ c.2.records.map (fun r => (r.code, r.fields)) = [(1, textFields bytes)]

/-- The blocks of a file with the module: the identification, the module, a symbol table that need not be there, and the string table. -/
inductive LlvmModule.FileOf (M : LlvmModule) (text : List U8) (producer : Str) (epoch : U64) : List (BBlock × Forest) → Prop
  | plain {i c s : BBlock × Forest} : IsIdentification i producer epoch → c.1.blockId = 8 → M.WrittenAs c.2 → IsBytes s 23 text →
      FileOf M text producer epoch [i, c, s]
  | withSymbols {i c y s : BBlock × Forest} {symbols : List U8} : IsIdentification i producer epoch → c.1.blockId = 8 → M.WrittenAs c.2 →
      IsBytes y 25 symbols → 2 ≤ symbols.length → IsBytes s 23 text → FileOf M text producer epoch [i, c, y, s]

/-! ## What is read -/

/-- A text that is read as such: UTF-8 of two bytes or more. -/
def IsLongText (s : List U8) : Prop := 2 ≤ s.length ∧ ∃ t, utf8 t = s

/-- The modules that are read: all texts are UTF-8 and have other than one byte; the specs of the datalayout are usual; there is no vector of opaque
pointers and no attribute that is not read; COMDATs are not `samesize`; functions are declarations with a name and one of the calling conventions listed;
aliases are external and have a name. -/
structure LlvmModule.Readable (M : LlvmModule) : Prop where
  triple : M.triple = [] ∨ IsLongText M.triple
  layout : (∀ s ∈ M.layout, s.Usual) ∧ (llvmText M.layout).length ≠ 1
  asm : M.asm = [] ∨ IsLongText M.asm
  sections : ∀ s ∈ M.sections, IsLongText s
  gcs : ∀ s ∈ M.gcs, IsLongText s
  types : ∀ t ∈ M.types, ¬ PointerVector t
  groups : ∀ g ∈ M.groups, ∀ a ∈ g.attrs, a.Readable
  comdats : ∀ c ∈ M.comdats, c.1.kind ≠ .sameSize ∧ IsText c.1.name
  functions : ∀ f ∈ M.functions, f.1.isDeclaration = true ∧ IsText f.1.name ∧ ∃ cc, (f.1.callingConvention, cc) ∈ callingConventionTable
  aliases : ∀ a ∈ M.aliases, a.1.linkage = .external ∧ IsText a.1.name

/-- What is reported of the module: its triple, or the given one if it has none, and the lines of its assembly. -/
structure LlvmModule.ReportedAs (M : LlvmModule) (target : Str) (m : Module) : Prop where
  triple : (M.triple = [] ∧ m.triple = target) ∨ (M.triple ≠ [] ∧ utf8 m.triple = M.triple)
  asm : (M.asm = [] ∧ m.asm = []) ∨ ∃ s, utf8 s = M.asm ∧ M.asm ≠ [] ∧ Lines s m.asm
  deplibs : m.deplibs = []

end Verif.Spec
