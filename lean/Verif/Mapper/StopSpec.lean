import Verif.Mapper.ErrorSpec
import Verif.Mapper.FunctionSpec

/-! Specification of the ways in which mapping can end without a result: panics, and recursion without end. For each of them,
what it says about the input. -/

namespace Verif

/-- How a function can fail to return. -/
inductive Stop where
  | panic (p : PanicSite)
  /-- It runs forever (in practice, until the stack overflows). -/
  | hang
deriving DecidableEq, Repr

/-- `x.Stops s`: there is no result, because of `s`. -/
def Out.Stops {ε α : Type} (x : Out ε α) : Stop → Prop
  | .panic p => x = .panic p
  | .hang => x = .diverge

end Verif

namespace Verif.Spec

/-- The text or blob of a record without fields is asked for, in a debug build. -/
def EmptyText (pf : Profile) (r : BRecord) (s : Stop) : Prop := pf = .debug ∧ r.fields = [] ∧ s = .panic .recordLenSub

/-- The name of a record overflows (`NameOverflows`): where the panic is depends on the build. -/
def nameSite : Profile → PanicSite
  | .debug => .strtabAdd
  | .release => .strtabSlice

/-! ## Types -/

/-- The number of types that records declare, if each but counts [1] and names [19] declares one. -/
def declared (rs : List BRecord) : Nat := (rs.filter fun r => r.code.toNat ∉ [1, 19]).length

/-- The positions a record of the type block refers to: the pointee [8], the element [11, 12], the members [18, 20], or the
return and parameter types [21]. -/
def references (r : BRecord) : List U64 :=
  if r.code = 8 then r.fields.take 1
  else if r.code = 11 ∨ r.code = 12 then (r.fields.drop 1).take 1
  else if r.code = 18 ∨ r.code = 20 ∨ r.code = 21 then r.fields.drop 1
  else []

/-- Some record refers to itself or to a type declared later. -/
def RefersForward (rs : List BRecord) : Prop :=
  ∃ pre r post j, rs = pre ++ r :: post ∧ j ∈ references r ∧ declared pre ≤ j.toNat

/-- Some named or opaque structure comes directly after another structure. -/
def AdjacentStructs (rs : List BRecord) : Prop :=
  ∃ pre r post, rs = pre ++ r :: post ∧ r.code.toNat ∈ [6, 20] ∧ AfterStruct pre

/-- `TypesStop pf rs s`: the records `rs` of a type block are the reason for `s`. -/
inductive TypesStop (pf : Profile) (rs : List BRecord) : Stop → Prop
  /-- The declared count is too large to reserve memory for. -/
  | capacity {n : U64} : Counts rs n → 2 ^ 63 ≤ n.toNat * 56 → TypesStop pf rs (.panic .capacity)
  /-- The first record that is not fine is a name without contents. -/
  | name {n : U64} {pre post : List BRecord} {r : BRecord} {ds : List TyDecl} {nm : Str} {s : Stop} : Counts rs n →
      n.toNat * 56 < 2 ^ 63 → rs = pre ++ r :: post → Builds pf [] [] pre ds nm → r.code = 19 → EmptyText pf r s →
      TypesStop pf rs s
  /-- The types run in a circle. -/
  | circle {ds : List TyDecl} {i : Nat} : Declares pf rs ds → i < ds.length → (∀ k < i, Sound ds k) → Endless ds i →
      TypesStop pf rs .hang

/-! ## Function bodies -/

inductive BodyStop (types : List Ty) (rs : List BRecord) : Stop → Prop
  /-- The declared number of basic blocks is too large to reserve memory for. -/
  | capacity {n : U64} : DeclaresBlocks rs n → 2 ^ 63 ≤ n.toNat * 24 → BodyStop types rs (.panic .capacity)
  /-- All records are known and skipped: the end of the body is not implemented. -/
  | ending {n : U64} : DeclaresBlocks rs n → n.toNat * 24 < 2 ^ 63 → (∀ r ∈ rs, Skipped types r) →
      BodyStop types rs (.panic .unimplemented)
  /-- The first record that is not skipped is of a kind that is not implemented. -/
  | record {n : U64} {pre post : List BRecord} {r : BRecord} : DeclaresBlocks rs n → n.toNat * 24 < 2 ^ 63 →
      rs = pre ++ r :: post → (∀ x ∈ pre, Skipped types x) → NotImplemented r → BodyStop types rs (.panic .unimplemented)

/-! ## Modules -/

/-- `ModuleStop pf strtab t s`: the contents `t` of a module block are the reason for `s`. -/
inductive ModuleStop (pf : Profile) (strtab : Strtab) (t : Forest) : Stop → Prop
  /-- The triple, datalayout, assembly, or the name of a section, library or garbage collector. -/
  | text {r : BRecord} {s : Stop} : r ∈ t.records → r.code.toNat ∈ [2, 3, 4, 5, 6, 11] → EmptyText pf r s →
      ModuleStop pf strtab t s
  | types {c : BBlock × Forest} {s : Stop} : t.withId 17 = [c] → TypesStop pf c.2.records s →
      ModuleStop pf strtab t s
  /-- The first record of the table of groups that is no group ends in a key. -/
  | groups {c : BBlock × Forest} {pre post : List BRecord} {r : BRecord} : t.withId 10 = [c] →
      c.2.records = pre ++ r :: post → (∀ x ∈ pre, ∃ id param attrs, IsAttrGroup x id param attrs) → CutInKey r →
      ModuleStop pf strtab t (.panic .attrSlice)
  /-- An attribute list of the old kind [1]. -/
  | attributes {c : BBlock × Forest} {r : BRecord} : t.withId 9 = [c] → r ∈ c.2.records → r.code = 1 →
      ModuleStop pf strtab t (.panic .unimplemented)
  | comdat {v r : BRecord} {version : U64} {rest : List U64} : withCode t.records 1 = [v] → v.fields = version :: rest →
      2 ≤ version.toNat → r ∈ t.records → r.code = 12 → r.fields.length = 3 → NameOverflows strtab.bytes r.fields →
      ModuleStop pf strtab t (.panic (nameSite pf))
  | function {ctx : MapCtx} {r : BRecord} : TablesSay pf strtab t ctx → 2 ≤ ctx.version.toNat → r ∈ t.records →
      r.code = 8 → 10 ≤ r.fields.length → NameOverflows strtab.bytes r.fields → ModuleStop pf strtab t (.panic (nameSite pf))
  | alias {ctx : MapCtx} {r : BRecord} : TablesSay pf strtab t ctx → 2 ≤ ctx.version.toNat → r ∈ t.records →
      r.code = 14 → 5 ≤ r.fields.length → NameOverflows strtab.bytes r.fields → ModuleStop pf strtab t (.panic (nameSite pf))
  | body {ctx : MapCtx} {c : BBlock × Forest} {s : Stop} : TablesSay pf strtab t ctx → c ∈ t.withId 12 →
      BodyStop ctx.typeTable c.2.records s → ModuleStop pf strtab t s

/-! ## Files -/

/-- The panics of the iteration over a stream (C23). -/
def StreamSite (pf : Profile) (p : PanicSite) : Prop :=
  p ∈ [.capacity, .setBidField, .recordCodeRemove] ∨ (pf = .debug ∧ p ∈ [.vbrShift, .abbrevArraySub])

/-- `FileStop pf bytes s`: the bytes are the reason for `s`. -/
inductive FileStop (pf : Profile) (bytes : List U8) : Stop → Prop
  | stream {tops stillOpen : List (BBlock × Forest)} {p : PanicSite} : Begins pf bytes tops stillOpen (.panic p) →
      StreamSite pf p → FileStop pf bytes (.panic p)
  /-- The contents of the string or symbol table. -/
  | table {tops : List (BBlock × Forest)} {p : Parts (BBlock × Forest)} {c : BBlock × Forest} {r : BRecord} {s : Stop} :
      Begins pf bytes tops [] .done → p ∈ parts tops → p.strtab = some c ∨ p.symtab = some c → FirstWith 1 c.2.records r →
      EmptyText pf r s → FileStop pf bytes s
  /-- The producer. -/
  | identification {tops : List (BBlock × Forest)} {p : Parts (BBlock × Forest)} {r : BRecord} {s : Stop} :
      Begins pf bytes tops [] .done → p ∈ parts tops → FirstWith 1 p.identification.2.records r → EmptyText pf r s →
      FileStop pf bytes s
  | inModule {tops : List (BBlock × Forest)} {p : Parts (BBlock × Forest)} {c d : BBlock × Forest} {strtab : Strtab}
      {s : Stop} : Begins pf bytes tops [] .done → p ∈ parts tops → p.strtab = some c →
      TableSays pf c.2.records strtab.bytes → p.module = some d → ModuleStop pf strtab d.2 s → FileStop pf bytes s

end Verif.Spec
