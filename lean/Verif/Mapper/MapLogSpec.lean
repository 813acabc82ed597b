import Verif.Mapper.MapLog
import Verif.Mapper.TypeLemmas
import Verif.Mapper.SizeSpec
import Verif.Mapper.StopSpec

/-! Specification of what the mapper should log. -/

namespace Verif.Spec

/-! ## Types -/

/-- A message about types. -/
inductive TypeLine where
  /-- Reference `i` is followed. It leads to the entry `d`. -/
  | refers (i : Nat) (d : TyDecl)
  /-- A vector of `n` elements of type `e` is begun. -/
  | vector (n : U64) (e : Nat)
  /-- The type of its elements, known by now, is this entry. -/
  | element (d : Option TyDecl)
deriving DecidableEq

/-- The message, if it is one about types. -/
def asTypeLine : MapLine → Option TypeLine
  | .resolves r p => some (.refers r.toNat p.toDecl)
  | .vector n e => some (.vector n e.toNat)
  | .element p => some (.element (p.map PType.toDecl))
  | _ => none

/-- The messages for an entry, given those for what it refers to: vectors of fixed length have one more before and one after. -/
def around (ds : List TyDecl) : TyDecl → List TypeLine → List TypeLine
  | .vector false n e, ls => .vector n e :: (ls ++ [.element ds[e]?])
  | _, ls => ls

/-- The messages for an entry, given those for what it refers to, if following that is not completed. -/
def opened : TyDecl → List TypeLine → List TypeLine
  | .vector false n e, ls => .vector n e :: ls
  | _, ls => ls

/-- `Walk ds l ls`: following the references `l`, in order, and for each of them all references of the entry that it leads to, and so
on, gives the messages `ls`. -/
inductive Walk (ds : List TyDecl) : List Nat → List TypeLine → Prop
  | nil : Walk ds [] []
  | cons {i : Nat} {rest : List Nat} {d : TyDecl} {ls ms : List TypeLine} : ds[i]? = some d → Walk ds d.refs ls → Walk ds rest ms →
      Walk ds (i :: rest) (.refers i d :: around ds d ls ++ ms)

/-- `Snag ds l ls e`: following the references `l` is not completed, for the reason `e`, after the messages `ls`. -/
inductive Snag (ds : List TyDecl) : List Nat → List TypeLine → TypeTableError → Prop
  /-- There is no such entry. -/
  | missing {i : Nat} {rest : List Nat} : ds[i]? = none → Snag ds (i :: rest) [] (.badIndex i)
  /-- What the entry refers to cannot be followed. -/
  | inside {i : Nat} {rest : List Nat} {d : TyDecl} {ls : List TypeLine} {e : TypeTableError} : ds[i]? = some d →
      Snag ds d.refs ls e → Snag ds (i :: rest) (.refers i d :: opened d ls) e
  /-- The entry breaks the rules. -/
  | broken {i : Nat} {rest : List Nat} {d : TyDecl} {ls : List TypeLine} {e : Ty.Error} : ds[i]? = some d → Walk ds d.refs ls →
      EntryFault ds d e → Snag ds (i :: rest) (.refers i d :: around ds d ls) (.invalidType e)
  /-- The first reference is followed, but not all others. -/
  | later {i : Nat} {rest : List Nat} {ms ls : List TypeLine} {e : TypeTableError} : Sound ds i → Walk ds [i] ms →
      Snag ds rest ls e → Snag ds (i :: rest) (ms ++ ls) e

/-- The messages for an entry of the table. -/
def EntryWalk (ds : List TyDecl) (d : TyDecl) (ls : List TypeLine) : Prop := ∃ ms, Walk ds d.refs ms ∧ ls = around ds d ms

/-- The messages for a table: those for each entry. -/
def TableWalk (ds : List TyDecl) (ls : List TypeLine) : Prop := ∃ lss, Each (EntryWalk ds) ds lss ∧ ls = lss.flatten

/-- The messages for a table that is refused for the reason `e`: those for the entries before, then those for the first entry that is
not sound, as far as it goes. -/
def TableStuck (ds : List TyDecl) (ls : List TypeLine) (e : TypeTableError) : Prop :=
  ∃ pre d post lss ms, ds = pre ++ d :: post ∧ (∀ k < pre.length, Sound ds k) ∧ Each (EntryWalk ds) pre lss ∧
    ((Snag ds d.refs ms e ∧ ls = lss.flatten ++ opened d ms) ∨
      ∃ e', e = .invalidType e' ∧ EntryFault ds d e' ∧ Walk ds d.refs ms ∧ ls = lss.flatten ++ around ds d ms)

/-- A message that a reference is followed. -/
def isRefers : TypeLine → Bool
  | .refers _ _ => true
  | _ => false

/-! ## Modules -/

/-- The context that is logged for the tables of a module: these tables. -/
def tablesShown (ctx : MapCtx) : PartialMapCtx where
  version := some ctx.version
  datalayout := ctx.datalayout
  sectionTable := ctx.sectionTable
  gcTable := ctx.gcTable
  strtab := ctx.strtab
  attributeGroups := ctx.attributeGroups
  attributes := ctx.attributes
  typeTable := some ctx.typeTable
  comdats := ctx.comdats

/-- The messages for the attribute lists of a module [9]: the number of each group that a list refers to. -/
def groupLines (t : Forest) : List MapLine :=
  (t.withId 9).flatMap fun c => c.2.records.flatMap fun r => r.fields.map fun f => .groupId (f.setWidth 32)

/-- What a module says, but for its aliases. -/
structure SaysFunctions (pf : Profile) (t : Forest) (ctx : MapCtx) (functions : List FunctionRecord) : Prop where
  triple : ∀ target, ∃ s, Optionally (Holds pf) target (withCode t.records 2) s
  asm : ∃ ls, Optionally (fun r ls => ∃ s, Holds pf r s ∧ Lines s ls) [] (withCode t.records 4) ls
  deplibs : ∃ ls, Each (Holds pf) (withCode t.records 6) ls
  functions : Each (fun r f => FunctionSays ctx r.fields f) (withCode t.records 8) functions
  noBodies : t.withId 12 = []

/-- The messages for the type block [17] of a module, if all its types can be put together. -/
def TypesLog (pf : Profile) (t : Forest) (ls : List MapLine) : Prop :=
  ∃ d ds tl, t.withId 17 = [d] ∧ Declares pf d.2.records ds ∧ TableWalk ds tl ∧ ls.map asTypeLine = tl.map some

/-- The messages for the tables of a module, if it has them: those about its types, then the numbers of groups. -/
def FrontLog (pf : Profile) (t : Forest) (ls : List MapLine) : Prop := ∃ xs, TypesLog pf t xs ∧ ls = xs ++ groupLines t

/-- A group with this number, taken modulo `2^32`, is there. -/
def known (g : AttributeGroups) (f : U64) : Bool := g.any fun x => x.1.toNat == f.toNat % 2 ^ 32

/-- The numbers of a list as far as they are looked up: up to the first that no group has. -/
def lookedUp (g : AttributeGroups) : List U64 → List U64
  | [] => []
  | f :: fs => if known g f then f :: lookedUp g fs else [f]

/-- The messages for attribute lists, given the groups. Nothing is looked at after a record of another kind, or after a number that no
group has. -/
def listLines (g : AttributeGroups) : List BRecord → List MapLine
  | [] => []
  | r :: rs =>
    if r.code = 2 then
      ((lookedUp g r.fields).map fun f => .groupId (f.setWidth 32)) ++ if r.fields.all (known g) then listLines g rs else []
    else []

/-- What is looked at before the types of a module: its version, datalayout, section names and names of garbage collectors. -/
structure Preamble (pf : Profile) (t : Forest) : Prop where
  version : ∃ r v rest, withCode t.records 1 = [r] ∧ r.fields = v :: rest
  datalayout : ∃ d, Optionally (fun r d => ∃ s, Holds pf r s ∧ LayoutSays s d) .default (withCode t.records 3) d
  sections : ∃ ss, Each (Holds pf) (withCode t.records 5) ss
  gcs : ∃ ss, Each (Holds pf) (withCode t.records 11) ss

/-- The messages for the tables of a module, if something is wrong with one of them: as far as it goes. -/
inductive FrontCut (pf : Profile) (t : Forest) : List MapLine → Prop
  /-- Something before the types, or these are not even declared as they should be. -/
  | nothing : (¬ Preamble pf t ∨ ∀ d ds, t.withId 17 = [d] → ¬ Declares pf d.2.records ds) → FrontCut pf t []
  /-- A type is refused. -/
  | types {d : BBlock × Forest} {ds : List TyDecl} {tl : List TypeLine} {e : TypeTableError} {ls : List MapLine} : Preamble pf t →
      t.withId 17 = [d] → Declares pf d.2.records ds → TableStuck ds tl e → ls.map asTypeLine = tl.map some → FrontCut pf t ls
  /-- A type contains itself. -/
  | circle {d : BBlock × Forest} {ls : List MapLine} : Preamble pf t → t.withId 17 = [d] → TypesStop pf d.2.records .hang →
      (∀ l ∈ ls, ∃ x, asTypeLine l = some x) → FrontCut pf t ls
  /-- The symbol table, the groups or the number of tables of lists. -/
  | groups {xs : List MapLine} : Preamble pf t → TypesLog pf t xs →
      ((∀ c, t.withId 14 ≠ [c]) ∨ (∀ g, ¬ Optionally (fun c g => GroupsSay c.2.records g) [] (t.withId 10) g) ∨
        2 ≤ (t.withId 9).length) → FrontCut pf t xs
  /-- The lists or what follows. -/
  | lists {xs : List MapLine} {c : BBlock × Forest} {g : AttributeGroups} : Preamble pf t → TypesLog pf t xs → t.withId 14 = [c] →
      Optionally (fun c g => GroupsSay c.2.records g) [] (t.withId 10) g → (t.withId 9).length ≤ 1 →
      FrontCut pf t (xs ++ (t.withId 9).flatMap fun e => listLines g e.2.records)

/-- The messages for a module block: those for the tables; then the tables; then the functions, once everything but the aliases is
understood; then the aliases. -/
inductive ModuleLog (pf : Profile) (strtab : Strtab) (t : Forest) : List MapLine → Prop
  | tables {ls : List MapLine} : (∀ ctx, ¬ TablesSay pf strtab t ctx) → FrontCut pf t ls → ModuleLog pf strtab t ls
  | functions {ls : List MapLine} {ctx : MapCtx} : TablesSay pf strtab t ctx → FrontLog pf t ls →
      (∀ fs, ¬ SaysFunctions pf t ctx fs) → ModuleLog pf strtab t (ls ++ [.reifying (tablesShown ctx)])
  | aliases {ls : List MapLine} {ctx : MapCtx} {fs : List FunctionRecord} : TablesSay pf strtab t ctx → FrontLog pf t ls →
      SaysFunctions pf t ctx fs → (∀ as, ¬ Each (fun r a => AliasSays ctx r.fields a) (withCode t.records 14) as) →
      ModuleLog pf strtab t (ls ++ [.reifying (tablesShown ctx), .functions fs])
  | all {ls : List MapLine} {ctx : MapCtx} {fs : List FunctionRecord} {as : List Alias} : TablesSay pf strtab t ctx →
      FrontLog pf t ls → SaysFunctions pf t ctx fs → Each (fun r a => AliasSays ctx r.fields a) (withCode t.records 14) as →
      ModuleLog pf strtab t (ls ++ [.reifying (tablesShown ctx), .functions fs, .aliases as])

/-- Where the log ends if a module block is refused for the reason `e`. For a type: with what led to it, or with nothing if the types
are not even declared as they should be. For a list of attributes that refers to a group that is not there: with its number. For a
function or its body: with the tables of the module. For an alias: with the functions. -/
def LogEnds (pf : Profile) (strtab : Strtab) (t : Forest) (e : ModuleError) (ls : List MapLine) : Prop :=
  match e with
  | .typeTableBlock e => ∃ d, t.withId 17 = [d] ∧ (((∀ ds, ¬ Declares pf d.2.records ds) ∧ ls = []) ∨
      ∃ ds tl, Declares pf d.2.records ds ∧ TableStuck ds tl e ∧ ls.map asTypeLine = tl.map some)
  | .attributeBlock (.badAttributeGroup i) => ls.getLast? = some (.groupId i)
  | .functionRecord _ | .functionBlock _ => ∃ ctx, TablesSay pf strtab t ctx ∧ ls.getLast? = some (.reifying (tablesShown ctx))
  | .alias _ => ∃ ctx fs, TablesSay pf strtab t ctx ∧ SaysFunctions pf t ctx fs ∧ ls.getLast? = some (.functions fs)
  | _ => True

/-! ## Files -/

/-- The messages for one module of a file: none, unless its string table and its identification are understood and there is a
module block. -/
inductive PartsLog (pf : Profile) (p : Parts (BBlock × Forest)) : List MapLine → Prop
  | nothing : ((∀ c bs, p.strtab = some c → ¬ TableSays pf c.2.records bs) ∨
      (∀ i, ¬ IdentificationSays pf p.identification.2.records i) ∨ p.module = none) → PartsLog pf p []
  | block {c d : BBlock × Forest} {strtab : Strtab} {i : Identification} {ls : List MapLine} : p.strtab = some c →
      TableSays pf c.2.records strtab.bytes → IdentificationSays pf p.identification.2.records i → p.module = some d →
      ModuleLog pf strtab d.2 ls → PartsLog pf p ls

/-- The messages for the modules of a file: those for each, up to the first that does not map. -/
inductive FileLog (pf : Profile) (target : Str) : List (Parts (BBlock × Forest)) → List MapLine → Prop
  | nil : FileLog pf target [] []
  | cons {p : Parts (BBlock × Forest)} {ps : List (Parts (BBlock × Forest))} {ls ms : List MapLine} :
      (∃ m, PartsSay pf target p m) → PartsLog pf p ls → FileLog pf target ps ms → FileLog pf target (p :: ps) (ls ++ ms)
  | stop {p : Parts (BBlock × Forest)} {ps : List (Parts (BBlock × Forest))} {ls : List MapLine} :
      (∀ m, ¬ PartsSay pf target p m) → PartsLog pf p ls → FileLog pf target (p :: ps) ls

end Verif.Spec
