import Verif.Mapper.TypeSpec
import Verif.Mapper.SizeSpec

/-! Specification of the tables of types that a type block can give, and of records for each of them. -/

namespace Verif.Spec

/-- Address spaces have 23 bits. -/
def SpaceOk : Ty → Prop
  | .pointer _ a | .opaquePointer a => a.val.toNat < 2 ^ 23
  | _ => True

/-- The name of a structure is not one byte long. -/
def NameOk : Ty → Prop
  | .struct (some nm) _ _ => (utf8 nm).length ≠ 1
  | _ => True

/-- What a table of types can be: types that keep the rules, in any order and as often as one likes, as long as everything that
types are made of is in the table as well; and not more than there can be memory for. -/
structure TypesCanBe (ts : List Ty) : Prop where
  few : ts.length * 56 < 2 ^ 63
  valid : ∀ t ∈ ts, Valid t
  closed : ∀ t ∈ ts, ∀ u ∈ components t, u ∈ ts
  spaces : ∀ t ∈ ts, SpaceOk t
  names : ∀ t ∈ ts, NameOk t

/-! ## Records for them -/

/-- The place of a type in a table. -/
def tyPlace (ts : List Ty) (t : Ty) : U64 := BitVec.ofNat 64 (ts.idxOf t)

def primCode (p : Prim) : U64 :=
  match p with
  | .void => 2 | .float => 3 | .double => 4 | .label => 5 | .half => 10 | .x86Fp80 => 13 | .fp128 => 14 | .ppcFp128 => 15
  | .metadata => 16 | .x86Mmx => 17 | .token => 22 | .bFloat => 23 | .x86Amx => 24

def flag (b : Bool) : U64 := if b then 1 else 0

/-- The records for a type. A named structure is declared as an anonymous one without fields first, which its name and fields
then go to: so it does not matter whether a structure comes before it. -/
def typeRecords (ts : List Ty) : Ty → List BRecord
  | .prim p => [⟨none, primCode p, []⟩]
  | .integer w => [⟨none, 7, [w.setWidth 64]⟩]
  | .function r ps v => [⟨none, 21, flag v :: tyPlace ts r :: ps.map (tyPlace ts)⟩]
  | .pointer p a => [⟨none, 8, [tyPlace ts p, a.val.setWidth 64]⟩]
  | .opaquePointer a => [⟨none, 25, [a.val.setWidth 64]⟩]
  | .struct none fs p => [⟨none, 18, flag p :: fs.map (tyPlace ts)⟩]
  | .struct (some nm) fs p =>
    (if nm = [] then [] else [⟨none, 19, (utf8 nm).map (·.setWidth 64)⟩]) ++
      [⟨none, 18, [flag p]⟩, ⟨none, 20, flag p :: fs.map (tyPlace ts)⟩]
  | .array n e => [⟨none, 11, [n, tyPlace ts e]⟩]
  | .fixedVector n e => [⟨none, 12, [n, tyPlace ts e]⟩]
  | .scalableVector n e => [⟨none, 12, [n, tyPlace ts e, 1]⟩]

/-- The records of a type block: the count, then those of each type. -/
def tableRecords (ts : List Ty) : List BRecord := ⟨none, 1, [BitVec.ofNat 64 ts.length]⟩ :: ts.flatMap (typeRecords ts)

end Verif.Spec
