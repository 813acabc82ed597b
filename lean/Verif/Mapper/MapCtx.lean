import Verif.Mapper.Attributes
import Verif.Mapper.DataLayout

/-! The mapping context: `llvm-mapper/src/map.rs`, and the model of COMDAT records, which is part of it:
`llvm-mapper/src/record/comdat.rs`. -/

namespace Verif

/-- `llvm-mapper/src/record/comdat.rs:44-55`: `SelectionKind`. -/
inductive SelectionKind where
  | any | exactMatch | largest | noDeduplicate | sameSize
deriving DecidableEq, Repr

/-- Discriminants, `llvm-mapper/src/record/comdat.rs:44-55`: none is given, so they count from 0. -/
def SelectionKind.code : SelectionKind → U64
  | .any => 0
  | .exactMatch => 1
  | .largest => 2
  | .noDeduplicate => 3
  | .sameSize => 4

instance : NumEnum SelectionKind where
  all := [.any, .exactMatch, .largest, .noDeduplicate, .sameSize]
  code := SelectionKind.code

instance : LawfulNumEnum SelectionKind where
  complete a := by cases a <;> decide
  nodup := by decide +kernel

/-- `llvm-mapper/src/record/comdat.rs:60-65`: `Comdat`. -/
structure Comdat where
  selectionKind : SelectionKind
  name : Str
deriving DecidableEq, Repr

/-- `llvm-mapper/src/map.rs:59-69`: `PartialMapCtx`. -/
structure PartialMapCtx where
  version : Option U64
  datalayout : DataLayout
  sectionTable : List Str
  gcTable : List Str
  strtab : Strtab
  attributeGroups : AttributeGroups
  attributes : Attributes
  typeTable : Option TypeTable
  comdats : List Comdat
deriving DecidableEq, Repr

/-- `llvm-mapper/src/map.rs:58`: `#[derive(Default)]`. -/
def PartialMapCtx.default : PartialMapCtx where
  version := none
  datalayout := .default
  sectionTable := []
  gcTable := []
  strtab := .default
  attributeGroups := []
  attributes := []
  typeTable := none
  comdats := []

/-- `llvm-mapper/src/map.rs:107-135`: `MapCtx`. -/
structure MapCtx where
  version : U64
  datalayout : DataLayout
  sectionTable : List Str
  gcTable : List Str
  strtab : Strtab
  attributeGroups : AttributeGroups
  attributes : Attributes
  typeTable : TypeTable
  comdats : List Comdat
deriving DecidableEq, Repr

/-- `llvm-mapper/src/map.rs:72-85`: `reify`. -/
def PartialMapCtx.reify (c : PartialMapCtx) : Out MapCtxError MapCtx := do
  let version ← Out.ofOption .noVersion c.version
  let typeTable ← Out.ofOption .noTypeTable c.typeTable
  .ok { version, datalayout := c.datalayout, sectionTable := c.sectionTable, gcTable := c.gcTable, strtab := c.strtab,
        attributeGroups := c.attributeGroups, attributes := c.attributes, typeTable, comdats := c.comdats }

/-- `llvm-mapper/src/map.rs:90-92`: `PartialMapCtx::use_strtab`. -/
def PartialMapCtx.useStrtab (c : PartialMapCtx) : Out MapCtxError Bool :=
  Out.ofOption .noVersion (c.version.map fun v => v ≥ 2)

/-- `llvm-mapper/src/map.rs:141-143`: `MapCtx::use_strtab`. -/
def MapCtx.useStrtab (c : MapCtx) : Bool := c.version ≥ 2

/-- `llvm-mapper/src/map.rs:148-150`: `use_relative_ids`. -/
def MapCtx.useRelativeIds (c : MapCtx) : Bool := c.version ≥ 1

end Verif
