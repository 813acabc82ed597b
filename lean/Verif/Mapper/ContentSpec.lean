import Verif.Mapper.ModuleSpec

/-! Specification of what mapping a file may depend on: which records and blocks are looked at, and what about them. -/

namespace Verif.Spec

/-- Two records with the same code and the same fields, however they were encoded. -/
def SameRecord (r s : BRecord) : Prop := r.code = s.code ∧ r.fields = s.fields

/-- The same records in the same order. -/
def SameRecords (rs ss : List BRecord) : Prop := Each SameRecord rs ss

/-- The first records with the code are the same, or neither has one. -/
def SameFirst (code : Nat) (rs ss : List BRecord) : Prop :=
  SameRecords ((withCode rs code).take 1) ((withCode ss code).take 1)

/-- The module records that are looked at: version, triple, data layout, assembly, section names, libraries, functions,
garbage collectors, COMDATs and aliases. Global variables [7], for one, are not. -/
def moduleCodes : List Nat := [1, 2, 3, 4, 5, 6, 8, 11, 12, 14]

/-- The blocks in a module whose records are looked at: attributes, attribute groups, function bodies, types. -/
def moduleBlocks : List U64 := [9, 10, 12, 17]

/-- The contents of two module blocks agree in what is looked at: for each of the codes, the same records in the same
order; for each of the block ids, as many blocks with the same records; and as many value symbol tables [14]. The order of
records with different codes, the order of blocks with different ids, other records and other blocks, the contents of value
symbol tables and blocks inside the blocks in the module do not enter. -/
structure SameModule (t u : Forest) : Prop where
  records : ∀ code ∈ moduleCodes, SameRecords (withCode t.records code) (withCode u.records code)
  blocks : ∀ id ∈ moduleBlocks, Each (fun c d => SameRecords c.2.records d.2.records) (t.withId id) (u.withId id)
  symbols : (t.withId 14).length = (u.withId 14).length

/-- Records and blocks before the given rest. -/
def Forest.before : List (BRecord ⊕ (BBlock × Forest)) → Forest → Forest
  | [], t => t
  | .inl r :: l, t => .record r (before l t)
  | .inr c :: l, t => .block c.1 c.2 (before l t)

/-- One change somewhere in a module block that mapping does not see: a record that is not looked at, a block that is not
looked at, the contents of a value symbol table, another place for a record among records with other codes, for a block
among blocks with other ids, and for a record among blocks. -/
inductive Unseen : Forest → Forest → Prop
  | record (l) (r : BRecord) (t : Forest) : r.code.toNat ∉ moduleCodes → Unseen (.before l (.record r t)) (.before l t)
  | block (l) (s : BBlock) (body t : Forest) : s.blockId ∉ moduleBlocks → s.blockId ≠ 14 →
      Unseen (.before l (.block s body t)) (.before l t)
  | symbols (l) (s s' : BBlock) (body body' t : Forest) : s.blockId = 14 → s'.blockId = 14 →
      Unseen (.before l (.block s body t)) (.before l (.block s' body' t))
  | swapRecords (l) (r r' : BRecord) (t : Forest) : r.code ≠ r'.code →
      Unseen (.before l (.record r (.record r' t))) (.before l (.record r' (.record r t)))
  | swapBlocks (l) (s s' : BBlock) (body body' t : Forest) : s.blockId ≠ s'.blockId →
      Unseen (.before l (.block s body (.block s' body' t))) (.before l (.block s' body' (.block s body t)))
  | moveRecord (l) (r : BRecord) (s : BBlock) (body t : Forest) :
      Unseen (.before l (.record r (.block s body t))) (.before l (.block s body (.record r t)))

/-- Two top-level blocks of the same kind that agree in what is looked at: the producer and the epoch of an identification
block, the contents of a module, the first blob of a table. -/
structure SameTop (c d : BBlock × Forest) : Prop where
  id : c.1.blockId = d.1.blockId
  module : c.1.blockId = 8 → SameModule c.2 d.2
  identification : c.1.blockId = 13 → SameFirst 1 c.2.records d.2.records ∧ SameFirst 2 c.2.records d.2.records
  table : c.1.blockId = 23 ∨ c.1.blockId = 25 → SameFirst 1 c.2.records d.2.records

end Verif.Spec
