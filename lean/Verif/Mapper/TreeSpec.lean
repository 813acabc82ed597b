import Verif.Bitstream.Writer
import Verif.Mapper.UnrollSpec

/-! Specification of the contents of a file, apart from how they are encoded, and of the plainest way to write them. -/

namespace Verif.Spec

/-- The contents of a block or of a file: records, and blocks with their contents. -/
inductive Tree where
  | nil
  | record (code : U64) (fields : List U64) (rest : Tree)
  | block (id : U64) (body rest : Tree)
deriving DecidableEq, Repr

def Tree.append : Tree → Tree → Tree
  | nil, u => u
  | record code fields rest, u => record code fields (rest.append u)
  | block id body rest, u => block id body (rest.append u)

/-- The contents of written items. Definitions are no contents, nor are a block 0 (BLOCKINFO) and the records in it. -/
def Items.tree (inInfo : Bool) : Items → Tree
  | .nil => .nil
  | .define _ rest => rest.tree inInfo
  | .unabbrev code fields rest => if inInfo then rest.tree inInfo else .record code fields (rest.tree inInfo)
  | .abbrev _ code fields rest => if inInfo then rest.tree inInfo else .record code fields (rest.tree inInfo)
  | .block id _ body rest =>
    if id = 0 then (body.tree true).append (rest.tree inInfo) else .block id (body.tree false) (rest.tree inInfo)

/-- The same, as contents that a reader finds. -/
def Tree.forest : Tree → Forest
  | nil => .nil
  | record code fields rest => .record { abbrevId := none, code := code, fields := fields } rest.forest
  | block id body rest => .block { blockId := id, len := 0 } body.forest rest.forest

/-- The blocks of a file. -/
def Tree.tops (t : Tree) : List (BBlock × Forest) := t.forest.blocks

/-- Written without abbreviations, with abbreviation ids of 2 bits. -/
def Tree.items : Tree → Items
  | nil => .nil
  | record code fields rest => .unabbrev code fields rest.items
  | block id body rest => .block id 2 body.items rest.items

/-- No block in it has id 0, which is that of BLOCKINFO. -/
def Tree.NoInfo : Tree → Prop
  | nil => True
  | record _ _ rest => rest.NoInfo
  | block id body rest => id ≠ 0 ∧ body.NoInfo ∧ rest.NoInfo

/-- There are only blocks at the top. -/
def Tree.OnlyBlocks : Tree → Prop
  | nil => True
  | record _ _ _ => False
  | block _ _ rest => rest.OnlyBlocks

/-- How much there is to write: the number of fields, and 3 for each record and each block. -/
def Tree.weight : Tree → Nat
  | nil => 0
  | record _ fields rest => fields.length + 3 + rest.weight
  | block _ body rest => 3 + body.weight + rest.weight

end Verif.Spec
