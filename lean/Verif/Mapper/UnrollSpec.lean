import Verif.Mapper.Unroll
import Verif.Bitstream.RunSpec

/-! Specification of unrolling: what a stream of entries means, independently of how it is unrolled. -/

namespace Verif.Spec

/-- The contents of a block: records and sub-blocks (with what the stream says about them) in order. -/
inductive Forest where
  | nil
  | record (r : BRecord) (rest : Forest)
  | block (s : BBlock) (body rest : Forest)
deriving DecidableEq, Repr

/-- The stream entries of the contents. -/
def Forest.entries : Forest → List StreamEntry
  | nil => []
  | record r rest => .record r :: rest.entries
  | block s body rest => .subBlock s :: (body.entries ++ .endBlock :: rest.entries)

/-- The records directly in a block. -/
def Forest.records : Forest → List BRecord
  | nil => []
  | record r rest => r :: rest.records
  | block _ _ rest => rest.records

/-- The blocks directly in a block. -/
def Forest.blocks : Forest → List (BBlock × Forest)
  | nil => []
  | record _ rest => rest.blocks
  | block s body rest => (s, body) :: rest.blocks

/-- Those of them with a given numeric id. -/
def Forest.withId (t : Forest) (k : U64) : List (BBlock × Forest) := t.blocks.filter fun c => c.1.blockId == k

/-- An unrolled block stands for numeric id `id` and contents `t`: it has the id, the records directly in it, in order, and
for every id, by lookup, the sub-blocks of that id directly in it, in order; and so on inside those. -/
inductive Unrolled : U64 → Forest → UBlock → Prop
  | intro {id : U64} {t : Forest} {u : UBlock}
      (id_eq : u.id = BlockId.ofU64 id)
      (records_eq : u.records = t.records)
      (count : ∀ k, (Blocks.byId u.blocks (.ofU64 k)).length = (t.withId k).length)
      (sub : ∀ (k : U64) (i : Nat) (c : BBlock × Forest) (v : UBlock),
        (t.withId k)[i]? = some c → (Blocks.byId u.blocks (.ofU64 k))[i]? = some v → Unrolled c.1.blockId c.2 v) :
      Unrolled id t u

/-- The entries of a sequence of complete blocks. -/
def completeEntries (l : List (BBlock × Forest)) : List StreamEntry :=
  l.flatMap fun c => .subBlock c.1 :: (c.2.entries ++ [.endBlock])

/-- The entries of blocks that have been opened one inside the other and are still open, with what has been seen of their
contents. -/
def openEntries (l : List (BBlock × Forest)) : List StreamEntry :=
  l.flatMap fun c => .subBlock c.1 :: c.2.entries

/-- What follows from the way the stream ends: a complete stream gives the modules, the end inside a block is an error, an
error or a panic of the parser is passed on. -/
def ending (stillOpen : List (BBlock × Forest)) (r : Bitstream.Next) (ps : List PartialModule) :
    Out UErr (List PartialModule) :=
  match r with
  | .done => if stillOpen = [] then .ok ps else .err (.unroll .unexpectedEnd)
  | .error e => .err (.parse e)
  | .panic p => .panic p
  | _ => .diverge

/-! ## Records -/

/-- The fields are the bytes `bs`. -/
def AreBytes (fs : List U64) (bs : List U8) : Prop := fs = bs.map (·.setWidth 64)

/-- `r` is the first record with the given code. -/
def FirstWith (code : U64) (rs : List BRecord) (r : BRecord) : Prop :=
  ∃ pre post, rs = pre ++ r :: post ∧ r.code = code ∧ ∀ x ∈ pre, x.code ≠ code

/-! ## Modules and their tables -/

def isIdentification (u : UBlock) : Bool := u.id == .ir .identification
def isModule (u : UBlock) : Bool := u.id == .ir .module
def isStrtab (u : UBlock) : Bool := u.id == .ir .strtab
def isSymtab (u : UBlock) : Bool := u.id == .ir .symtab

/-- For every identification block, in order: the block itself, the first module block before the next identification
block, and the first string table and symbol table anywhere after it. -/
def pairs : List UBlock → List PartialModule
  | [] => []
  | u :: us =>
    if isIdentification u then
      { identification := u
        module := (us.takeWhile fun v => !isIdentification v).find? isModule
        strtab := us.find? isStrtab
        symtab := us.find? isSymtab } :: pairs us
    else pairs us

/-- What is wrong with a top-level block `u` after the top-level blocks `pre`, if anything. -/
def offence (pre : List UBlock) (u : UBlock) : Option UnrollMsg :=
  if isModule u then
    if pre.all (fun v => !isIdentification v) then some .moduleWithoutIdentification
    else if (pre.reverse.takeWhile fun v => !isIdentification v).any isModule then some .adjacentModules
    else none
  else if isIdentification u || isStrtab u || isSymtab u then none
  else some (.unexpectedTopLevel u.id)

/-- No block is wrong. -/
def Orderly (tops : List UBlock) : Prop := ∀ pre u post, tops = pre ++ u :: post → offence pre u = none

end Verif.Spec
