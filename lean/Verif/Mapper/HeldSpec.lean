import Verif.Mapper.Unroll

/-! Specification of how much the blocks of an unrolled file hold. -/

namespace Verif.Spec

mutual
/-- The fields of all records in a block, at any depth. -/
def fieldsHeld : UBlock → Nat
  | .mk _ records blocks => (records.map fun r => r.fields.length).sum + fieldsHeldById blocks

def fieldsHeldById : List (BlockId × List UBlock) → Nat
  | [] => 0
  | e :: rest => fieldsHeldByEntry e + fieldsHeldById rest

def fieldsHeldByEntry : BlockId × List UBlock → Nat
  | (_, us) => fieldsHeldByAll us

def fieldsHeldByAll : List UBlock → Nat
  | [] => 0
  | u :: us => fieldsHeld u + fieldsHeldByAll us
end

/-- The fields that a module has for itself: in its identification and its module block. -/
def ownFields (p : PartialModule) : Nat := fieldsHeld p.identification + p.module.elim 0 fieldsHeld

/-- The fields that a module has in its string and its symbol table. -/
def tableFields (p : PartialModule) : Nat := p.strtab.elim 0 fieldsHeld + p.symtab.elim 0 fieldsHeld

end Verif.Spec
