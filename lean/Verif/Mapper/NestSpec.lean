import Verif.Mapper.Unroll

/-! Specification of how deep the blocks of an unrolled file are nested. What the compiler derives for a `Block` (dropping it, `Clone`,
`Debug`, `llvm-mapper/src/unroll.rs:212-227`) calls itself for each block in it, so this is also how many of its calls are nested. -/

namespace Verif.Spec

mutual
/-- The number of blocks on the longest way into a block. -/
def nesting : UBlock → Nat
  | .mk _ _ blocks => 1 + nestingById blocks

def nestingById : List (BlockId × List UBlock) → Nat
  | [] => 0
  | e :: rest => max (nestingByEntry e) (nestingById rest)

def nestingByEntry : BlockId × List UBlock → Nat
  | (_, us) => nestingAll us

def nestingAll : List UBlock → Nat
  | [] => 0
  | u :: us => max (nesting u) (nestingAll us)
end

/-- The number of blocks on the longest way into a module. -/
def moduleNesting (p : PartialModule) : Nat :=
  max (max (nesting p.identification) (p.module.elim 0 nesting)) (max (p.strtab.elim 0 nesting) (p.symtab.elim 0 nesting))

end Verif.Spec
