import Verif.Mapper.FunctionBlock
import Verif.Support.EnumSpec

/-! Specification of function bodies, as far as they are read. -/

namespace Verif.Spec

/-- The records of a function body that are read and then dropped: the block count, casts, stack allocations, loads and stores
of four fields, and `fneg` of a type in the table. -/
def Skipped (types : TypeTable) (r : BRecord) : Prop :=
  r.code = 1 ∨ (r.code.toNat ∈ [3, 19, 20, 44] ∧ r.fields.length = 4) ∨
    (r.code = 56 ∧ ∃ (v ty : U64), r.fields = [v, ty, 0] ∧ ty.toNat < types.length)

/-- The records of a function body nothing is implemented for: all that LLVM defines, but for seven. -/
def NotImplemented (r : BRecord) : Prop :=
  (∃ c, (r.code.toNat, c) ∈ functionCodeTable) ∧ r.code.toNat ∉ [1, 2, 3, 19, 20, 44, 56]

/-- The body declares its number of blocks, in the only record of that kind. -/
def DeclaresBlocks (rs : List BRecord) (n : U64) : Prop :=
  ∃ pre d post fs, rs = pre ++ d :: post ∧ d.code = 1 ∧ d.fields = n :: fs ∧ ∀ x ∈ pre ++ post, x.code ≠ 1

end Verif.Spec
