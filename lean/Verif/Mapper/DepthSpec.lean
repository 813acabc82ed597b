import Verif.Bitstream.GrammarSpec
import Verif.Mapper.UnrollSpec

/-! Specification of nesting: how deep blocks lie in each other, and how many items in a row show nothing. -/

namespace Verif.Spec

/-- The largest number of blocks that are open at the same time, of entries that begin with `n` blocks open. -/
def deepest : Nat → List StreamEntry → Nat
  | n, [] => n
  | n, .subBlock _ :: es => deepest (n + 1) es
  | n, .record _ :: es => deepest n es
  | n, .endBlock :: es => max n (deepest (n - 1) es)

/-- `Silent pf pad k outer pos b n k' outer'`: the bits `b` are `n` items in a row that show no entry. -/
inductive Silent (pf : Profile) (pad : Nat → Nat) : Ctx → List Ctx → Nat → List Bool → Nat → Ctx → List Ctx → Prop where
  | nil {k : Ctx} {outer : List Ctx} {pos : Nat} : Silent pf pad k outer pos [] 0 k outer
  | cons {k k' k'' : Ctx} {outer outer' outer'' : List Ctx} {pos n : Nat} {b bs : List Bool} :
      Item pf pad k outer pos b [] k' outer' → Silent pf pad k' outer' (pos + b.length) bs n k'' outer'' →
      Silent pf pad k outer pos (b ++ bs) (n + 1) k'' outer''

end Verif.Spec
