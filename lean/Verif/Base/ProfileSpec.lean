import Verif.Base.Out

/-!
# What it means for the two build profiles to agree
-/

namespace Verif

/-- The panics that report an arithmetic overflow (or an over-long shift). Only builds with overflow checks have them; all
other panics (slices, indices, `unwrap`, capacities, `unimplemented!`) are the same in every build. -/
def PanicSite.overflow : PanicSite → Bool
  | .vbrShift | .seekAdd | .svbrNeg | .abbrevArraySub | .abbrevBlobSub | .abbrevIdSub | .blockLenMul | .recordLenSub
  | .strtabAdd | .bitAlignMul | .dumpScope => true
  | _ => false

/-- The outcome is a panic that reports an arithmetic overflow. -/
def Out.Overflows {ε α : Type} (x : Out ε α) : Prop := ∃ site, x = .panic site ∧ site.overflow = true

end Verif
