import Verif.Mapper.BytesSpec

/-!
# Specification: files put one after the other

What `llvm-cat -b` makes of two files, and what one expects of it.
-/

namespace Verif.Spec

/-- One file after the other: the first, and then the second without its magic number. -/
def join (first second : List U8) : List U8 := first ++ second.drop 4

/-- Every block of the stream is closed at its end. (One that is not need not be noticed: BLOCKINFO is not shown.) -/
def Closed (pf : Profile) (bytes : List U8) : Prop :=
  ∃ ms k, Stream pf toWord Ctx.start [] 32 ((bitsOf bytes).drop 32) ms k []

/-- And no abbreviation is registered in BLOCKINFO: the end of the stream is as the start was. -/
def Settled (pf : Profile) (bytes : List U8) : Prop :=
  ∃ ms, Stream pf toWord Ctx.start [] 32 ((bitsOf bytes).drop 32) ms Ctx.start []

/-- What becomes of a module when blocks follow its file: a module without a symbol table gets the first that follows, so it must be
one; otherwise it stays as it is. -/
inductive Late (pf : Profile) (following : List (BBlock × Forest)) (m : BitcodeModule) : BitcodeModule → Prop where
  | own : m.symtab ≠ none → Late pf following m m
  | none : (∀ c ∈ following, c.1.blockId ≠ 25) → Late pf following m m
  | found {c : BBlock × Forest} {s : Symtab} {pre post : List (BBlock × Forest)} : m.symtab = none → following = pre ++ c :: post →
      (∀ d ∈ pre, d.1.blockId ≠ 25) → c.1.blockId = 25 → TableSays pf c.2.records s.bytes →
      Late pf following m { m with symtab := some s }

/-- What one expects of a file that maps to `f` and another one, from how mapping the other one alone ends: the modules of both, or how
it ends. Only a module without an identification block is reported as a second one, if there are modules before. -/
def joined (f : Bitcode) : Out MapperError Bitcode → Out MapperError Bitcode
  | .ok g => .ok { modules := f.modules ++ g.modules }
  | .err e => .err (if e = .unroll .moduleWithoutIdentification ∧ f.modules ≠ [] then .unroll .adjacentModules else e)
  | .panic p => .panic p
  | .diverge => .diverge

end Verif.Spec
