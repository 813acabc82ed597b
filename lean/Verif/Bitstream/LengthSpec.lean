import Verif.Bitstream.RunSpec

/-!
# Specification: lengths of blocks

When what blocks announce as their length is what they have.
-/

namespace Verif

/-- From `b` the calls of `next` give the entries `es`, which are records and whole blocks, and lead to `b'`. And each of the blocks,
at any depth, is as long as it says: between the call that gives its start and the call that gives its end the stream advances by
that many bytes. -/
inductive Sized (pf : Profile) : Bitstream → List StreamEntry → Bitstream → Prop where
  | nil {b : Bitstream} : Sized pf b [] b
  | record {b b₁ b' : Bitstream} {r : BRecord} {es : List StreamEntry} : Bitstream.next pf b = (.item (.record r), b₁) →
      Sized pf b₁ es b' → Sized pf b (.record r :: es) b'
  | block {b b₁ b₂ b₃ b' : Bitstream} {blk : BBlock} {body es : List StreamEntry} :
      Bitstream.next pf b = (.item (.subBlock blk), b₁) → Sized pf b₁ body b₂ → Bitstream.next pf b₂ = (.item .endBlock, b₃) →
      b₃.pos = b₁.pos + 8 * blk.len.toNat → Sized pf b₃ es b' → Sized pf b (.subBlock blk :: (body ++ .endBlock :: es)) b'

end Verif
