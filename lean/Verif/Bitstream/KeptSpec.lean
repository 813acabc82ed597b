import Verif.Bitstream.Size
import Verif.Bitstream.RunSpec

/-!
# Specification: what a reader keeps

Between two calls a reader keeps the stack of open blocks, each with the abbreviations in force in it, and the abbreviations that
BLOCKINFO registered for block ids. An abbreviation is a list of operands, and every operand has a fixed size, so what is kept is
counted in operands.
-/

namespace Verif

/-- The operands of some abbreviations. -/
def operandCount (l : List Abbrev) : Nat := (l.map fun a => a.operands.length).sum

/-- The blocks that are open: all scopes but the outermost, which is the stream itself. -/
def Bitstream.openBlocks (b : Bitstream) : Nat := b.parser.scopes.length - 1

/-- The operands kept for the open blocks. -/
def Bitstream.openOperands (b : Bitstream) : Nat := (b.parser.scopes.map fun s => operandCount s.abbrevs).sum

/-- The operands kept for the block ids in the list. -/
def Bitstream.registeredOperands (b : Bitstream) (ids : List U64) : Nat :=
  (ids.map fun id => operandCount ((b.parser.blockinfo id).getD [])).sum

end Verif
