import Verif.Bitstream.Parser
import Verif.Cursor.Spec

/-!
# Vocabulary for properties of whole iterations
-/

namespace Verif

namespace Spec

/-- The little-endian 32-bit word at the start of a byte string. -/
def word32 : List U8 → Option Nat
  | a :: b :: c :: d :: _ => some (a.toNat + 256 * b.toNat + 65536 * c.toNat + 16777216 * d.toNat)
  | _ => none

/-- The four little-endian bytes of a word. -/
def leBytes (v : U32) : List U8 :=
  [v.extractLsb' 0 8, v.extractLsb' 8 8, v.extractLsb' 16 8, v.extractLsb' 24 8]

/-- A bitcode wrapper header (LLVM bitcode format, "Bitcode Wrapper Format"): magic, version, offset, size, cpu. -/
def wrapperHeader (version offset size cpu : U32) : List U8 :=
  leBytes 0x0B17C0DE ++ leBytes version ++ leBytes offset ++ leBytes size ++ leBytes cpu

/-- The ids of the blocks open after a sequence of entries, innermost first, starting from `st`; `none` if a block
is closed or a record occurs while no block is open. -/
def openBlocks : List U64 → List StreamEntry → Option (List U64)
  | st, [] => some st
  | st, .subBlock b :: es => openBlocks (b.blockId :: st) es
  | [], .endBlock :: _ => none
  | _ :: st, .endBlock :: es => openBlocks st es
  | [], .record _ :: _ => none
  | a :: st, .record _ :: es => openBlocks (a :: st) es

end Spec

/-- Opening a stream, in one of the three ways the API offers. -/
inductive Opened (pf : Profile) : Bitstream → Prop where
  | raw {bytes : List U8} {b : Bitstream} : Bitstream.fromRaw bytes = .ok b → Opened pf b
  | wrapped {bytes : List U8} {w : BitcodeWrapper} {b : Bitstream} :
      Bitstream.fromWrapped pf bytes = .ok (w, b) → Opened pf b
  | auto {bytes : List U8} {w : Option BitcodeWrapper} {b : Bitstream} :
      Bitstream.from pf bytes = .ok (w, b) → Opened pf b

/-- Streams that can be got by opening bytes and calling `next` any number of times, whatever the calls return. -/
inductive Reach (pf : Profile) : Bitstream → Prop where
  | opened {b : Bitstream} : Opened pf b → Reach pf b
  | next {b : Bitstream} : Reach pf b → Reach pf (Bitstream.next pf b).2

/-- The same for streams that start at a multiple of 4 bytes, as every writer makes them. -/
inductive ReachAligned (pf : Profile) : Bitstream → Prop where
  | raw {bytes : List U8} {b : Bitstream} : Bitstream.fromRaw bytes = .ok b → ReachAligned pf b
  | wrapped {bytes : List U8} {w : BitcodeWrapper} {b : Bitstream} :
      Bitstream.fromWrapped pf bytes = .ok (w, b) → w.offset.toNat % 4 = 0 → ReachAligned pf b
  | next {b : Bitstream} : ReachAligned pf b → ReachAligned pf (Bitstream.next pf b).2

/-- The bits not yet consumed. -/
def Bitstream.remaining (b : Bitstream) : List Bool :=
  (Spec.bitsOf (b.parser.cursor.inner.take b.parser.cursor.byteLen)).drop b.parser.cursor.tellBit

/-- The error for a word of which only `n` bits (or bytes) are there. -/
def cutError (n : Nat) : CErr := if n = 0 then .eof else .short

/-- The results of `n` calls of `next`, whatever they are, and the stream afterwards. -/
def iterate (pf : Profile) : Nat → Bitstream → List Bitstream.Next × Bitstream
  | 0, b => ([], b)
  | n + 1, b =>
    let r := Bitstream.next pf b
    let t := iterate pf n r.2
    (r.1 :: t.1, t.2)

/-- The entries among results of `next`. -/
def items : List Bitstream.Next → List StreamEntry
  | [] => []
  | .item e :: rs => e :: items rs
  | _ :: rs => items rs

/-- What a consumer sees that stops at the first result that is not an entry, in at most `n` calls. -/
def observe (pf : Profile) : Nat → Bitstream → List Bitstream.Next
  | 0, _ => []
  | n + 1, b =>
    match Bitstream.next pf b with
    | (.item e, b') => .item e :: observe pf n b'
    | (r, _) => [r]

/-- The current position of a stream, in bits, and the length of its input. -/
def Bitstream.pos (b : Bitstream) : Nat := b.parser.cursor.tellBit
def Bitstream.len (b : Bitstream) : Nat := b.parser.cursor.bitLen

end Verif
