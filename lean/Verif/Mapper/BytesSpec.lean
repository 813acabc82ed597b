import Verif.Mapper.VerdictSpec
import Verif.Bitstream.FaultSpec
import Verif.Bitstream.RoundTrip
import Verif.Bitstream.DumpSpec

/-!
# Specification: bytes

What the bytes of a file are, without reference to the reader: first the container, a wrapper or none; then the stream in it, by
the grammar of bitstreams and the description of what is wrong with other bits; then the blocks of the stream.
-/

namespace Verif.Spec

/-- The offset and the size that a wrapper declares. -/
def wrapperOffset (bytes : List U8) : Nat := (word32 (bytes.drop 8)).getD 0
def wrapperSize (bytes : List U8) : Nat := (word32 (bytes.drop 12)).getD 0

/-- A file that begins with the magic number of wrappers. -/
def IsWrapper (bytes : List U8) : Prop := word32 bytes = some 0x0B17C0DE

instance (bytes : List U8) : Decidable (IsWrapper bytes) := inferInstanceAs (Decidable (_ = _))

/-- The bytes of the stream: all, or those from the offset up to 20 bytes, those of the wrapper, more than the size. -/
def payload (bytes : List U8) : List U8 :=
  if IsWrapper bytes then (bytes.take (wrapperSize bytes + 20)).drop (wrapperOffset bytes) else bytes

/-- Bytes that are not a container. -/
def ContainerBad (bytes : List U8) : Check BErr := First [
  fails (bytes.length < 4) (.cursor (cutError bytes.length)),
  fails (IsWrapper bytes ∧ bytes.length < 20) (.cursor (cutError (bytes.length % 4))),
  fails (IsWrapper bytes ∧ bytes.length < wrapperSize bytes + 20) (.cursor .invalidLength),
  fails (IsWrapper bytes ∧ wrapperSize bytes + 20 < wrapperOffset bytes) (.streamParse (.seek .invalidInput)),
  fails (IsWrapper bytes ∧ wrapperSize bytes % 4 ≠ 0) (.badContainer .unaligned),
  fails (IsWrapper bytes ∧ wrapperSize bytes + 20 < wrapperOffset bytes + 4)
    (.badContainer (.magic (cutError (wrapperSize bytes + 20 - wrapperOffset bytes)))),
  fails (¬ IsWrapper bytes ∧ bytes.length % 4 ≠ 0) (.badContainer .unaligned)]

/-- How the bits of a stream end: they are all read, or there is a failure. -/
def EndsAt (pf : Profile) (pad : Nat → Nat) (k : Ctx) (outer : List Ctx) (pos : Nat) (tail : List Bool) : Option Failure → Prop
  | none => tail = []
  | some f => NoItem pf pad k outer pos tail f

/-- `Consists pf stream tops stillOpen f`: after their first word the bytes are a bitstream of the blocks `tops`, then open the blocks
`stillOpen` one inside the other, and then end, or fail. Padding goes by pieces of the stream, so by words if the bytes are whole
words. -/
def Consists (pf : Profile) (stream : List U8) (tops stillOpen : List (BBlock × Forest)) (f : Option Failure) : Prop :=
  ∃ pre tail ms k outer, (bitsOf stream).drop 32 = pre ++ tail ∧
    Stream pf (toPiece (8 * stream.length)) Ctx.start [] 32 pre ms k outer ∧
    completeEntries tops ++ openEntries stillOpen = ms.map Entry.toStream ∧
    EndsAt pf (toPiece (8 * stream.length)) k outer (32 + pre.length) tail f

/-- A failure of the stream, as an outcome of mapping. -/
def StreamBad (f : Option Failure) : Check MapperError := fun b =>
  (∃ e, f = some (.error e) ∧ b = .error (.parse e)) ∨ ∃ s, f = some (.panic s) ∧ b = .stop (.panic s)

/-- What is wrong with the bytes of a file. -/
def BytesBad (pf : Profile) (bytes : List U8) : Check MapperError := First [
  under .parse (ContainerBad bytes),
  fun b => ∃ tops stillOpen f, Consists pf (payload bytes) tops stillOpen f ∧ First [
    TopsBad tops,
    StreamBad f,
    fails (stillOpen ≠ []) (.unroll .unexpectedEnd),
    All (PartsBad pf) (parts tops)] b]

/-- What the bytes of a file say. -/
def BytesSay (pf : Profile) (target : Str) (bytes : List U8) (f : Bitcode) : Prop :=
  (∀ b, ¬ ContainerBad bytes b) ∧ ∃ tops, Consists pf (payload bytes) tops [] none ∧ FileSays pf target tops f

/-! ## Dumps -/

/-- The header of a wrapper, if there is one. -/
def WrapperSays (bytes : List U8) : Option BitcodeWrapper → Prop
  | none => ¬ IsWrapper bytes
  | some w => IsWrapper bytes ∧ word32 bytes = some w.magic.toNat ∧ word32 (bytes.drop 4) = some w.version.toNat ∧
      word32 (bytes.drop 8) = some w.offset.toNat ∧ word32 (bytes.drop 12) = some w.size.toNat ∧
      word32 (bytes.drop 16) = some w.cpuType.toNat

/-- How a program ends that reads a stream to its end. -/
def readEnd : Option Failure → Out BErr Unit
  | none => .ok ()
  | some (.error e) => .err e
  | some (.panic s) => .panic s

/-- What dumping bytes prints, and how it ends. -/
def BytesDump (pf : Profile) (bytes : List U8) (out : Str × Out BErr Unit) : Prop :=
  (∃ e, ContainerBad bytes (.error e) ∧ out = ([], .err e)) ∨
  (∀ x, ¬ ContainerBad bytes x) ∧ ∃ tops stillOpen f w magic l, Consists pf (payload bytes) tops stillOpen f ∧
    WrapperSays bytes w ∧ word32 (payload bytes) = some magic ∧ HexText magic l ∧
    out = (dumpHeader w l ++ dumpTops tops ++ dumpOpen 0 stillOpen, readEnd f)

end Verif.Spec
