import Verif.Bitstream.Abbrev

/-! # Specification: the errors that can be reported

Lists of errors, each with its cause. -/

namespace Verif.Spec

/-- What opening bytes as a stream, of any kind, can report. -/
inductive OpenError : BErr → Prop where
  /-- Nothing where a word should be. -/
  | nothing : OpenError (.cursor .eof)
  /-- Less than a word where a word should be. -/
  | cut : OpenError (.cursor .short)
  /-- A wrapper that declares more than there is. -/
  | size : OpenError (.cursor .invalidLength)
  /-- A wrapper that puts the stream behind its end. -/
  | behind : OpenError (.streamParse (.seek .invalidInput))
  /-- A stream that is not of whole words. -/
  | words : OpenError (.badContainer .unaligned)
  /-- A stream without a magic. -/
  | noMagic : OpenError (.badContainer (.magic .eof))
  /-- A stream that ends inside its magic. -/
  | cutMagic : OpenError (.badContainer (.magic .short))

/-- What opening bytes that are known to be a bare stream can report. -/
inductive OpenRawError : BErr → Prop where
  | words : OpenRawError (.badContainer .unaligned)
  | noMagic : OpenRawError (.badContainer (.magic .eof))

/-- What reading an open stream can report, now or later. -/
inductive ReadError : BErr → Prop where
  /-- The data ends where something should begin. -/
  | nothing : ReadError (.cursor .eof)
  /-- The data ends inside of something. -/
  | cut : ReadError (.cursor .short)
  /-- A number of 0 bits, or of 64 and more. -/
  | size : ReadError (.cursor .invalidReadSize)
  /-- A VBR integer with chunks of less than 2 or more than 32 bits. -/
  | vbrWidth : ReadError (.cursor .invalidVbrWidth)
  /-- An unabbreviated record in BLOCKINFO whose code is not known. -/
  | infoCode (code : U64) : code ≠ 1 → code ≠ 2 → code ≠ 3 → ReadError (.badBlockInfoCode code)
  /-- An encoding of three bits that is not known. -/
  | encoding (n : U64) : n = 0 ∨ n = 6 ∨ n = 7 → ReadError (.badAbbrevOpEnc n)
  /-- A definition in BLOCKINFO that is for no block. -/
  | noBid : ReadError (.streamParse .noSetBid)
  /-- A record outside blocks. -/
  | recordOutside : ReadError (.streamParse .recordOutside)
  /-- Definitions with nothing in them, or with an array or blob in the wrong place. -/
  | noOperand : ReadError (.abbrevParse .noOperand)
  | arrayIndex : ReadError (.abbrevParse .arrayIndex)
  | arrayOfArrays : ReadError (.abbrevParse (.arrayElement .array))
  | arrayOfBlobs : ReadError (.abbrevParse (.arrayElement .blob))
  | blobIndex : ReadError (.abbrevParse .blobIndex)
  /-- An abbreviation that is not defined. Ids below 4 mean something else, and none has more than 63 bits. -/
  | undefined (id : U64) : 4 ≤ id.toNat → id.toNat < 2 ^ 63 → ReadError (.badAbbrev id)
  /-- A definition outside blocks. -/
  | defineOutside : ReadError (.badScope .noAbbrevs)
  /-- A block whose abbreviation ids have no bits. -/
  | noWidth : ReadError (.badScope (.width 0))
  /-- The end of a block outside blocks. -/
  | exitOutside : ReadError (.badScope .emptyStack)

end Verif.Spec
