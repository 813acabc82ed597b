import Verif.Base.Out

/-!
# Model of `llvm-bitcursor/src/lib.rs`

Logging is left to `Cursor/Log.lean`. Buffer positions (`usize`) are natural numbers: a buffer has at most
`isize::MAX` bytes and a real one far fewer than 2^61, so `byte_len * 8` does not overflow.
-/

namespace Verif

/-- `llvm-bitcursor/src/error.rs`: `Error`. -/
inductive CErr where
  | eof
  | invalidLength
  | badCast
  | invalidReadSize
  | invalidVbrWidth
  | short
deriving DecidableEq, Repr

/-- `llvm-bitcursor/src/lib.rs:33-52`: `BitCursor`. -/
structure Cursor where
  byteLen : Nat
  inner : List U8
  bytePos : Nat
  currentBlock : U64
  bitIndex : Nat
deriving DecidableEq, Repr

/-- A `&mut self` method of the cursor. -/
abbrev CurM := StM Cursor CErr

namespace Cursor

/-- `llvm-bitcursor/src/lib.rs:60-68`: `BitCursor::new`. -/
def new (inner : List U8) : Cursor :=
  { byteLen := inner.length, inner := inner, bytePos := 0, currentBlock := 0, bitIndex := 0 }

/-- `llvm-bitcursor/src/lib.rs:73-85`: `BitCursor::new_with_len`. -/
def newWithLen (inner : List U8) (byteLen : Nat) : Out CErr Cursor :=
  if byteLen > inner.length then
    .err .invalidLength
  else
    .ok { byteLen := byteLen, inner := inner, bytePos := 0, currentBlock := 0, bitIndex := 0 }

/-- `llvm-bitcursor/src/lib.rs:93-95`: `bit_len`. -/
def bitLen (c : Cursor) : Nat := c.byteLen * 8

/-- `llvm-bitcursor/src/lib.rs:98-100`: `tell_bit`. The subtraction cannot underflow on a reachable
cursor (`Inv.idx_le`), so truncated subtraction is faithful. -/
def tellBit (c : Cursor) : Nat := c.bytePos * 8 - c.bitIndex

/-- `llvm-bitcursor/src/lib.rs:103-105`: `tell_byte`. -/
def tellByte (c : Cursor) : Nat := c.tellBit / 8

/-- `llvm-bitcursor/src/lib.rs:109-111`: `exhausted`. -/
def exhausted (c : Cursor) : Bool := c.bitIndex == 0 && decide (c.byteLen ≤ c.bytePos)

/-- `llvm-bitcursor/src/lib.rs:154-157`: `clear_block_state`. -/
def clearBlockState (c : Cursor) : Cursor := { c with currentBlock := 0, bitIndex := 0 }

/-- Set `byte_pos` and clear the block state, as both seeks do
(`llvm-bitcursor/src/lib.rs:129-130` and `392-396`). -/
def atByte (c : Cursor) (p : Nat) : Cursor := ({ c with bytePos := p }).clearBlockState

/-- The slice expression `&inner[a..b]`: `none` stands for the panic of an out-of-range slice. -/
def slice? (inner : List U8) (a b : Nat) : Option (List U8) :=
  if a ≤ b ∧ b ≤ inner.length then some ((inner.drop a).take (b - a)) else none

/-- `llvm-bitcursor/src/lib.rs:181-184`: the loop that assembles the block, starting at `idx`. -/
def assemble : List U8 → Nat → U64 → U64
  | [], _, acc => acc
  | b :: bs, idx, acc => assemble bs (idx + 1) (acc ||| (b.setWidth 64 <<< (idx * 8)))

/-- `llvm-bitcursor/src/lib.rs:163-199`: `load_current_block`. -/
def loadCurrentBlock : CurM Unit := fun c =>
  if c.tellByte ≥ c.byteLen then
    (.err .eof, c)
  else
    let c := c.clearBlockState
    let range := if c.tellByte + 8 < c.byteLen then (c.tellByte, c.tellByte + 8)
      else (c.tellByte, c.byteLen)
    match slice? c.inner range.1 range.2 with
    | none => (.panic .cursorSlice, c)
    | some blockBytes =>
      (.ok (), { c with
        currentBlock := assemble blockBytes 0 0
        bytePos := c.bytePos + blockBytes.length
        bitIndex := blockBytes.length * 8 })

/-- `llvm-bitcursor/src/lib.rs:206-261`: `read`. -/
def read (nbits : Nat) : CurM U64 := fun c =>
  if nbits = 0 ∨ nbits ≥ 64 then
    (.err .invalidReadSize, c)
  else if c.bitIndex ≥ nbits then
    let read := c.currentBlock &&& (BitVec.allOnes 64 >>> (64 - nbits))
    (.ok read, { c with
      currentBlock := c.currentBlock >>> nbits
      bitIndex := c.bitIndex - nbits })
  else
    let bitsLeft := nbits - c.bitIndex
    let part1 := if c.bitIndex > 0 then c.currentBlock else 0
    match loadCurrentBlock c with
    | (.err e, c) => (.err e, c)
    | (.panic p, c) => (.panic p, c)
    | (.diverge, c) => (.diverge, c)
    | (.ok (), c) =>
      if bitsLeft > c.bitIndex then
        (.err .short, c)
      else
        let part2 := c.currentBlock &&& (BitVec.allOnes 64 >>> (64 - bitsLeft))
        let c := { c with
          currentBlock := c.currentBlock >>> bitsLeft
          bitIndex := c.bitIndex - bitsLeft }
        (.ok (part1 ||| (part2 <<< (nbits - bitsLeft))), c)

/-- `llvm-bitcursor/src/lib.rs:118-147`: `seek_bit`. `& !7` rounds down to a multiple of 8. -/
def seekBit (pos : Nat) : CurM Unit := fun c =>
  let bytePos := (pos / 8) / 8 * 8
  if bytePos > c.byteLen then
    (.err .eof, c)
  else
    let c := c.atByte bytePos
    let bitsToConsume := pos % 64
    if bitsToConsume > 0 then
      match read bitsToConsume c with
      | (.ok _, c) => (.ok (), c)
      | (.err e, c) => (.err e, c)
      | (.panic p, c) => (.panic p, c)
      | (.diverge, c) => (.diverge, c)
    else
      (.ok (), c)

/-- The primitive integer types that `num::cast` can produce from a `u64` (`NumCast`). The two floating point types, which
`NumCast` covers as well, are in `Cursor/Float.lean`. -/
inductive IntTy where
  | u8 | u16 | u32 | u64 | u128 | usize
  | i8 | i16 | i32 | i64 | i128 | isize
deriving DecidableEq, Repr

/-- `llvm-bitcursor/src/lib.rs:23-27`: `Bitsize::bitsize`, `size_of::<T>() * 8`. -/
def IntTy.bitsize : IntTy → Nat
  | .u8 | .i8 => 8
  | .u16 | .i16 => 16
  | .u32 | .i32 => 32
  | .u64 | .usize | .i64 | .isize => 64
  | .u128 | .i128 => 128

/-- Largest value of the type; `num::cast` from `u64` fails exactly above it. -/
def IntTy.max : IntTy → Nat
  | .u8 => 2^8 - 1 | .u16 => 2^16 - 1 | .u32 => 2^32 - 1 | .u64 | .usize => 2^64 - 1
  | .u128 => 2^128 - 1 | .i128 => 2^127 - 1
  | .i8 => 2^7 - 1 | .i16 => 2^15 - 1 | .i32 => 2^31 - 1 | .i64 | .isize => 2^63 - 1

/-- `llvm-bitcursor/src/lib.rs:267-270`: `read_as`. The integer returned is given as a `u64` value
that the type `t` can represent. -/
def readAs (t : IntTy) (nbits : Nat) : CurM U64 := fun c =>
  match read nbits c with
  | (.ok v, c) => if v.toNat ≤ t.max then (.ok v, c) else (.err .badCast, c)
  | (.err e, c) => (.err e, c)
  | (.panic p, c) => (.panic p, c)
  | (.diverge, c) => (.diverge, c)

/-- `llvm-bitcursor/src/lib.rs:275-277`: `read_exact`. -/
def readExact (t : IntTy) : CurM U64 := readAs t t.bitsize

/-- `u64 << shift` with `shift: usize`. Overflow checks compare the amount with 64; without them the
amount is reduced modulo 64. `none` is the panic. -/
def shl64 (pf : Profile) (x : U64) (shift : Nat) : Option U64 :=
  if shift < 64 then some (x <<< shift)
  else match pf with
    | .debug => none
    | .release => some (x <<< (shift % 64))

/-- `llvm-bitcursor/src/lib.rs:297-313`: the loop of `read_vbr`, with fuel. -/
def readVbrLoop (pf : Profile) (width : Nat) : Nat → U64 → Nat → CurM U64
  | 0, _, _ => fun c => (.diverge, c)
  | fuel + 1, result, shift => fun c =>
    let blockMask : U64 := 1#64 <<< (width - 1)
    match read width c with
    | (.err e, c) => (.err e, c)
    | (.panic p, c) => (.panic p, c)
    | (.diverge, c) => (.diverge, c)
    | (.ok block, c) =>
      match shl64 pf (block &&& ~~~blockMask) shift with
      | none => (.panic .vbrShift, c)
      | some x =>
        let result := result ||| x
        if (block &&& blockMask) ≠ 0 then
          readVbrLoop pf width fuel result (shift + (width - 1)) c
        else
          (.ok result, c)

/-- `llvm-bitcursor/src/lib.rs:284-314`: `read_vbr`. The fuel exceeds the number of chunks the buffer can
hold; `diverge` is never returned (`Props.C12_vbr_total`). -/
def readVbr (pf : Profile) (width : Nat) : CurM U64 := fun c =>
  if ¬ (2 ≤ width ∧ width ≤ 32) then
    (.err .invalidVbrWidth, c)
  else
    readVbrLoop pf width (c.bitLen + 1) 0 0 c

/-- `llvm-bitcursor/src/lib.rs:321-333`: `read_svbr`. `isize` is 64 bits; the cast of a value below 2^63
keeps it. Negating `isize::MIN` would panic in debug builds. -/
def readSvbr (pf : Profile) (width : Nat) : CurM Int := fun c =>
  match readVbr pf width c with
  | (.err e, c) => (.err e, c)
  | (.panic p, c) => (.panic p, c)
  | (.diverge, c) => (.diverge, c)
  | (.ok result, c) =>
    let sgn := (result &&& 1) ≠ 0
    let result := result >>> 1
    if sgn then
      if result.toInt = -2^63 then
        match pf with
        | .debug => (.panic .svbrNeg, c)
        | .release => (.ok (-2^63), c)
      else (.ok (-result.toInt), c)
    else (.ok result.toInt, c)

/-- `llvm-bitcursor/src/lib.rs:338-347`: `align32`. -/
def align32 (c : Cursor) : Cursor :=
  if c.bitIndex ≥ 32 then
    { c with currentBlock := c.currentBlock >>> (c.bitIndex - 32), bitIndex := 32 }
  else
    c.clearBlockState

/-- `std::io::SeekFrom`. -/
inductive SeekFrom where
  | start (pos : U64)
  | fromEnd (pos : Int)
  | current (pos : Int)
deriving DecidableEq, Repr

/-- The `io::ErrorKind`s that `seek` returns. -/
inductive IoErr where
  | unsupported
  | invalidInput
deriving DecidableEq, Repr

/-- `(base as i64) + pos` where `pos : i64`, then `as u64 as usize`. `none` is the overflow panic. -/
def addI64 (pf : Profile) (base : Nat) (pos : Int) : Option Nat :=
  let sum : Int := base + pos
  if -2^63 ≤ sum ∧ sum < 2^63 then some (BitVec.ofInt 64 sum).toNat
  else match pf with
    | .debug => none
    | .release => some (BitVec.ofInt 64 sum).toNat

/-- `llvm-bitcursor/src/lib.rs:384-398`: the bounds check and update of `seek`. -/
def seekTo (off : Nat) : StM Cursor IoErr Nat := fun c =>
  if off > c.byteLen then
    (.err .invalidInput, c)
  else
    (.ok off, c.atByte off)

/-- `llvm-bitcursor/src/lib.rs:358-399`: `io::Seek::seek`. The `i64` arguments are integers in the range
of `i64`. -/
def seek (pf : Profile) (pos : SeekFrom) : StM Cursor IoErr Nat := fun c =>
  match pos with
  | .start pos => seekTo pos.toNat c
  | .fromEnd pos =>
    if pos ≥ 0 then (.err .unsupported, c)
    else match addI64 pf c.byteLen pos with
      | none => (.panic .seekAdd, c)
      | some off => seekTo off c
  | .current pos =>
    match addI64 pf c.tellByte pos with
    | none => (.panic .seekAdd, c)
    | some off => seekTo off c

/-- `llvm-bitcursor/src/lib.rs:401-403`: `stream_position`. -/
def streamPosition (c : Cursor) : Nat := c.tellByte

end Cursor
end Verif
