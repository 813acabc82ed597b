import Verif.Cursor.History

/-! What the cursor logs: the calls of `log::debug!` of `llvm-bitcursor`, with what they print, in order. For each function that logs, or
calls one that does, there is the list of its messages up to its end, whatever its outcome. That the values are evaluated only if logging is on makes no difference, as evaluating them has no effect. What is between
the values, and how they are formatted, is not modelled. -/

namespace Verif

/-- A message, by the line that logs it. -/
inductive CurLine where
  /-- `llvm-bitcursor/src/lib.rs:119` -/
  | seeking (pos : Nat)
  /-- `llvm-bitcursor/src/lib.rs:141` -/
  | toConsume (bits : Nat)
  /-- `llvm-bitcursor/src/lib.rs:192-196` -/
  | loaded (block : U64) (bitIndex : Nat)
  /-- `llvm-bitcursor/src/lib.rs:207-212` -/
  | reading (nbits : Nat) (block : U64) (bitIndex : Nat)
  /-- `llvm-bitcursor/src/lib.rs:221` -/
  | enough
  /-- `llvm-bitcursor/src/lib.rs:253-257` -/
  | partDone (block : U64) (bitIndex : Nat)
  /-- `llvm-bitcursor/src/lib.rs:300` -/
  | chunk (block masked : U64)
  /-- `llvm-bitcursor/src/lib.rs:339` -/
  | aligning
deriving DecidableEq, Repr

namespace CurLog
open Cursor

/-- `llvm-bitcursor/src/lib.rs:163-199`: `load_current_block`. -/
def load (c : Cursor) : List CurLine :=
  match loadCurrentBlock c with
  | (.ok (), c') => [.loaded c'.currentBlock c'.bitIndex]
  | _ => []

/-- `llvm-bitcursor/src/lib.rs:206-261`: `read`. -/
def read (nbits : Nat) (c : Cursor) : List CurLine :=
  .reading nbits c.currentBlock c.bitIndex ::
  if nbits = 0 ∨ nbits ≥ 64 then []
  else if c.bitIndex ≥ nbits then [.enough]
  else
    load c ++
    match Cursor.read nbits c with
    | (.ok _, c') => [.partDone c'.currentBlock c'.bitIndex]
    | _ => []

/-- `llvm-bitcursor/src/lib.rs:118-147`: `seek_bit`. -/
def seekBit (pos : Nat) (c : Cursor) : List CurLine :=
  .seeking pos ::
  if (pos / 8) / 8 * 8 > c.byteLen then []
  else .toConsume (pos % 64) :: if pos % 64 > 0 then read (pos % 64) (c.atByte ((pos / 8) / 8 * 8)) else []

/-- `llvm-bitcursor/src/lib.rs:297-313`: the loop of `read_vbr`, with fuel. The message is before the shift that can panic. -/
def readVbrLoop (pf : Profile) (width : Nat) : Nat → Nat → Cursor → List CurLine
  | 0, _, _ => []
  | fuel + 1, shift, c =>
    read width c ++
    match Cursor.read width c with
    | (.ok block, c') =>
      .chunk block (block &&& ~~~(1#64 <<< (width - 1))) ::
      match shl64 pf (block &&& ~~~(1#64 <<< (width - 1))) shift with
      | none => []
      | some _ => if (block &&& 1#64 <<< (width - 1)) ≠ 0 then readVbrLoop pf width fuel (shift + (width - 1)) c' else []
    | _ => []

/-- `llvm-bitcursor/src/lib.rs:284-314`: `read_vbr`. -/
def readVbr (pf : Profile) (width : Nat) (c : Cursor) : List CurLine :=
  if ¬ (2 ≤ width ∧ width ≤ 32) then [] else readVbrLoop pf width (c.bitLen + 1) 0 c

/-- Each operation. `seek` (`llvm-bitcursor/src/lib.rs:358-399`) logs nothing. -/
def apply (pf : Profile) : Op → Cursor → List CurLine
  | .read n, c => read n c
  | .readAs _ n, c => read n c
  | .readExact t, c => read t.bitsize c
  | .readVbr w, c => readVbr pf w c
  | .readSvbr w, c => readVbr pf w c
  | .seekBit p, c => seekBit p c
  | .seek _, _ => []
  | .align32, _ => [.aligning]

/-- The messages of a series of operations, those of each by themselves. -/
def trace (pf : Profile) : List Op → Cursor → List (List CurLine)
  | [], _ => []
  | op :: ops, c => apply pf op c :: trace pf ops (Cursor.apply pf op c).2

end CurLog

end Verif
