import Verif.Bitstream.Parser

/-! What the reader logs: the calls of `log::debug!` of `llvm-bitstream`, with what they print, in order. For each function that logs,
or calls one that does, there is the list of its messages up to its end, whatever its outcome. It follows the function step by step.
That the values are evaluated only if logging is on makes no difference, as evaluating them has no effect: `tell_bit`, and `scope`,
which cannot panic as there is always a scope. What is between the values, and how they are formatted, is not modelled, nor is the
message of l. 343 of `parser.rs`, for codes of BLOCKINFO that there are not. -/

namespace Verif

/-- A message, by the line that logs it. -/
inductive LogLine where
  /-- `llvm-bitstream/src/parser.rs:389-393` -/
  | advancing (scope : Scope) (bit : Nat)
  /-- `llvm-bitstream/src/parser.rs:402` -/
  | nextEntry (id : U64)
  /-- `llvm-bitstream/src/parser.rs:226-232` -/
  | entered (blockId newWidth blockLen : U64) (bit : Nat)
  /-- `llvm-bitstream/src/parser.rs:272` -/
  | exited (scope : Scope)
  /-- `llvm-bitstream/src/abbrev.rs:139` -/
  | expecting (operands : U64)
  /-- `llvm-bitstream/src/parser.rs:285` -/
  | newAbbrev (a : Abbrev)
  /-- `llvm-bitstream/src/parser.rs:323` -/
  | unabbrev (code numOpnds : U64)
  /-- `llvm-bitstream/src/parser.rs:336` -/
  | setBid (blockId : U64)
  /-- `llvm-bitstream/src/parser.rs:339` -/
  | skipBlockName
  /-- `llvm-bitstream/src/parser.rs:340-342` -/
  | skipSetRecordName
  /-- `llvm-bitstream/src/parser.rs:362` -/
  | parsed (fields : List U64)
deriving DecidableEq, Repr

namespace Log
open Parser

/-- `llvm-bitstream/src/parser.rs:209-253`: `enter_block`. -/
def enterBlock (pf : Profile) (c : Cursor) : List LogLine :=
  match cur (Cursor.readVbr pf 8) c with
  | (.ok id, c₁) =>
    match cur (Cursor.readVbr pf 4) c₁ with
    | (.ok width, c₂) =>
      match align c₂ with
      | (.ok _, c₃) =>
        if width < 1 then []
        else
          match cur (Cursor.read 32) c₃ with
          | (.ok words, c₄) =>
            if words.toNat * 4 < 2 ^ 64 ∨ pf = .release then [.entered id width (words * 4) c₄.tellBit] else []
          | _ => []
      | _ => []
    | _ => []
  | _ => []

/-- `llvm-bitstream/src/parser.rs:256-280`: `exit_block`. -/
def exitBlock : List Scope → List LogLine
  | _ :: s :: _ => [.exited s]
  | _ => []

/-- `llvm-bitstream/src/parser.rs:283-305`: `define_abbrev`, and `Abbrev::new` (`llvm-bitstream/src/abbrev.rs:124-227`). -/
def defineAbbrev (pf : Profile) (c : Cursor) : List LogLine :=
  match cur (Cursor.readVbr pf 5) c with
  | (.ok n, _) =>
    if n < 1 then []
    else
      .expecting n ::
      match (Abbrev.new pf c).1 with
      | .ok a => [.newAbbrev a]
      | _ => []
  | _ => []

/-- `llvm-bitstream/src/parser.rs:331-346`: what `parse_unabbrev` logs in BLOCKINFO. -/
def blockinfo (code : U64) (fields : List U64) : List LogLine :=
  if code = 1 then
    match fields with
    | [] => []
    | bid :: _ => [.setBid bid]
  else if code = 2 then [.skipBlockName]
  else if code = 3 then [.skipSetRecordName]
  else []

/-- `llvm-bitstream/src/parser.rs:308-349`: `parse_unabbrev`. -/
def parseUnabbrev (pf : Profile) (s : Scope) (c : Cursor) : List LogLine :=
  if s = .initial then []
  else
    match cur (Cursor.readVbr pf 6) c with
    | (.ok code, c₁) =>
      match cur (Cursor.readVbr pf 6) c₁ with
      | (.ok n, c₂) =>
        .unabbrev code n ::
        match (withCapacity n c₂ : Out BErr Unit × Cursor) with
        | (.ok _, c₃) =>
          match (readVbr6s pf n.toNat c₃).1 with
          | .ok fields => if s.isBlockinfo then blockinfo code fields else []
          | _ => []
        | _ => []
      | _ => []
    | _ => []

/-- `llvm-bitstream/src/parser.rs:352-377`: `parse_with_abbrev`. -/
def parseWithAbbrev (pf : Profile) (s : Scope) (id : U64) (c : Cursor) : List LogLine :=
  match s.getAbbrev pf id with
  | .ok a =>
    match (a.parse pf c).1 with
    | .ok fields => [.parsed fields]
    | _ => []
  | _ => []

/-- `llvm-bitstream/src/parser.rs:404-430`: what follows the abbreviation id. -/
def dispatch (pf : Profile) (scopes : List Scope) (s : Scope) (id : U64) (c : Cursor) : List LogLine :=
  if id = 0 then exitBlock scopes
  else if id = 1 then enterBlock pf c
  else if id = 2 then defineAbbrev pf c
  else if id = 3 then parseUnabbrev pf s c
  else parseWithAbbrev pf s id c

/-- `llvm-bitstream/src/parser.rs:385-430`: one round of `advance`. -/
def step (pf : Profile) (p : Parser) : List LogLine :=
  if p.cursor.exhausted then []
  else
    match p.scopes with
    | [] => []
    | s :: _ =>
      .advancing s p.cursor.tellBit ::
      match Cursor.read s.abbrevIdWidth.toNat p.cursor with
      | (.ok id, c) => .nextEntry id :: dispatch pf p.scopes s id c
      | _ => []

/-- `llvm-bitstream/src/parser.rs:384-431`: `advance`, with fuel for its recursion. -/
def advance (pf : Profile) : Nat → Parser → List LogLine
  | 0, _ => []
  | n + 1, p =>
    step pf p ++
    match Parser.step pf p with
    | (.ok none, p') => advance pf n p'
    | _ => []

/-- `llvm-bitstream/src/lib.rs:147-153`: `Iterator::next`. The fuel is that of `Parser.advance`. -/
def next (pf : Profile) (b : Bitstream) : List LogLine := advance pf (b.parser.cursor.bitLen + 1) b.parser

/-- The messages of a number of calls of `next`. -/
def calls (pf : Profile) : Nat → Bitstream → List LogLine
  | 0, _ => []
  | n + 1, b => next pf b ++ calls pf n (Bitstream.next pf b).2

end Log
/-- The messages of `Bitstream::from` itself, without those of the cursors in it (`Cursor/Log.lean`). -/
inductive FromLine where
  /-- `llvm-bitstream/src/lib.rs:75` -/
  | beginning
  /-- `llvm-bitstream/src/lib.rs:84` -/
  | wrapper
  /-- `llvm-bitstream/src/lib.rs:88` -/
  | raw
deriving DecidableEq, Repr

/-- `llvm-bitstream/src/lib.rs:74-91`: `from`. -/
def Log.from (inner : List U8) : List FromLine :=
  .beginning ::
  match (cur (Cursor.readExact .u32) (Cursor.new inner)).1 with
  | .ok magic => if magic = 0x0b17c0de then [.wrapper] else [.raw]
  | _ => []

end Verif
