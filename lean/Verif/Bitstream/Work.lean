import Verif.Bitstream.KeptSpec

/-! How much the reader does: the same functions as in `Cursor/Model.lean`, `Bitstream/Abbrev.lean` and `Bitstream/Parser.lean`, with a
count of steps beside the outcome. Steps are: a call of `BitCursor::read`, a call of `AbbrevOp::parse`, the copy of one operand of an
abbreviation, and a round of `advance`. These are the bodies of all loops of the reader; what stands outside loops is in proportion
to them, as is the passing on of the fields of a record (`flatten`, `collect` and `remove` in `llvm-bitstream/src/abbrev.rs:230-239` and
`llvm-bitstream/src/parser.rs:366`), each of which comes from a call of `AbbrevOp::parse`. Log messages are not counted. -/

namespace Verif

/-- A `&mut self` method whose steps are counted, whatever the outcome. -/
def WorkM (σ ε α : Type) := σ → (Out ε α × σ) × Nat

namespace WorkM
variable {σ ε ε' α β : Type}

def pure (a : α) : WorkM σ ε α := fun s => ((.ok a, s), 0)

def bind (m : WorkM σ ε α) (f : α → WorkM σ ε β) : WorkM σ ε β := fun s =>
  match m s with
  | ((.ok a, s'), n) => ((f a s').1, n + (f a s').2)
  | ((.err e, s'), n) => ((.err e, s'), n)
  | ((.panic p, s'), n) => ((.panic p, s'), n)
  | ((.diverge, s'), n) => ((.diverge, s'), n)

instance : Monad (WorkM σ ε) where
  pure := pure
  bind := bind

/-- An action that counts as `n` steps. -/
def cost (n : Nat) (m : StM σ ε α) : WorkM σ ε α := fun s => (m s, n)

/-- An action that does not count. -/
def free (m : StM σ ε α) : WorkM σ ε α := cost 0 m

/-- `n` steps. -/
def tick (n : Nat) : WorkM σ ε Unit := cost n (Pure.pure ())

/-- Convert the error. -/
def mapErr (f : ε → ε') (m : WorkM σ ε α) : WorkM σ ε' α := fun s => (((m s).1.1.mapErr f, (m s).1.2), (m s).2)

end WorkM

namespace Work
open WorkM (cost free tick mapErr)

/-- `llvm-bitcursor/src/lib.rs:297-313`: the loop of `read_vbr`. -/
def vbrLoop (pf : Profile) (width : Nat) : Nat → U64 → Nat → WorkM Cursor CErr U64
  | 0, _, _ => free StM.diverge
  | fuel + 1, result, shift => do
    let block ← cost 1 (Cursor.read width)
    match Cursor.shl64 pf (block &&& ~~~(1#64 <<< (width - 1))) shift with
    | none => free (StM.panic .vbrShift)
    | some x =>
      if (block &&& 1#64 <<< (width - 1)) ≠ 0 then vbrLoop pf width fuel (result ||| x) (shift + (width - 1))
      else pure (result ||| x)

/-- `llvm-bitcursor/src/lib.rs:284-314`: `read_vbr`, with `?` in the bitstream crate. -/
def vbr (pf : Profile) (width : Nat) : WorkM Cursor BErr U64 :=
  mapErr .cursor fun c =>
    if ¬ (2 ≤ width ∧ width ≤ 32) then free (StM.throw .invalidVbrWidth) c
    else vbrLoop pf width (c.bitLen + 1) 0 0 c

/-- `llvm-bitcursor/src/lib.rs:206-261`: `read`, with `?` in the bitstream crate. -/
def read (width : Nat) : WorkM Cursor BErr U64 := cost 1 (cur (Cursor.read width))

/-- The loops of `llvm-bitstream/src/abbrev.rs:82-84` and `102-104`. -/
def repeatFields (body : WorkM Cursor BErr (List U64)) : Nat → WorkM Cursor BErr (List U64)
  | 0 => pure []
  | n + 1 => do
    let xs ← body
    let ys ← repeatFields body n
    pure (xs ++ ys)

/-- `llvm-bitstream/src/abbrev.rs:58-110`: `AbbrevOp::parse`. -/
def op (pf : Profile) : AbbrevOp → WorkM Cursor BErr (List U64)
  | .literal val => do
    tick 1
    pure [val]
  | .vbr width => do
    tick 1
    let v ← vbr pf width.toNat
    pure [v]
  | .fixed width => do
    tick 1
    let v ← cost 1 (cur (Cursor.readAs .u64 width.toNat))
    pure [v]
  | .array elem => do
    tick 1
    let arrayLen ← vbr pf 6
    free (withCapacity arrayLen)
    repeatFields (op pf elem) arrayLen.toNat
  | .char6 => do
    tick 1
    let c ← cost 1 (cur (Cursor.readAs .u8 6))
    let v ← free (decodeChar6 c)
    pure [v]
  | .blob => do
    tick 1
    let blobLen ← vbr pf 6
    free align
    free (withCapacity blobLen)
    let fields ← repeatFields (do let b ← cost 1 (cur (Cursor.readExact .u8)); pure [b]) blobLen.toNat
    free align
    pure fields

/-- `llvm-bitstream/src/abbrev.rs:231-238`: the operands of an abbreviation in order. -/
def fields (pf : Profile) : List AbbrevOp → WorkM Cursor BErr (List U64)
  | [] => pure []
  | o :: ops => do
    let xs ← op pf o
    let ys ← fields pf ops
    pure (xs ++ ys)

/-- `llvm-bitstream/src/abbrev.rs:186-201`: the element type of an array operand. -/
def arrayElem (pf : Profile) : WorkM Cursor BErr AbbrevOp := do
  let _ ← read 1
  let e ← read 3
  let elemEnc ← free (AbbrevOpEnc.tryFrom e)
  match elemEnc with
  | .fixed => do
    let w ← vbr pf 5
    pure (.fixed w)
  | .vbr => do
    let w ← vbr pf 5
    pure (.vbr w)
  | .char6 => pure .char6
  | elemEnc => free (StM.throw (.abbrevParse (.arrayElement elemEnc)))

/-- `llvm-bitstream/src/abbrev.rs:170-215`: one non-literal operand of a definition. -/
def encodedOperand (pf : Profile) (num idx : U64) : WorkM Cursor BErr (AbbrevOp × Bool) := do
  let e ← read 3
  let enc ← free (AbbrevOpEnc.tryFrom e)
  match enc with
  | .fixed => do
    let w ← vbr pf 5
    pure (.fixed w, false)
  | .vbr => do
    let w ← vbr pf 5
    pure (.vbr w, false)
  | .array => do
    let last2 ← free (subU64 pf .abbrevArraySub num 2)
    if idx ≠ last2 then free (StM.throw (.abbrevParse .arrayIndex))
    else do
      let elem ← arrayElem pf
      pure (.array elem, true)
  | .char6 => pure (.char6, false)
  | .blob => do
    let last ← free (subU64 pf .abbrevBlobSub num 1)
    if idx ≠ last then free (StM.throw (.abbrevParse .blobIndex))
    else pure (.blob, false)

/-- `llvm-bitstream/src/abbrev.rs:154-224`: the loop over the operands of a definition. -/
def operands (pf : Profile) (num : U64) : Nat → WorkM Cursor BErr (List AbbrevOp)
  | 0 => pure []
  | remaining + 1 => do
    let operandKind ← read 1
    if operandKind = 1 then do
      let val ← vbr pf 8
      let ops ← operands pf num remaining
      pure (.literal val :: ops)
    else do
      let (o, doneEarly) ← encodedOperand pf num (num - BitVec.ofNat 64 (remaining + 1))
      if doneEarly then pure [o]
      else do
        let ops ← operands pf num remaining
        pure (o :: ops)

/-- `llvm-bitstream/src/abbrev.rs:124-227`: `Abbrev::new`. -/
def abbrevNew (pf : Profile) : WorkM Cursor BErr Abbrev := do
  let num ← vbr pf 5
  if num < 1 then free (StM.throw (.abbrevParse .noOperand))
  else do
    let ops ← operands pf num num.toNat
    pure { operands := ops }

/-- Run a cursor action on the parser's cursor. -/
def onCursor {α : Type} (m : WorkM Cursor BErr α) : WorkM Parser BErr α := fun p =>
  (((m p.cursor).1.1, { p with cursor := (m p.cursor).1.2 }), (m p.cursor).2)

/-- `llvm-bitstream/src/parser.rs:209-253`: `enter_block`. L. 238 copies the abbreviations registered for the block. -/
def enterBlock (pf : Profile) : WorkM Parser BErr (Option StreamEntry) := do
  let blockId ← onCursor (vbr pf 8)
  let newWidth ← onCursor (vbr pf 4)
  free (Parser.onCursor align)
  if newWidth < 1 then free (StM.throw (.badScope (.width newWidth)))
  else do
    let words ← onCursor (read 32)
    let blockLen ← free (Parser.mul4 pf words)
    free (Parser.pushScope (Scope.new newWidth blockId))
    let p ← free StM.get
    match p.blockinfo blockId with
    | some abbrevs => cost (operandCount abbrevs) (Parser.scopeMut (Scope.extendAbbrevs abbrevs))
    | none => pure ()
    let s ← free Parser.scope
    if s.isBlockinfo then pure none
    else pure (some (.subBlock { blockId := blockId, len := blockLen }))

/-- `llvm-bitstream/src/parser.rs:283-305`: `define_abbrev`. What follows the definition only moves it. -/
def defineAbbrev (pf : Profile) : WorkM Parser BErr Unit := do
  let a ← onCursor (abbrevNew pf)
  free do
    let s ← Parser.scope
    if s.isBlockinfo then
      match s.blockinfoBlockId with
      | none => StM.throw (.streamParse .noSetBid)
      | some id => Parser.pushBlockinfo id a
    else
      Parser.scopeMut (Scope.extendAbbrevs [a])

/-- `llvm-bitstream/src/parser.rs:325-328`: the operands of an unabbreviated record. -/
def vbr6s (pf : Profile) : Nat → WorkM Cursor BErr (List U64)
  | 0 => pure []
  | n + 1 => do
    let x ← vbr pf 6
    let xs ← vbr6s pf n
    pure (x :: xs)

/-- `llvm-bitstream/src/parser.rs:308-349`: `parse_unabbrev`. -/
def parseUnabbrev (pf : Profile) : WorkM Parser BErr (Option StreamEntry) := do
  let s ← free Parser.scope
  if s = .initial then free (StM.throw (.streamParse .recordOutside))
  else do
    let code ← onCursor (vbr pf 6)
    let numOpnds ← onCursor (vbr pf 6)
    free (withCapacity numOpnds)
    let fields ← onCursor (vbr6s pf numOpnds.toNat)
    free do
      let s ← Parser.scope
      if s.isBlockinfo then do
        let c ← Parser.BlockInfoCode.tryFrom code
        match c with
        | .setBid =>
          match fields with
          | [] => StM.panic .setBidField
          | bid :: _ => do
            Parser.scopeMut (Scope.setBlockinfoBlockId bid)
            pure none
        | .blockName => pure none
        | .setRecordName => pure none
      else
        pure (some (.record { abbrevId := none, code := code, fields := fields }))

/-- `llvm-bitstream/src/parser.rs:352-377`: `parse_with_abbrev`. L. 359 copies the abbreviation. -/
def parseWithAbbrev (pf : Profile) (abbrevId : U64) : WorkM Parser BErr (Option StreamEntry) := do
  let s ← free Parser.scope
  let a ← free (StM.lift (s.getAbbrev pf abbrevId))
  tick a.operands.length
  let xs ← onCursor (fields pf a.operands)
  free (match xs with
    | [] => StM.panic .recordCodeRemove
    | code :: xs => do
      let s ← Parser.scope
      if s.isBlockinfo then pure none
      else pure (some (.record { abbrevId := some abbrevId, code := code, fields := xs })))

/-- `llvm-bitstream/src/parser.rs:404-430`: what follows the abbreviation id. -/
def dispatch (pf : Profile) (id : U64) : WorkM Parser BErr (Option StreamEntry) :=
  if id = 0 then free Parser.exitBlock
  else if id = 1 then enterBlock pf
  else if id = 2 then do
    defineAbbrev pf
    pure none
  else if id = 3 then parseUnabbrev pf
  else parseWithAbbrev pf id

/-- `llvm-bitstream/src/parser.rs:385-430`: one round of `advance`. -/
def step (pf : Profile) : WorkM Parser BErr (Option StreamEntry) := do
  tick 1
  let p ← free StM.get
  if p.cursor.exhausted then free (StM.throw .exhausted)
  else do
    let s ← free Parser.scope
    let id ← onCursor (read s.abbrevIdWidth.toNat)
    dispatch pf id

/-- `llvm-bitstream/src/parser.rs:384-431`: `advance`, with fuel for its recursion. -/
def advanceFuel (pf : Profile) : Nat → WorkM Parser BErr StreamEntry
  | 0 => free StM.diverge
  | fuel + 1 => do
    let r ← step pf
    match r with
    | some e => pure e
    | none => advanceFuel pf fuel

/-- `llvm-bitstream/src/parser.rs:384-431`: `advance`. -/
def advance (pf : Profile) : WorkM Parser BErr StreamEntry := fun p => advanceFuel pf (p.cursor.bitLen + 1) p

/-- `llvm-bitstream/src/lib.rs:147-153`: the steps of a call of `next`. -/
def next (pf : Profile) (b : Bitstream) : Nat := (advance pf b.parser).2

/-- The steps of a number of calls of `next`. -/
def calls (pf : Profile) : Nat → Bitstream → Nat
  | 0, _ => 0
  | n + 1, b => next pf b + calls pf n (Bitstream.next pf b).2

end Work
end Verif
