import Verif.Cursor.Model

/-!
# Model of `llvm-bitstream/src/{error,abbrev,record}.rs`
-/

namespace Verif

/-- `llvm-support/src/bitcodes.rs:96-107`: `AbbrevOpEnc`. -/
inductive AbbrevOpEnc where
  | fixed | vbr | array | char6 | blob
deriving DecidableEq, Repr

/-- The messages of `Error::BadContainer`: `llvm-bitstream/src/lib.rs:56` and `63-66`. Here and below a message is named, and what it
quotes is kept; its text is left out. -/
inductive ContainerMsg where
  | unaligned
  | magic (e : CErr)
deriving DecidableEq, Repr

/-- The messages of `Error::StreamParse`: `llvm-bitstream/src/lib.rs:131`, `llvm-bitstream/src/parser.rs:294` and `312-314`. -/
inductive StreamMsg where
  | seek (e : Cursor.IoErr)
  | noSetBid
  | recordOutside
deriving DecidableEq, Repr

/-- The messages of `Error::AbbrevParse`: `llvm-bitstream/src/abbrev.rs:134-136`, `178`, `196-199` and `210`. -/
inductive AbbrevMsg where
  | noOperand
  | arrayIndex
  | arrayElement (enc : AbbrevOpEnc)
  | blobIndex
deriving DecidableEq, Repr

/-- The messages of `Error::BadScope`: `llvm-bitstream/src/parser.rs:93-95`, `109-111`, `156-158`, `216-219` and `263-265`. -/
inductive ScopeMsg where
  | noAbbrevs
  | noRecords
  | noBlockinfo
  | width (w : U64)
  | emptyStack
deriving DecidableEq, Repr

/-- `llvm-bitstream/src/error.rs:10-43`: `Error`. The errors of conversions carry the number that could not be converted. -/
inductive BErr where
  | exhausted
  | cursor (e : CErr)
  | badContainer (m : ContainerMsg)
  | badBlockInfoCode (number : U64)
  | badAbbrevOpEnc (number : U64)
  | streamParse (m : StreamMsg)
  | abbrevParse (m : AbbrevMsg)
  | badAbbrev (id : U64)
  | badScope (m : ScopeMsg)
deriving DecidableEq, Repr

/-- An action on the cursor in the bitstream crate. -/
abbrev BM := StM Cursor BErr

/-- `?` on a cursor result: `Error::Cursor(#[from] CursorError)`, `llvm-bitstream/src/error.rs:17`. -/
def cur {α : Type} (m : CurM α) : BM α := StM.mapErr .cursor m

/-- `cur.align32()`, which cannot fail. -/
def align : BM Unit := StM.modify Cursor.align32

/-- `Vec::<u64>::with_capacity(n)`: panics with "capacity overflow" when `n * 8` exceeds `isize::MAX`.
(Failure to allocate a smaller amount aborts the process and is not modelled.) -/
def withCapacity {σ ε : Type} (n : U64) : StM σ ε Unit :=
  if n.toNat * 8 > 2^63 - 1 then StM.panic .capacity else pure ()

/-- `llvm-bitstream/src/abbrev.rs:28-43`: `AbbrevOp`. -/
inductive AbbrevOp where
  | literal (val : U64)
  | vbr (width : U64)
  | fixed (width : U64)
  | array (elem : AbbrevOp)
  | char6
  | blob
deriving DecidableEq, Repr

/-- `llvm-support/src/lib.rs:41-42`: `CHAR6_ALPHABET`, as ASCII codes of
`abcdefghijklmnopqrstuvwxyzABCDEFGHIJKLMNOPQRSTUVWXYZ0123456789._`. -/
def char6Alphabet : List U8 :=
  [97, 98, 99, 100, 101, 102, 103, 104, 105, 106, 107, 108, 109, 110, 111, 112, 113, 114, 115, 116, 117, 118,
   119, 120, 121, 122,
   65, 66, 67, 68, 69, 70, 71, 72, 73, 74, 75, 76, 77, 78, 79, 80, 81, 82, 83, 84, 85, 86, 87, 88, 89, 90,
   48, 49, 50, 51, 52, 53, 54, 55, 56, 57, 46, 95]

/-- `llvm-bitstream/src/abbrev.rs:50-54`: `decode_char6`, then `.into()` to `u64` (line 88). -/
def decodeChar6 (c : U64) : BM U64 :=
  match char6Alphabet[c.toNat]? with
  | some b => pure (b.setWidth 64)
  | none => StM.panic .char6Index

/-- `for _ in 0..n { fields.extend(body()?) }`, as in `llvm-bitstream/src/abbrev.rs:82-84` and `102-104`. -/
def repeatFields (body : BM (List U64)) : Nat → BM (List U64)
  | 0 => pure []
  | n + 1 => do
    let xs ← body
    let ys ← repeatFields body n
    pure (xs ++ ys)

/-- `llvm-bitstream/src/abbrev.rs:58-110`: `AbbrevOp::parse`. -/
def AbbrevOp.parse (pf : Profile) : AbbrevOp → BM (List U64)
  | .literal val => pure [val]
  | .vbr width => do
    let v ← cur (Cursor.readVbr pf width.toNat)
    pure [v]
  | .fixed width => do
    let v ← cur (Cursor.readAs .u64 width.toNat)
    pure [v]
  | .array elem => do
    let arrayLen ← cur (Cursor.readVbr pf 6)
    withCapacity arrayLen
    repeatFields (elem.parse pf) arrayLen.toNat
  | .char6 => do
    let c ← cur (Cursor.readAs .u8 6)
    let v ← decodeChar6 c
    pure [v]
  | .blob => do
    let blobLen ← cur (Cursor.readVbr pf 6)
    align
    withCapacity blobLen
    let fields ← repeatFields (do let b ← cur (Cursor.readExact .u8); pure [b]) blobLen.toNat
    align
    pure fields

/-- `llvm-bitstream/src/abbrev.rs:113-118`: `Abbrev`. -/
structure Abbrev where
  operands : List AbbrevOp
deriving DecidableEq, Repr

/-- `AbbrevOpEnc::try_from(u64)` (derived `TryFromPrimitive`), with `?` into
`Error::BadAbbrevOpEnc` (`llvm-bitstream/src/error.rs:30`). -/
def AbbrevOpEnc.tryFrom (v : U64) : BM AbbrevOpEnc :=
  if v = 1 then pure .fixed
  else if v = 2 then pure .vbr
  else if v = 3 then pure .array
  else if v = 4 then pure .char6
  else if v = 5 then pure .blob
  else StM.throw (.badAbbrevOpEnc v)

/-- `a - b` on `u64`: panics in debug builds on underflow, wraps in release builds. -/
def subU64 {σ ε : Type} (pf : Profile) (site : PanicSite) (a b : U64) : StM σ ε U64 :=
  if b.toNat ≤ a.toNat then pure (a - b)
  else match pf with
    | .debug => StM.panic site
    | .release => pure (a - b)

/-- `llvm-bitstream/src/abbrev.rs:186-201`: the element type of an array operand. -/
def parseArrayElem (pf : Profile) : BM AbbrevOp := do
  let _ ← cur (Cursor.read 1)
  let e ← cur (Cursor.read 3)
  let elemEnc ← AbbrevOpEnc.tryFrom e
  match elemEnc with
  | .fixed => do
    let w ← cur (Cursor.readVbr pf 5)
    pure (.fixed w)
  | .vbr => do
    let w ← cur (Cursor.readVbr pf 5)
    pure (.vbr w)
  | .char6 => pure .char6
  | elemEnc => StM.throw (.abbrevParse (.arrayElement elemEnc))

/-- `llvm-bitstream/src/abbrev.rs:170-215`: one non-literal operand of a definition with `num` operands, at
index `idx`. The flag is `done_early`. -/
def parseEncodedOperand (pf : Profile) (num idx : U64) : BM (AbbrevOp × Bool) := do
  let e ← cur (Cursor.read 3)
  let enc ← AbbrevOpEnc.tryFrom e
  match enc with
  | .fixed => do
    let w ← cur (Cursor.readVbr pf 5)
    pure (.fixed w, false)
  | .vbr => do
    let w ← cur (Cursor.readVbr pf 5)
    pure (.vbr w, false)
  | .array => do
    let last2 ← subU64 pf .abbrevArraySub num 2
    if idx ≠ last2 then StM.throw (.abbrevParse .arrayIndex)
    else do
      let elem ← parseArrayElem pf
      pure (.array elem, true)
  | .char6 => pure (.char6, false)
  | .blob => do
    let last ← subU64 pf .abbrevBlobSub num 1
    if idx ≠ last then StM.throw (.abbrevParse .blobIndex)
    else pure (.blob, false)

/-- `llvm-bitstream/src/abbrev.rs:154-224`: the loop body and what follows it, `remaining` iterations before
the end (`idx = num - remaining`). -/
def parseOperands (pf : Profile) (num : U64) : Nat → BM (List AbbrevOp)
  | 0 => pure []
  | remaining + 1 => do
    let idx : U64 := num - BitVec.ofNat 64 (remaining + 1)
    let operandKind ← cur (Cursor.read 1)
    if operandKind = 1 then do
      let val ← cur (Cursor.readVbr pf 8)
      let ops ← parseOperands pf num remaining
      pure (.literal val :: ops)
    else do
      let (op, doneEarly) ← parseEncodedOperand pf num idx
      if doneEarly then pure [op]
      else do
        let ops ← parseOperands pf num remaining
        pure (op :: ops)

/-- `llvm-bitstream/src/abbrev.rs:124-227`: `Abbrev::new`. The second check of the count (lines 142-146)
repeats the first. -/
def Abbrev.new (pf : Profile) : BM Abbrev := do
  let num ← cur (Cursor.readVbr pf 5)
  if num < 1 then StM.throw (.abbrevParse .noOperand)
  else do
    let operands ← parseOperands pf num num.toNat
    pure { operands := operands }

/-- Running the operands of an abbreviation in order, concatenating the fields
(`llvm-bitstream/src/abbrev.rs:231-238`). -/
def parseFields (pf : Profile) : List AbbrevOp → BM (List U64)
  | [] => pure []
  | op :: ops => do
    let xs ← op.parse pf
    let ys ← parseFields pf ops
    pure (xs ++ ys)

/-- `llvm-bitstream/src/abbrev.rs:230-239`: `Abbrev::parse`. -/
def Abbrev.parse (pf : Profile) (a : Abbrev) : BM (List U64) := parseFields pf a.operands

end Verif
