import Verif.Bitstream.Abbrev

/-!
# Model of `llvm-bitstream/src/{parser,lib}.rs`
-/

namespace Verif

/-- `llvm-bitstream/src/record.rs:8-18`: `Record`. -/
structure BRecord where
  abbrevId : Option U64
  code : U64
  fields : List U64
deriving DecidableEq, Repr

/-- `llvm-bitstream/src/record.rs:42-47`: `Block`. -/
structure BBlock where
  blockId : U64
  len : U64
deriving DecidableEq, Repr

/-- `llvm-bitstream/src/parser.rs:18-27`: `StreamEntry`. -/
inductive StreamEntry where
  | endBlock
  | subBlock (b : BBlock)
  | record (r : BRecord)
deriving DecidableEq, Repr

/-- `llvm-bitstream/src/parser.rs:33-38`: `as_block`. -/
def StreamEntry.asBlock : StreamEntry → Option BBlock
  | .subBlock b => some b
  | _ => none

/-- `llvm-bitstream/src/parser.rs:47-55`: `Scope`. -/
inductive Scope where
  | initial
  | block (abbrevIdWidth blockId : U64) (blockinfoBlockId : Option U64) (abbrevs : List Abbrev)
deriving DecidableEq, Repr

/-- `llvm-bitstream/src/parser.rs:65-72`: `Scope::new`. -/
def Scope.new (width blockId : U64) : Scope := .block width blockId none []

/-- `llvm-bitstream/src/parser.rs:75-82`: `abbrev_id_width`; `INITIAL_ABBREV_ID_WIDTH` is 2
(`llvm-support/src/lib.rs:30`). -/
def Scope.abbrevIdWidth : Scope → U64
  | .initial => 2
  | .block w _ _ _ => w

/-- `llvm-bitstream/src/parser.rs:88-101`: `extend_abbrevs`. -/
def Scope.extendAbbrevs (new : List Abbrev) : Scope → Out BErr Scope
  | .initial => .err (.badScope .noAbbrevs)
  | .block w id bid abbrevs => .ok (.block w id bid (abbrevs ++ new))

/-- `llvm-bitstream/src/parser.rs:107-117`: `get_abbrev`. -/
def Scope.getAbbrev (pf : Profile) (abbrevId : U64) : Scope → Out BErr Abbrev
  | .initial => .err (.badScope .noRecords)
  | .block _ _ _ abbrevs =>
    if abbrevId.toNat < 4 then
      match pf with
      | .debug => .panic .abbrevIdSub
      | .release => Out.ofOption (.badAbbrev abbrevId) (abbrevs[(abbrevId - 4).toNat]?)
    else
      Out.ofOption (.badAbbrev abbrevId) (abbrevs[(abbrevId - 4).toNat]?)

/-- `llvm-bitstream/src/parser.rs:123-128`: `is_blockinfo`; `ReservedBlockId::BlockInfo` is 0. -/
def Scope.isBlockinfo : Scope → Bool
  | .initial => false
  | .block _ id _ _ => id == 0

/-- `llvm-bitstream/src/parser.rs:134-141`: `blockinfo_block_id`. -/
def Scope.blockinfoBlockId : Scope → Option U64
  | .initial => none
  | .block _ _ bid _ => bid

/-- `llvm-bitstream/src/parser.rs:147-159`: `set_blockinfo_block_id`. -/
def Scope.setBlockinfoBlockId (bid : U64) : Scope → Out BErr Scope
  | .initial => .err (.badScope .noBlockinfo)
  | .block w id _ abbrevs => .ok (.block w id (some bid) abbrevs)

/-- `llvm-bitstream/src/parser.rs:171-175`: `StreamParser`. The scope stack is a list whose head is the
*last* element of the Rust vector. The hash map is the function it denotes. -/
structure Parser where
  cursor : Cursor
  scopes : List Scope
  blockinfo : U64 → Option (List Abbrev)

/-- `llvm-bitstream/src/parser.rs:181-187`: `StreamParser::new`. -/
def Parser.new (c : Cursor) : Parser :=
  { cursor := c, scopes := [.initial], blockinfo := fun _ => none }

/-- A `&mut self` method of the parser. -/
abbrev PM := StM Parser BErr

namespace Parser

/-- Run a cursor action on the parser's cursor. -/
def onCursor {α : Type} (m : BM α) : PM α := fun p =>
  ((m p.cursor).1, { p with cursor := (m p.cursor).2 })

/-- `llvm-bitstream/src/parser.rs:190-195`: `scope`. -/
def scope : PM Scope := fun p =>
  match p.scopes with
  | [] => (.panic .scopeUnwrap, p)
  | s :: _ => (.ok s, p)

/-- `self.scope_mut().f()?` (`llvm-bitstream/src/parser.rs:198-203`) for a method that updates the scope. -/
def scopeMut (f : Scope → Out BErr Scope) : PM Unit := fun p =>
  match p.scopes with
  | [] => (.panic .scopeUnwrap, p)
  | s :: rest =>
    match f s with
    | .ok s' => (.ok (), { p with scopes := s' :: rest })
    | .err e => (.err e, p)
    | .panic site => (.panic site, p)
    | .diverge => (.diverge, p)

/-- `self.cursor.read(32)? * 4`, `llvm-bitstream/src/parser.rs:225`. -/
def mul4 (pf : Profile) (x : U64) : PM U64 :=
  if x.toNat * 4 < 2^64 then pure (x * 4)
  else match pf with
    | .debug => StM.panic .blockLenMul
    | .release => pure (x * 4)

/-- `llvm-bitstream/src/parser.rs:235`: `scopes.push`. -/
def pushScope (s : Scope) : PM Unit := StM.modify fun p => { p with scopes := s :: p.scopes }

/-- `llvm-bitstream/src/parser.rs:209-253`: `enter_block`. -/
def enterBlock (pf : Profile) : PM (Option StreamEntry) := do
  let blockId ← onCursor (cur (Cursor.readVbr pf 8))
  let newWidth ← onCursor (cur (Cursor.readVbr pf 4))
  onCursor align
  if newWidth < 1 then StM.throw (.badScope (.width newWidth))
  else do
    let words ← onCursor (cur (Cursor.read 32))
    let blockLen ← mul4 pf words
    pushScope (Scope.new newWidth blockId)
    let p ← StM.get
    match p.blockinfo blockId with
    | some abbrevs => scopeMut (Scope.extendAbbrevs abbrevs)
    | none => pure ()
    let s ← scope
    if s.isBlockinfo then pure none
    else pure (some (.subBlock { blockId := blockId, len := blockLen }))

/-- `llvm-bitstream/src/parser.rs:256-280`: `exit_block`. The `log::debug!` of the new scope at line 272
evaluates `self.scope()` only when logging is enabled; it cannot panic since at least one scope is left. -/
def exitBlock : PM (Option StreamEntry) := do
  onCursor align
  let p ← StM.get
  match p.scopes with
  | [] => StM.throw (.badScope .emptyStack)
  | [_] => StM.throw (.badScope .emptyStack)
  | s :: rest => do
    StM.set { p with scopes := rest }
    if s.isBlockinfo then pure none
    else pure (some .endBlock)

/-- `self.blockinfo.entry(id).or_insert_with(Vec::new).push(abbrev)`,
`llvm-bitstream/src/parser.rs:297-300`. -/
def pushBlockinfo (id : U64) (a : Abbrev) : PM Unit :=
  StM.modify fun p =>
    { p with blockinfo := fun k => if k = id then some ((p.blockinfo id).getD [] ++ [a]) else p.blockinfo k }

/-- `llvm-bitstream/src/parser.rs:283-305`: `define_abbrev`. -/
def defineAbbrev (pf : Profile) : PM Unit := do
  let a ← onCursor (Abbrev.new pf)
  let s ← scope
  if s.isBlockinfo then
    match s.blockinfoBlockId with
    | none => StM.throw (.streamParse .noSetBid)
    | some id => pushBlockinfo id a
  else
    scopeMut (Scope.extendAbbrevs [a])

/-- `llvm-bitstream/src/parser.rs:325-328`: the operands of an unabbreviated record. -/
def readVbr6s (pf : Profile) : Nat → BM (List U64)
  | 0 => pure []
  | n + 1 => do
    let x ← cur (Cursor.readVbr pf 6)
    let xs ← readVbr6s pf n
    pure (x :: xs)

/-- `llvm-support/src/bitcodes.rs:113-120`: `BlockInfoCode`. -/
inductive BlockInfoCode where
  | setBid | blockName | setRecordName
deriving DecidableEq, Repr

/-- `BlockInfoCode::try_from(u64)` with `?` into `Error::BadBlockInfoCode`. -/
def BlockInfoCode.tryFrom (v : U64) : PM BlockInfoCode :=
  if v = 1 then pure .setBid
  else if v = 2 then pure .blockName
  else if v = 3 then pure .setRecordName
  else StM.throw (.badBlockInfoCode v)

/-- `llvm-bitstream/src/parser.rs:308-349`: `parse_unabbrev`. -/
def parseUnabbrev (pf : Profile) : PM (Option StreamEntry) := do
  let s ← scope
  if s = .initial then StM.throw (.streamParse .recordOutside)
  else do
    let code ← onCursor (cur (Cursor.readVbr pf 6))
    let numOpnds ← onCursor (cur (Cursor.readVbr pf 6))
    withCapacity numOpnds
    let fields ← onCursor (readVbr6s pf numOpnds.toNat)
    let s ← scope
    if s.isBlockinfo then do
      let c ← BlockInfoCode.tryFrom code
      match c with
      | .setBid =>
        match fields with
        | [] => StM.panic .setBidField
        | bid :: _ => do
          scopeMut (Scope.setBlockinfoBlockId bid)
          pure none
      | .blockName => pure none
      | .setRecordName => pure none
    else
      pure (some (.record { abbrevId := none, code := code, fields := fields }))

/-- `llvm-bitstream/src/parser.rs:352-377`: `parse_with_abbrev`. -/
def parseWithAbbrev (pf : Profile) (abbrevId : U64) : PM (Option StreamEntry) := do
  let s ← scope
  let a ← StM.lift (s.getAbbrev pf abbrevId)
  let fields ← onCursor (a.parse pf)
  match fields with
  | [] => StM.panic .recordCodeRemove
  | code :: fields => do
    let s ← scope
    if s.isBlockinfo then pure none
    else pure (some (.record { abbrevId := some abbrevId, code := code, fields := fields }))

/-- `llvm-bitstream/src/parser.rs:385-430`: one round of `advance`, where `none` stands for the recursive
call `self.advance()`. `AbbrevId::from` (`llvm-bitstream/src/abbrev.rs:21-26`) is the case split on the id. -/
def step (pf : Profile) : PM (Option StreamEntry) := do
  let p ← StM.get
  if p.cursor.exhausted then StM.throw .exhausted
  else do
    let s ← scope
    let id ← onCursor (cur (Cursor.read s.abbrevIdWidth.toNat))
    if id = 0 then exitBlock
    else if id = 1 then enterBlock pf
    else if id = 2 then do
      defineAbbrev pf
      pure none
    else if id = 3 then parseUnabbrev pf
    else parseWithAbbrev pf id

/-- `llvm-bitstream/src/parser.rs:384-431`: `advance`, with fuel for its recursion. -/
def advanceFuel (pf : Profile) : Nat → PM StreamEntry
  | 0 => StM.diverge
  | fuel + 1 => do
    let r ← step pf
    match r with
    | some e => pure e
    | none => advanceFuel pf fuel

/-- `llvm-bitstream/src/parser.rs:384-431`: `advance`. Every round consumes at least one bit, so the fuel is
never used up (`Props.C22_*`). -/
def advance (pf : Profile) : PM StreamEntry := fun p => advanceFuel pf (p.cursor.bitLen + 1) p

end Parser

/-- `llvm-bitstream/src/lib.rs:24-35`: `BitcodeWrapper`. -/
structure BitcodeWrapper where
  magic : U64
  version : U64
  offset : U64
  size : U64
  cpuType : U64
deriving DecidableEq, Repr

/-- `llvm-bitstream/src/lib.rs:44-48`: `Bitstream`. -/
structure Bitstream where
  magic : U64
  parser : Parser

namespace Bitstream

/-- `llvm-bitstream/src/lib.rs:51-70`: `from_cursor`. -/
def fromCursor (c : Cursor) : Out BErr Bitstream :=
  if c.byteLen % 4 ≠ 0 then .err (.badContainer .unaligned)
  else
    match Cursor.readExact .u32 c with
    | (.ok magic, c') => .ok { magic := magic, parser := Parser.new c' }
    | (.err e, _) => .err (.badContainer (.magic e))
    | (.panic p, _) => .panic p
    | (.diverge, _) => .diverge

/-- `llvm-bitstream/src/lib.rs:99-102`: `from_raw`. -/
def fromRaw (inner : List U8) : Out BErr Bitstream := fromCursor (Cursor.new inner)

/-- `llvm-bitstream/src/lib.rs:112-118`: the five header words. -/
def readWrapper : BM BitcodeWrapper := do
  let magic ← cur (Cursor.readExact .u32)
  let version ← cur (Cursor.readExact .u32)
  let offset ← cur (Cursor.readExact .u32)
  let size ← cur (Cursor.readExact .u32)
  let cpuType ← cur (Cursor.readExact .u32)
  pure { magic, version, offset, size, cpuType }

/-- `llvm-bitstream/src/lib.rs:109-134`: `from_wrapped`. `size as usize + 20` cannot overflow. -/
def fromWrapped (pf : Profile) (inner : List U8) : Out BErr (BitcodeWrapper × Bitstream) := do
  let w ← (readWrapper (Cursor.new inner)).1
  let c ← (Cursor.newWithLen inner (w.size.toNat + 20)).mapErr .cursor
  match Cursor.seek pf (.start w.offset) c with
  | (.ok _, c') => do
    let b ← fromCursor c'
    .ok (w, b)
  | (.err e, _) => .err (.streamParse (.seek e))
  | (.panic p, _) => .panic p
  | (.diverge, _) => .diverge

/-- `llvm-bitstream/src/lib.rs:74-91`: `from`; `BITCODE_WRAPPER_MAGIC` is `0x0b17c0de`
(`llvm-support/src/lib.rs:27`). -/
def «from» (pf : Profile) (inner : List U8) : Out BErr (Option BitcodeWrapper × Bitstream) := do
  let magic ← (cur (Cursor.readExact .u32) (Cursor.new inner)).1
  if magic = 0x0b17c0de then do
    let (w, b) ← fromWrapped pf inner
    .ok (some w, b)
  else do
    let b ← fromRaw inner
    .ok (none, b)

/-- `llvm-bitstream/src/lib.rs:139-141`: `advance`. -/
def advance (pf : Profile) : StM Bitstream BErr StreamEntry := fun b =>
  let r := Parser.advance pf b.parser
  (r.1, { b with parser := r.2 })

/-- What one call of `next` gives: an item, the end, or no return. -/
inductive Next where
  | item (e : StreamEntry)
  | error (e : BErr)
  | done
  | panic (p : PanicSite)
  | diverge
deriving DecidableEq, Repr

/-- `llvm-bitstream/src/lib.rs:147-153`: `Iterator::next`. -/
def next (pf : Profile) (b : Bitstream) : Next × Bitstream :=
  match advance pf b with
  | (.ok e, b') => (.item e, b')
  | (.err .exhausted, b') => (.done, b')
  | (.err e, b') => (.error e, b')
  | (.panic p, b') => (.panic p, b')
  | (.diverge, b') => (.diverge, b')

end Bitstream
end Verif
