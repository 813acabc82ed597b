import Verif.Bitstream.Parser
import Verif.Support.Enums
import Verif.Mapper.Utf8

/-! Unrolling a bitstream into blocks and records: `llvm-mapper/src/unroll.rs`. -/

namespace Verif

/-! ## Block ids -/

/-- `llvm-mapper/src/block/mod.rs:47-54`: `BlockId`. -/
inductive BlockId where
  | reserved (id : ReservedBlockId)
  | ir (id : IrBlockId)
  | unknown (id : U64)
deriving DecidableEq, Repr

/-- `llvm-mapper/src/block/mod.rs:68-77`: `From<u64> for BlockId`. -/
def BlockId.ofU64 (v : U64) : BlockId :=
  match (tryFromPrimitive v : Option ReservedBlockId) with
  | some r => .reserved r
  | none =>
    match (tryFromPrimitive v : Option IrBlockId) with
    | some i => .ir i
    | none => .unknown v

/-! ## Records -/

/-- `llvm-mapper/src/record/mod.rs:26-36`: `RecordStringError`. The payloads of the standard library's conversion errors
are left out. -/
inductive RecordStringError where
  | badIndex (idx len : Nat)
  | badCharacter
  | badEncoding
deriving DecidableEq, Repr

/-- `llvm-mapper/src/record/mod.rs:41-48`: `RecordBlobError`. -/
inductive RecordBlobError where
  | badIndex (idx len : Nat)
  | badByte
deriving DecidableEq, Repr

/-- `fields.iter().map(|f| u8::try_from(*f)).collect::<Result<Vec<_>, _>>()`, `llvm-mapper/src/unroll.rs:42-45,62-65`. -/
def toBytes : List U64 → Option (List U8)
  | [] => some []
  | f :: fs =>
    if f.toNat < 256 then
      match toBytes fs with
      | some bs => some (f.setWidth 8 :: bs)
      | none => none
    else none

/-- `self.0.fields.len() - 1`, `llvm-mapper/src/unroll.rs:37,57`: underflows for a record without fields. -/
def lenMinus1 {ε : Type} (pf : Profile) (len : Nat) : Out ε Nat :=
  if len = 0 then
    match pf with
    | .debug => .panic .recordLenSub
    | .release => .ok (2 ^ 64 - 1)
  else .ok (len - 1)

/-- `fields[idx..]` -/
def fieldsFrom {ε : Type} (fields : List U64) (idx : U64) : Out ε (List U64) :=
  if idx.toNat ≤ fields.length then .ok (fields.drop idx.toNat) else .panic .recordSlice

/-- `llvm-mapper/src/unroll.rs:22` and `llvm-bitstream/src/record.rs`: an unrolled `Record` is a bitstream record.
`llvm-mapper/src/unroll.rs:34-49`: `try_string`. -/
def BRecord.tryString (pf : Profile) (r : BRecord) (idx : U64) : Out RecordStringError Str := do
  let last ← lenMinus1 pf r.fields.length
  if idx.toNat ≥ last then .err (.badIndex idx.toNat r.fields.length)
  else do
    let fs ← fieldsFrom r.fields idx
    let raw ← Out.ofOption .badCharacter (toBytes fs)
    Out.ofOption .badEncoding (utf8Decode raw)

/-- `llvm-mapper/src/unroll.rs:54-66`: `try_blob`. -/
def BRecord.tryBlob (pf : Profile) (r : BRecord) (idx : U64) : Out RecordBlobError (List U8) := do
  let last ← lenMinus1 pf r.fields.length
  if idx.toNat ≥ last then .err (.badIndex idx.toNat r.fields.length)
  else do
    let fs ← fieldsFrom r.fields idx
    Out.ofOption .badByte (toBytes fs)

/-- `llvm-mapper/src/unroll.rs:77-93`: `ConsistencyError`. -/
inductive ConsistencyError where
  | missingBlock (id : BlockId)
  | tooManyBlocks (id : BlockId)
  | missingRecord (code : U64)
  | tooManyRecords (code : U64)
deriving DecidableEq, Repr

/-- `llvm-mapper/src/unroll.rs:97`: `Records`. -/
abbrev Records := List BRecord

/-- `llvm-mapper/src/unroll.rs:104-110`: `by_code`. -/
def Records.byCode (rs : Records) (code : U64) : List BRecord := rs.filter fun r => r.code == code

/-- `llvm-mapper/src/unroll.rs:116-118`: `one`. -/
def Records.one (rs : Records) (code : U64) : Option BRecord := (Records.byCode rs code).head?

/-- `llvm-mapper/src/unroll.rs:122-136`: `exactly_one`. -/
def Records.exactlyOne (rs : Records) (code : U64) : Out ConsistencyError BRecord :=
  match Records.byCode rs code with
  | [] => .err (.missingRecord code)
  | [r] => .ok r
  | _ :: _ :: _ => .err (.tooManyRecords code)

/-- `llvm-mapper/src/unroll.rs:140-154`: `one_or_none`. -/
def Records.oneOrNone (rs : Records) (code : U64) : Out ConsistencyError (Option BRecord) :=
  match Records.byCode rs code with
  | [] => .ok none
  | [r] => .ok (some r)
  | _ :: _ :: _ => .err (.tooManyRecords code)

/-! ## Blocks -/

/-- `llvm-mapper/src/unroll.rs:214-227`: `Block`. `Blocks` (l. 168) is an insertion-ordered hash map from block ids to
vectors of blocks; here it is the list of its entries. -/
inductive UBlock where
  | mk (id : BlockId) (records : List BRecord) (blocks : List (BlockId × List UBlock))

def UBlock.id : UBlock → BlockId
  | mk id _ _ => id

def UBlock.records : UBlock → Records
  | mk _ rs _ => rs

/-- `llvm-mapper/src/unroll.rs:168`: `Blocks`. -/
abbrev Blocks := List (BlockId × List UBlock)

def UBlock.blocks : UBlock → Blocks
  | mk _ _ bs => bs

/-- `llvm-mapper/src/unroll.rs:230-237`: `Block::new`. -/
def UBlock.new (id : U64) : UBlock := .mk (.ofU64 id) [] []

/-- `IndexMap::get`. -/
def Blocks.get (bs : Blocks) (id : BlockId) : Option (List UBlock) := bs.lookup id

/-- `entry(k).or_insert_with(Vec::new).push(b)`, `llvm-mapper/src/unroll.rs:287-292`: extends the vector of an existing
key, or adds a new key at the end. -/
def Blocks.push (bs : Blocks) (k : BlockId) (b : UBlock) : Blocks :=
  match bs with
  | [] => [(k, [b])]
  | (k', l) :: rest => if k' = k then (k', l ++ [b]) :: rest else (k', l) :: Blocks.push rest k b

/-- `llvm-mapper/src/unroll.rs:174-177`: `by_id`. -/
def Blocks.byId (bs : Blocks) (id : BlockId) : List UBlock := (Blocks.get bs id).getD []

/-- `llvm-mapper/src/unroll.rs:179-190`: `exactly_one`. -/
def Blocks.exactlyOne (bs : Blocks) (id : BlockId) : Out ConsistencyError UBlock :=
  match Blocks.byId bs id with
  | [] => .err (.missingBlock id)
  | [b] => .ok b
  | _ :: _ :: _ => .err (.tooManyBlocks id)

/-- `llvm-mapper/src/unroll.rs:194-208`: `one_or_none`. -/
def Blocks.oneOrNone (bs : Blocks) (id : BlockId) : Out ConsistencyError (Option UBlock) :=
  match Blocks.byId bs id with
  | [] => .ok none
  | [b] => .ok (some b)
  | _ :: _ :: _ => .err (.tooManyBlocks id)

/-! ## Unrolling -/

/-- The messages of `Error::Unroll(String)`, `llvm-mapper/src/unroll.rs:281,325,354,359,402,454,466`. -/
inductive UnrollMsg where
  | unexpectedEnd
  | topLevelNonBlock
  | moduleWithoutIdentification
  | adjacentModules
  | unexpectedTopLevel (id : BlockId)
  | missingStrtab
  | missingModule
deriving DecidableEq, Repr

/-- The errors of unrolling: `Error::Parse` and `Error::Unroll`, `llvm-mapper/src/error.rs:15-21`. -/
inductive UErr where
  | parse (e : BErr)
  | unroll (m : UnrollMsg)
deriving DecidableEq, Repr

/-- The records of a block with one more, `llvm-mapper/src/unroll.rs:284`. -/
def UBlock.pushRecord (b : UBlock) (r : BRecord) : UBlock := .mk b.id (b.records ++ [r]) b.blocks

/-- The sub-blocks of a block with one more, `llvm-mapper/src/unroll.rs:285-293`. -/
def UBlock.pushBlock (b child : UBlock) : UBlock := .mk b.id b.records (Blocks.push b.blocks child.id child)

/-- `llvm-mapper/src/unroll.rs:266-302`: `enter_block`, from the loop on, with the block unrolled so far. A call that
still needs another iteration when the fuel is used up gives `diverge`; `Unroll.fuel` is shown to be enough. The recursion
uses the call stack in Rust; `enterWithin` is the same with a limited stack. -/
def enterLoop (pf : Profile) : Nat → UBlock → StM Bitstream UErr UBlock
  | 0, _ => StM.diverge
  | n + 1, acc => fun b =>
    match Bitstream.next pf b with
    | (.done, b') => (.err (.unroll .unexpectedEnd), b')
    | (.error e, b') => (.err (.parse e), b')
    | (.panic p, b') => (.panic p, b')
    | (.diverge, b') => (.diverge, b')
    | (.item (.record r), b') => enterLoop pf n (acc.pushRecord r) b'
    | (.item (.subBlock s), b') =>
      match enterLoop pf n (UBlock.new s.blockId) b' with
      | (.ok child, b'') => enterLoop pf n (acc.pushBlock child) b''
      | (.err e, b'') => (.err e, b'')
      | (.panic p, b'') => (.panic p, b'')
      | (.diverge, b'') => (.diverge, b'')
    | (.item .endBlock, b') => (.ok acc, b')

/-- `llvm-mapper/src/unroll.rs:266-302`: `enter_block`. -/
def enterUBlock (pf : Profile) (fuel : Nat) (s : BBlock) : StM Bitstream UErr UBlock :=
  enterLoop pf fuel (UBlock.new s.blockId)

/-- `llvm-mapper/src/unroll.rs:423-428`: `PartialBitcodeModule`. -/
structure PartialModule where
  identification : UBlock
  module : Option UBlock
  strtab : Option UBlock
  symtab : Option UBlock

/-- `llvm-mapper/src/unroll.rs:432-439`: `PartialBitcodeModule::new`. -/
def PartialModule.new (identification : UBlock) : PartialModule :=
  { identification, module := none, strtab := none, symtab := none }

/-- `partial_modules.last_mut()` and the match on its module, `llvm-mapper/src/unroll.rs:353-365`. -/
def setModule (top : UBlock) : List PartialModule → Out UErr (List PartialModule)
  | [] => .err (.unroll .moduleWithoutIdentification)
  | [p] =>
    match p.module with
    | some _ => .err (.unroll .adjacentModules)
    | none => .ok [{ p with module := some top }]
  | p :: ps => do
    let ps' ← setModule top ps
    .ok (p :: ps')

/-- `for p in partial_modules.iter_mut().rev().take_while(free) { set }`, `llvm-mapper/src/unroll.rs:378-384,393-399`. -/
def setWhile (free : PartialModule → Bool) (set : PartialModule → PartialModule) (ps : List PartialModule) :
    List PartialModule :=
  let rec go : List PartialModule → List PartialModule
    | [] => []
    | p :: ps => if free p then set p :: go ps else p :: ps
  (go ps.reverse).reverse

/-- `llvm-mapper/src/unroll.rs:334-407`: what a top-level block does to the modules collected so far. -/
def addTop (ps : List PartialModule) (top : UBlock) : Out UErr (List PartialModule) :=
  match top.id with
  | .ir .identification => .ok (ps ++ [PartialModule.new top])
  | .ir .module => setModule top ps
  | .ir .strtab => .ok (setWhile (·.strtab.isNone) ({ · with strtab := some top }) ps)
  | .ir .symtab => .ok (setWhile (·.symtab.isNone) ({ · with symtab := some top }) ps)
  | id => .err (.unroll (.unexpectedTopLevel id))

/-- `llvm-mapper/src/unroll.rs:311-408`: the main loop, with the modules collected so far. -/
def unrollLoop (pf : Profile) : Nat → List PartialModule → StM Bitstream UErr (List PartialModule)
  | 0, _ => StM.diverge
  | n + 1, ps => fun b =>
    match Bitstream.next pf b with
    | (.done, b') => (.ok ps, b')
    | (.error e, b') => (.err (.parse e), b')
    | (.panic p, b') => (.panic p, b')
    | (.diverge, b') => (.diverge, b')
    | (.item e, b') =>
      match e.asBlock with
      | none => (.err (.unroll .topLevelNonBlock), b')
      | some s =>
        match enterUBlock pf n s b' with
        | (.ok top, b'') =>
          match addTop ps top with
          | .ok ps' => unrollLoop pf n ps' b''
          | .err e => (.err e, b'')
          | .panic p => (.panic p, b'')
          | .diverge => (.diverge, b'')
        | (.err e, b'') => (.err e, b'')
        | (.panic p, b'') => (.panic p, b'')
        | (.diverge, b'') => (.diverge, b'')

/-- Enough iterations for any stream: every entry takes at least one bit. -/
def unrollFuel (b : Bitstream) : Nat := b.parser.cursor.bitLen + 2

/-- `llvm-mapper/src/unroll.rs:265-408`: unrolling a bitstream, up to the mapping of the modules found. -/
def unroll (pf : Profile) (b : Bitstream) : Out UErr (List PartialModule) :=
  (unrollLoop pf (unrollFuel b) [] b).1

end Verif
