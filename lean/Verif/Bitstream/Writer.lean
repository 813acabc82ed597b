import Verif.Cursor.Spec

/-!
# Specification: a bitstream writer

This file is the specification against which the reader is proved. It follows the LLVM document "LLVM Bitcode
File Format", section "Bitstream Format", and does not mention the model of the reader.
-/

namespace Verif.Spec

/-- Zero bits up to the next multiple of 32. -/
def pad32 (pos : Nat) : List Bool := List.replicate ((32 - pos % 32) % 32) false

/-! ## Abbreviation definitions -/

/-- Encodings of a single value, other than literals. -/
inductive Elem where
  | fixed (width : U64)
  | vbr (width : U64)
  | char6
deriving DecidableEq, Repr

/-- A scalar operand: a literal or an encoded value. -/
inductive Scalar where
  | lit (v : U64)
  | enc (e : Elem)
deriving DecidableEq, Repr

/-- What may follow the scalars, at the end of an abbreviation. -/
inductive Tail where
  | nothing
  | array (elem : Elem)
  | blob
deriving DecidableEq, Repr

/-- An abbreviation definition. -/
structure Def where
  scalars : List Scalar
  tail : Tail
deriving DecidableEq, Repr

/-- An array counts as two abbreviation operands, one for its element type. -/
def Tail.numOps : Tail → Nat
  | .nothing => 0
  | .array _ => 2
  | .blob => 1

/-- Number of abbreviation operands. -/
def Def.numOps (d : Def) : Nat := d.scalars.length + d.tail.numOps

/-- `[0:1, encoding:3, (value:vbr5)]` -/
def Elem.defBits : Elem → List Bool
  | .fixed w => [false] ++ bitsOfNat 3 1 ++ encVbr 5 w
  | .vbr w => [false] ++ bitsOfNat 3 2 ++ encVbr 5 w
  | .char6 => [false] ++ bitsOfNat 3 4

/-- `[1:1, litvalue:vbr8]` or an encoding. -/
def Scalar.defBits : Scalar → List Bool
  | .lit v => [true] ++ encVbr 8 v
  | .enc e => e.defBits

def Tail.defBits : Tail → List Bool
  | .nothing => []
  | .array e => [false] ++ bitsOfNat 3 3 ++ e.defBits
  | .blob => [false] ++ bitsOfNat 3 5

def scalarsDefBits : List Scalar → List Bool
  | [] => []
  | s :: ss => s.defBits ++ scalarsDefBits ss

/-- The body of DEFINE_ABBREV: `[numabbrevops:vbr5, abbrevop0, abbrevop1, ...]`. -/
def Def.bits (d : Def) : List Bool :=
  encVbr 5 (BitVec.ofNat 64 d.numOps) ++ (scalarsDefBits d.scalars ++ d.tail.defBits)

/-- A definition that can be written down: at least one operand, and a count that fits. -/
def Def.Valid (d : Def) : Prop := 1 ≤ d.numOps ∧ d.numOps < 2 ^ 64

instance (d : Def) : Decidable d.Valid := inferInstanceAs (Decidable (_ ∧ _))

/-! ## Values under an abbreviation -/

/-- `'a'..'z'` is 0..25, `'A'..'Z'` is 26..51, `'0'..'9'` is 52..61, `'.'` is 62, `'_'` is 63. -/
def char6Code (v : Nat) : Option Nat :=
  if 97 ≤ v ∧ v ≤ 122 then some (v - 97)
  else if 65 ≤ v ∧ v ≤ 90 then some (v - 65 + 26)
  else if 48 ≤ v ∧ v ≤ 57 then some (v - 48 + 52)
  else if v = 46 then some 62
  else if v = 95 then some 63
  else none

/-- One encoded value, if it fits the encoding. -/
def Elem.valBits : Elem → U64 → Option (List Bool)
  | .fixed w, v => if 1 ≤ w.toNat ∧ w.toNat ≤ 63 ∧ v.toNat < 2 ^ w.toNat then some (bitsOfNat w.toNat v.toNat) else none
  | .vbr w, v => if 2 ≤ w.toNat ∧ w.toNat ≤ 32 then some (encVbr w.toNat v) else none
  | .char6, v => (char6Code v.toNat).map (bitsOfNat 6)

/-- A scalar operand: literals occupy no bits. -/
def Scalar.valBits : Scalar → U64 → Option (List Bool)
  | .lit w, v => if v = w then some [] else none
  | .enc e, v => e.valBits v

def elemsBits (e : Elem) : List U64 → Option (List Bool)
  | [] => some []
  | v :: vs => do
    let b ← e.valBits v
    let bs ← elemsBits e vs
    some (b ++ bs)

/-- Bytes of a blob. -/
def bytesBits : List U64 → Option (List Bool)
  | [] => some []
  | v :: vs => do
    let bs ← bytesBits vs
    if v.toNat < 256 then some (bitsOfNat 8 v.toNat ++ bs) else none

/-- A count, as a vbr6. Counts that no memory could hold are not written. -/
def countBits (n : Nat) : Option (List Bool) :=
  if n < 2 ^ 60 then some (encVbr 6 (BitVec.ofNat 64 n)) else none

/-- The values after the scalars, starting at bit position `pos`.
Array: `[len:vbr6, elements]`. Blob: `[len:vbr6, <align32bits>, bytes, <align32bits>]`. -/
def Tail.valBits (pos : Nat) : Tail → List U64 → Option (List Bool)
  | .nothing, [] => some []
  | .nothing, _ :: _ => none
  | .array e, vs => do
    let n ← countBits vs.length
    let b ← elemsBits e vs
    some (n ++ b)
  | .blob, vs => do
    let n ← countBits vs.length
    let b ← bytesBits vs
    let aligned := n ++ pad32 (pos + n.length)
    some (aligned ++ (b ++ pad32 (pos + (aligned.length + b.length))))

/-- All values of an abbreviated record (the record code comes first), starting at bit position `pos`. -/
def valsBits (tail : Tail) : Nat → List Scalar → List U64 → Option (List Bool)
  | pos, [], vs => tail.valBits pos vs
  | _, _ :: _, [] => none
  | pos, s :: ss, v :: vs => do
    let b ← s.valBits v
    let bs ← valsBits tail (pos + b.length) ss vs
    some (b ++ bs)

def Def.valBits (d : Def) (pos : Nat) (vals : List U64) : Option (List Bool) :=
  valsBits d.tail pos d.scalars vals

/-! ## Unabbreviated records -/

def vbr6s : List U64 → List Bool
  | [] => []
  | v :: vs => encVbr 6 v ++ vbr6s vs

/-- `[code:vbr6, numops:vbr6, op0:vbr6, op1:vbr6, ...]` -/
def unabbrevBits (code : U64) (fields : List U64) : Option (List Bool) := do
  let n ← countBits fields.length
  some (encVbr 6 code ++ (n ++ vbr6s fields))

/-! ## Streams -/

/-- The contents of a block or of the whole stream: a sequence of definitions, records (unabbreviated, or
using an abbreviation id) and nested blocks with their own abbreviation id width. -/
inductive Items where
  | nil
  | define (d : Def) (rest : Items)
  | unabbrev (code : U64) (fields : List U64) (rest : Items)
  | abbrev (id code : U64) (fields : List U64) (rest : Items)
  | block (id width : U64) (body rest : Items)
deriving DecidableEq, Repr

/-- What a consumer is to see of a stream. -/
inductive Event where
  | start (blockId : U64)
  | record (code : U64) (fields : List U64)
  | finish
deriving DecidableEq, Repr

/-- The meaning of a stream: block starts, records and block ends in order. Block 0 (BLOCKINFO) and what stands
directly in it are not part of it. -/
def Items.events (inInfo : Bool) : Items → List Event
  | .nil => []
  | .define _ rest => rest.events inInfo
  | .unabbrev code fields rest =>
    if inInfo then rest.events inInfo else .record code fields :: rest.events inInfo
  | .abbrev _ code fields rest =>
    if inInfo then rest.events inInfo else .record code fields :: rest.events inInfo
  | .block id _ body rest =>
    if id = 0 then body.events true ++ rest.events inInfo
    else .start id :: (body.events false ++ .finish :: rest.events inInfo)

/-- What a consumer sees in full: also the byte length of each block and the abbreviation id of each record. -/
inductive Entry where
  | start (blockId : U64) (byteLen : Nat)
  | record (abbrevId : Option U64) (code : U64) (fields : List U64)
  | finish
deriving DecidableEq, Repr

def Entry.event : Entry → Event
  | .start id _ => .start id
  | .record _ code fields => .record code fields
  | .finish => .finish

/-- What determines the encoding of the next item. -/
structure Ctx where
  /-- abbreviation id width -/
  width : U64
  /-- id of the enclosing block, if any -/
  block : Option U64
  /-- abbreviations in force in this block; the first has id 4 -/
  defs : List Def
  /-- in BLOCKINFO: the block named by the last SETBID -/
  target : Option U64
  /-- abbreviations registered per block id by BLOCKINFO blocks so far -/
  info : U64 → List Def

/-- Start of a stream: width 2, no enclosing block, nothing registered. -/
def Ctx.start : Ctx := { width := 2, block := none, defs := [], target := none, info := fun _ => [] }

/-- Inside a new block: its own width, the abbreviations registered for it so far. -/
def Ctx.enter (k : Ctx) (id width : U64) : Ctx :=
  { width := width, block := some id, defs := k.info id, target := none, info := k.info }

/-- After a definition: in BLOCKINFO it is registered for the current target, elsewhere it is local. -/
def Ctx.define (k : Ctx) (d : Def) : Option Ctx :=
  match k.block with
  | none => none
  | some b =>
    if b = 0 then
      match k.target with
      | none => none
      | some t => some { k with info := fun x => if x = t then k.info t ++ [d] else k.info x }
    else some { k with defs := k.defs ++ [d] }

/-- After an unabbreviated record: SETBID (code 1) in BLOCKINFO sets the target; the other codes allowed there
are BLOCKNAME (2) and SETRECORDNAME (3). -/
def Ctx.unabbrev (k : Ctx) (code : U64) (fields : List U64) : Option Ctx :=
  match k.block with
  | none => none
  | some b =>
    if b = 0 then
      if code = 1 then
        match fields with
        | [] => none
        | t :: _ => some { k with target := some t }
      else if code = 2 ∨ code = 3 then some k
      else none
    else some k

/-- An abbreviation id, in the current width, if it fits. -/
def idBits (k : Ctx) (id : U64) : Option (List Bool) :=
  if 1 ≤ k.width.toNat ∧ k.width.toNat ≤ 63 ∧ id.toNat < 2 ^ k.width.toNat then
    some (bitsOfNat k.width.toNat id.toNat)
  else none

/-- The abbreviation that `id` stands for, outside BLOCKINFO. -/
def Ctx.lookup (k : Ctx) (id : U64) : Option Def :=
  match k.block with
  | none => none
  | some b => if b = 0 ∨ id.toNat < 4 then none else k.defs[id.toNat - 4]?

/-- The result of writing: the bits, the entries they stand for, and the context afterwards. -/
structure Written where
  bits : List Bool
  entries : List Entry
  after : Ctx

/-- Directly inside BLOCKINFO records are not visible. -/
def visible (k : Ctx) (e : Entry) : List Entry := if k.block = some 0 then [] else [e]

/-- Writes items at bit position `pos`. `none` if they cannot be written (an id that does not fit the width, a
value that does not fit its encoding, a record outside any block, ...).

`[ENTER_SUBBLOCK:width, blockid:vbr8, newabbrevlen:vbr4, <align32bits>, blocklen:32, ..., END_BLOCK,
<align32bits>]`, where `blocklen` counts 32-bit words up to and including the final alignment. -/
def write : Ctx → Nat → Items → Option Written
  | k, _, .nil => some { bits := [], entries := [], after := k }
  | k, pos, .define d rest => do
    let i ← idBits k 2
    if d.Valid then do
      let k' ← k.define d
      let b := i ++ d.bits
      let r ← write k' (pos + b.length) rest
      some { bits := b ++ r.bits, entries := r.entries, after := r.after }
    else none
  | k, pos, .unabbrev code fields rest => do
    let i ← idBits k 3
    let u ← unabbrevBits code fields
    let k' ← k.unabbrev code fields
    let b := i ++ u
    let r ← write k' (pos + b.length) rest
    some { bits := b ++ r.bits, entries := visible k (.record none code fields) ++ r.entries, after := r.after }
  | k, pos, .abbrev id code fields rest => do
    let i ← idBits k id
    let d ← k.lookup id
    let v ← d.valBits (pos + i.length) (code :: fields)
    let b := i ++ v
    let r ← write k (pos + b.length) rest
    some { bits := b ++ r.bits, entries := visible k (.record (some id) code fields) ++ r.entries, after := r.after }
  | k, pos, .block id width body rest => do
    let i ← idBits k 1
    let head := i ++ (encVbr 8 id ++ encVbr 4 width)
    let head := head ++ pad32 (pos + head.length)
    let inner := pos + (head.length + 32)
    let w ← write (k.enter id width) inner body
    let e ← idBits w.after 0
    let tail := e ++ pad32 (inner + (w.bits.length + e.length))
    let words := (w.bits.length + tail.length) / 32
    if words < 2 ^ 32 then do
      let b := head ++ (bitsOfNat 32 words ++ (w.bits ++ tail))
      let r ← write { k with info := w.after.info } (pos + b.length) rest
      let entries := if id = 0 then w.entries ++ r.entries
        else .start id (4 * words) :: (w.entries ++ .finish :: r.entries)
      some { bits := b ++ r.bits, entries := entries, after := r.after }
    else none

/-- The bits and entries of a whole stream: magic, then top-level blocks. -/
def writeStream (magic : U32) (its : Items) : Option (List Bool × List Entry) := do
  let w ← write Ctx.start 32 its
  some (bitsOfNat 32 magic.toNat ++ w.bits, w.entries)

/-- Pack bits into bytes, least significant bit first. -/
def pack : Nat → List Bool → List U8
  | 0, _ => []
  | n + 1, bs => BitVec.ofNat 8 (natOfBits (bs.take 8)) :: pack n (bs.drop 8)

/-- The bytes and entries of a whole stream. -/
def streamBytes (magic : U32) (its : Items) : Option (List U8 × List Entry) := do
  let (b, es) ← writeStream magic its
  some (pack (b.length / 8) b, es)

end Verif.Spec
