import Verif.Bitstream.GrammarSpec
import Verif.Bitstream.Log
import Verif.Bitstream.RoundTrip

/-! # Specification: what is logged for a stream

What the log should hold for each item of a stream. The positions are those of the grammar, counted from `base`. -/

namespace Verif.Spec

/-- What is logged in BLOCKINFO for a record, after its code and the number of its fields. -/
def infoLines (k : Ctx) (code : U64) (fields : List U64) : List LogLine :=
  if k.block ≠ some 0 then []
  else if code = 1 then (fields.take 1).map .setBid
  else if code = 2 then [.skipBlockName]
  else [.skipSetRecordName]

/-- `Logs pf pad base k outer pos b lines es k' outer'`: the bits `b` are an item that shows the entries `es`, as in `Item`, and the log
should hold these lines for it: the scope and the position it begins at, its id, and what it is. -/
inductive Logs (pf : Profile) (pad : Nat → Nat) (base : Nat) :
    Ctx → List Ctx → Nat → List Bool → List LogLine → List Entry → Ctx → List Ctx → Prop where
  | define {k k' : Ctx} {outer : List Ctx} {pos : Nat} {i b : List Bool} {d : Def} : idBits k 2 = some i → d.IsDef pf b →
      k.define d = some k' →
      Logs pf pad base k outer pos (i ++ b)
        [.advancing (topScope k) (base + pos), .nextEntry 2, .expecting (BitVec.ofNat 64 d.numOps), .newAbbrev d.abbrev] [] k' outer
  | unabbrev {k k' : Ctx} {outer : List Ctx} {pos : Nat} {i c n f : List Bool} {code : U64} {fields : List U64} :
      idBits k 3 = some i → IsVbr pf 6 code c → IsCount pf fields.length n → Many (IsVbr pf 6) fields f →
      k.unabbrev code fields = some k' →
      Logs pf pad base k outer pos (i ++ (c ++ (n ++ f)))
        ([.advancing (topScope k) (base + pos), .nextEntry 3, .unabbrev code (BitVec.ofNat 64 fields.length)] ++ infoLines k code fields)
        (visible k (.record none code fields)) k' outer
  | abbrev {k : Ctx} {outer : List Ctx} {pos : Nat} {i v : List Bool} {id code : U64} {fields : List U64} {d : Def} :
      idBits k id = some i → 4 ≤ id.toNat → k.block ≠ none → k.defs[id.toNat - 4]? = some d →
      IsVals pf pad d.tail (pos + i.length) d.scalars (code :: fields) v →
      Logs pf pad base k outer pos (i ++ v)
        [.advancing (topScope k) (base + pos), .nextEntry id, .parsed (code :: fields)]
        (visible k (.record (some id) code fields)) k outer
  | enter {k : Ctx} {outer : List Ctx} {pos : Nat} {i b w p : List Bool} {id width : U64} {words : Nat} :
      idBits k 1 = some i → IsVbr pf 8 id b → IsVbr pf 4 width w → width ≠ 0 →
      IsPad pad (pos + i.length + b.length + w.length) p → words < 2 ^ 32 →
      Logs pf pad base k outer pos (i ++ (b ++ (w ++ (p ++ bitsOfNat 32 words))))
        [.advancing (topScope k) (base + pos), .nextEntry 1,
          .entered id width (BitVec.ofNat 64 (4 * words)) (base + pos + i.length + b.length + w.length + p.length + 32)]
        (if id = 0 then [] else [.start id (4 * words)]) (k.enter id width) (k :: outer)
  | exit {k o : Ctx} {outer : List Ctx} {pos : Nat} {i p : List Bool} : idBits k 0 = some i → IsPad pad (pos + i.length) p →
      Logs pf pad base k (o :: outer) pos (i ++ p)
        [.advancing (topScope k) (base + pos), .nextEntry 0, .exited (topScope o)]
        (visible k .finish) { o with info := k.info } outer

/-- The same for any number of items. -/
inductive LogsAll (pf : Profile) (pad : Nat → Nat) (base : Nat) :
    Ctx → List Ctx → Nat → List Bool → List LogLine → List Entry → Ctx → List Ctx → Prop where
  | nil {k : Ctx} {outer : List Ctx} {pos : Nat} : LogsAll pf pad base k outer pos [] [] [] k outer
  | cons {k k' k'' : Ctx} {outer outer' outer'' : List Ctx} {pos : Nat} {b bs : List Bool} {ls ls' : List LogLine} {es es' : List Entry} :
      Logs pf pad base k outer pos b ls es k' outer' → LogsAll pf pad base k' outer' (pos + b.length) bs ls' es' k'' outer'' →
      LogsAll pf pad base k outer pos (b ++ bs) (ls ++ ls') (es ++ es') k'' outer''

/-! ## What can be read off the log -/

/-- The positions at which items begin, by the log. -/
def beginsAt : LogLine → Option Nat
  | .advancing _ n => some n
  | _ => none

/-- The blocks entered, by the log: id, length, and where what is in them begins. -/
def blockOf : LogLine → Option (U64 × U64 × Nat)
  | .entered id _ len n => some (id, len, n)
  | _ => none

end Verif.Spec
