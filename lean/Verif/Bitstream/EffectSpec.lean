import Verif.Bitstream.Parser

/-!
# Specification of what one round of the parser may do to its context

The context of a bitstream reader is the stack of open blocks, each with its abbreviation id width and the
abbreviations in force in it, and the abbreviations registered for block ids by BLOCKINFO. This file says, in one
relation, how one entry of the stream may change the context, and what may be surfaced with it.
-/

namespace Verif

/-- Operands that stand for one field. -/
def AbbrevOp.isScalar : AbbrevOp → Prop
  | .literal _ => True
  | .vbr _ => True
  | .fixed _ => True
  | .char6 => True
  | .array _ => False
  | .blob => False

/-- Operands an array may have as its element. -/
def AbbrevOp.isElem : AbbrevOp → Prop
  | .vbr _ => True
  | .fixed _ => True
  | .char6 => True
  | _ => False

/-- Operands that may come last. -/
def AbbrevOp.isLast : AbbrevOp → Prop
  | .array e => e.isElem
  | _ => True

/-- An accepted abbreviation: at least one operand; the last one may be an array of scalars or a blob, all others
are scalar. -/
def OpsWF : List AbbrevOp → Prop
  | [] => False
  | [op] => op.isLast
  | op :: ops => op.isScalar ∧ OpsWF ops

/-- The registered abbreviations. -/
abbrev Info := U64 → Option (List Abbrev)

/-- `Effect pf sc info r sc' info'`: with open blocks `sc` (innermost first) and registry `info`, one round may end
with `r` and leave `sc'` and `info'`. An `ok none` is a round that surfaces nothing. Block id 0 is BLOCKINFO. -/
inductive Effect (pf : Profile) (sc : List Scope) (info : Info) :
    Out BErr (Option StreamEntry) → List Scope → Info → Prop
  /-- A round that does not succeed changes nothing. -/
  | fail {x : Out BErr (Option StreamEntry)} (hx : ∀ a, x ≠ .ok a) : Effect pf sc info x sc info
  /-- A block is entered: it starts with exactly the abbreviations registered for its id, in order. -/
  | enter (id w len : U64) (hw : w ≠ 0) :
      Effect pf sc info (.ok (if id = 0 then none else some (.subBlock { blockId := id, len := len })))
        (.block w id none ((info id).getD []) :: sc) info
  /-- The innermost block is left: the context is that of the enclosing block again. -/
  | exit {s t : Scope} {rest : List Scope} (hs : sc = s :: t :: rest) :
      Effect pf sc info (.ok (if s.isBlockinfo then none else some .endBlock)) (t :: rest) info
  /-- An abbreviation is defined in a normal block: it is added last to that block's abbreviations. -/
  | define {w id : U64} {bid : Option U64} {l : List Abbrev} {rest : List Scope} {a : Abbrev}
      (hs : sc = .block w id bid l :: rest) (hid : id ≠ 0) (hwf : OpsWF a.operands) :
      Effect pf sc info (.ok none) (.block w id bid (l ++ [a]) :: rest) info
  /-- An abbreviation is defined in BLOCKINFO: it is added last to those of the block id selected by SETBID. -/
  | register {w t : U64} {l : List Abbrev} {rest : List Scope} {a : Abbrev}
      (hs : sc = .block w 0 (some t) l :: rest) (hwf : OpsWF a.operands) :
      Effect pf sc info (.ok none) sc (fun k => if k = t then some ((info t).getD [] ++ [a]) else info k)
  /-- SETBID in BLOCKINFO. -/
  | setBid {w : U64} {bid : Option U64} {l : List Abbrev} {rest : List Scope} (t : U64)
      (hs : sc = .block w 0 bid l :: rest) : Effect pf sc info (.ok none) (.block w 0 (some t) l :: rest) info
  /-- Any other record in BLOCKINFO. -/
  | ignore {w : U64} {bid : Option U64} {l : List Abbrev} {rest : List Scope}
      (hs : sc = .block w 0 bid l :: rest) : Effect pf sc info (.ok none) sc info
  /-- A record of a normal block; if abbreviated, by the abbreviation its id stands for in this block. -/
  | record {w id : U64} {bid : Option U64} {l : List Abbrev} {rest : List Scope} {r : BRecord}
      (hs : sc = .block w id bid l :: rest) (hid : id ≠ 0)
      (hr : ∀ n, r.abbrevId = some n → 4 ≤ n.toNat ∧ ∃ a c c', l[n.toNat - 4]? = some a ∧
        Abbrev.parse pf a c = (.ok (r.code :: r.fields), c')) :
      Effect pf sc info (.ok (some (.record r))) sc info

end Verif
