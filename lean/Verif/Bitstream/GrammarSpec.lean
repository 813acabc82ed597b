import Verif.Bitstream.Writer

/-!
# Specification: the grammar of bitstreams

Which bit strings are bitstreams, and which entries they stand for. Unlike the writer, which picks one encoding, the grammar
allows every encoding: integers with superfluous chunks, anything as padding, any block length, blocks left open at the end,
abbreviated records in BLOCKINFO. It does not mention the model of the reader. How much padding there is at a position is a
parameter; in a stream that is not in a wrapper it is up to the next multiple of 32.

Builds with and without overflow checks differ in one point: an integer with so many chunks that data would have to be shifted by
64 bits or more is not an integer with checks, and without them the data is shifted by that amount modulo 64.
-/

namespace Verif.Spec

/-- The chunks, each shifted modulo 64, one over the other. -/
def chunksOr (w : Nat) : Nat → List Nat → U64
  | _, [] => 0
  | shift, x :: xs => BitVec.ofNat 64 x <<< (shift % 64) ||| chunksOr w (shift + (w - 1)) xs

/-- `b` is a VBR integer of chunk width `w` that stands for `v`: one or more chunks, the value taken modulo `2^64`. -/
def IsVbr (pf : Profile) (w : Nat) (v : U64) (b : List Bool) : Prop :=
  ∃ xs : List Nat, xs ≠ [] ∧ (∀ x ∈ xs, x < 2 ^ (w - 1)) ∧ b = rawVbr w xs ∧
    (if (xs.length - 1) * (w - 1) < 64 then v = BitVec.ofNat 64 (chunksValue w xs)
     else pf = .release ∧ v = chunksOr w 0 xs)

/-- What is missing to a multiple of 32. -/
def toWord (pos : Nat) : Nat := (32 - pos % 32) % 32

/-- The same for a stream of `n` bits that is read in pieces of 64 bits, of which the last may be shorter: what is missing to the
end of the piece, or to 32 bits before that. Nothing is missing before the first bit of a piece. If `n` is a multiple of 32 this is
`toWord`. -/
def toPiece (n pos : Nat) : Nat := if pos % 64 = 0 then 0 else (min n (pos / 64 * 64 + 64) - pos) % 32

/-- `b` is padding at the position, as much as there should be. -/
def IsPad (pad : Nat → Nat) (pos : Nat) (b : List Bool) : Prop := b.length = pad pos

/-- `b` is a count that can be a size in memory. -/
def IsCount (pf : Profile) (n : Nat) (b : List Bool) : Prop := n < 2 ^ 60 ∧ IsVbr pf 6 (BitVec.ofNat 64 n) b

/-- One form after the other. -/
def Many {α : Type} (F : α → List Bool → Prop) : List α → List Bool → Prop
  | [], b => b = []
  | v :: vs, b => ∃ b₁ b₂, b = b₁ ++ b₂ ∧ F v b₁ ∧ Many F vs b₂

/-! ## Abbreviation definitions -/

/-- The encoding of a single value, after the flag that says it is not a literal. -/
def Elem.IsDef (pf : Profile) : Elem → List Bool → Prop
  | .fixed w, b => ∃ b', b = bitsOfNat 3 1 ++ b' ∧ IsVbr pf 5 w b'
  | .vbr w, b => ∃ b', b = bitsOfNat 3 2 ++ b' ∧ IsVbr pf 5 w b'
  | .char6, b => b = bitsOfNat 3 4

def Scalar.IsDef (pf : Profile) : Scalar → List Bool → Prop
  | .lit v, b => ∃ b', b = true :: b' ∧ IsVbr pf 8 v b'
  | .enc e, b => ∃ b', b = false :: b' ∧ e.IsDef pf b'

/-- The flag of the element of an array is not looked at. -/
def Tail.IsDef (pf : Profile) : Tail → List Bool → Prop
  | .nothing, b => b = []
  | .array e, b => ∃ flag b', b = false :: (bitsOfNat 3 3 ++ flag :: b') ∧ e.IsDef pf b'
  | .blob, b => b = false :: bitsOfNat 3 5

def Def.IsDef (pf : Profile) (d : Def) (b : List Bool) : Prop :=
  d.Valid ∧ ∃ n s t, b = n ++ (s ++ t) ∧ IsVbr pf 5 (BitVec.ofNat 64 d.numOps) n ∧ Many (Scalar.IsDef pf) d.scalars s ∧
    d.tail.IsDef pf t

/-! ## Values under an abbreviation -/

/-- One encoded value. -/
def Elem.IsVal (pf : Profile) : Elem → U64 → List Bool → Prop
  | .fixed w, v, b => 1 ≤ w.toNat ∧ w.toNat ≤ 63 ∧ v.toNat < 2 ^ w.toNat ∧ b = bitsOfNat w.toNat v.toNat
  | .vbr w, v, b => 2 ≤ w.toNat ∧ w.toNat ≤ 32 ∧ IsVbr pf w.toNat v b
  | .char6, v, b => ∃ i, char6Code v.toNat = some i ∧ b = bitsOfNat 6 i

def Scalar.IsVal (pf : Profile) : Scalar → U64 → List Bool → Prop
  | .lit w, v, b => v = w ∧ b = []
  | .enc e, v, b => e.IsVal pf v b

/-- A byte of a blob. -/
def IsByte (v : U64) (b : List Bool) : Prop := v.toNat < 256 ∧ b = bitsOfNat 8 v.toNat

def Tail.IsVal (pf : Profile) (pad : Nat → Nat) (pos : Nat) : Tail → List U64 → List Bool → Prop
  | .nothing, vs, b => vs = [] ∧ b = []
  | .array e, vs, b => ∃ n bs, b = n ++ bs ∧ IsCount pf vs.length n ∧ Many (e.IsVal pf) vs bs
  | .blob, vs, b => ∃ n p bs q, b = n ++ (p ++ (bs ++ q)) ∧ IsCount pf vs.length n ∧ IsPad pad (pos + n.length) p ∧
      Many IsByte vs bs ∧ IsPad pad (pos + n.length + p.length + bs.length) q

def IsVals (pf : Profile) (pad : Nat → Nat) (tail : Tail) : Nat → List Scalar → List U64 → List Bool → Prop
  | pos, [], vs, b => tail.IsVal pf pad pos vs b
  | _, _ :: _, [], _ => False
  | pos, s :: ss, v :: vs, b => ∃ b₁ b₂, b = b₁ ++ b₂ ∧ s.IsVal pf v b₁ ∧ IsVals pf pad tail (pos + b₁.length) ss vs b₂

/-! ## Streams -/

/-- `Item pf pad k outer pos b es k' outer'`: in the context `k`, inside the contexts `outer` (innermost first), at bit position
`pos`, the bits `b` are an item of a stream; it shows the entries `es` (one or none), and `k'` and `outer'` are the contexts after
it. -/
inductive Item (pf : Profile) (pad : Nat → Nat) : Ctx → List Ctx → Nat → List Bool → List Entry → Ctx → List Ctx → Prop where
  /-- A definition of an abbreviation. -/
  | define {k k' : Ctx} {outer : List Ctx} {pos : Nat} {i b : List Bool} {d : Def} : idBits k 2 = some i → d.IsDef pf b →
      k.define d = some k' → Item pf pad k outer pos (i ++ b) [] k' outer
  /-- A record that spells out its fields. -/
  | unabbrev {k k' : Ctx} {outer : List Ctx} {pos : Nat} {i c n f : List Bool} {code : U64} {fields : List U64} :
      idBits k 3 = some i → IsVbr pf 6 code c → IsCount pf fields.length n → Many (IsVbr pf 6) fields f →
      k.unabbrev code fields = some k' →
      Item pf pad k outer pos (i ++ (c ++ (n ++ f))) (visible k (.record none code fields)) k' outer
  /-- A record by an abbreviation. The first has id 4. -/
  | abbrev {k : Ctx} {outer : List Ctx} {pos : Nat} {i v : List Bool} {id code : U64} {fields : List U64} {d : Def} :
      idBits k id = some i → 4 ≤ id.toNat → k.block ≠ none → k.defs[id.toNat - 4]? = some d →
      IsVals pf pad d.tail (pos + i.length) d.scalars (code :: fields) v →
      Item pf pad k outer pos (i ++ v) (visible k (.record (some id) code fields)) k outer
  /-- The start of a block. BLOCKINFO (block 0) is not shown. -/
  | enter {k : Ctx} {outer : List Ctx} {pos : Nat} {i b w p : List Bool} {id width : U64} {words : Nat} :
      idBits k 1 = some i → IsVbr pf 8 id b → IsVbr pf 4 width w → width ≠ 0 →
      IsPad pad (pos + i.length + b.length + w.length) p → words < 2 ^ 32 →
      Item pf pad k outer pos (i ++ (b ++ (w ++ (p ++ bitsOfNat 32 words))))
        (if id = 0 then [] else [.start id (4 * words)]) (k.enter id width) (k :: outer)
  /-- The end of a block. What BLOCKINFO registered stays. -/
  | exit {k o : Ctx} {outer : List Ctx} {pos : Nat} {i p : List Bool} : idBits k 0 = some i → IsPad pad (pos + i.length) p →
      Item pf pad k (o :: outer) pos (i ++ p) (visible k .finish) { o with info := k.info } outer

/-- Any number of items. -/
inductive Stream (pf : Profile) (pad : Nat → Nat) : Ctx → List Ctx → Nat → List Bool → List Entry → Ctx → List Ctx → Prop where
  | nil {k : Ctx} {outer : List Ctx} {pos : Nat} : Stream pf pad k outer pos [] [] k outer
  | cons {k k' k'' : Ctx} {outer outer' outer'' : List Ctx} {pos : Nat} {b bs : List Bool} {es es' : List Entry} :
      Item pf pad k outer pos b es k' outer' → Stream pf pad k' outer' (pos + b.length) bs es' k'' outer'' →
      Stream pf pad k outer pos (b ++ bs) (es ++ es') k'' outer''

end Verif.Spec
