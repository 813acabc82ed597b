import Verif.Bitstream.GrammarSpec
import Verif.Bitstream.Abbrev

/-!
# Specification: how a bitstream fails

What is wrong with bits that are not an item of the grammar, and which error or panic stands for it. The first thing in the order of
the bits that is wrong counts. Like the grammar, this does not mention the model of the reader; errors and places of panics are named
as in the code.
-/

namespace Verif.Spec

/-- An error or a panic. -/
inductive Failure where
  | error (e : BErr)
  | panic (s : PanicSite)

/-- `b` does not begin with a number of `n` bits: it ends before, or numbers of that size cannot be read. -/
inductive NoFixed (n : Nat) (b : List Bool) : Failure → Prop where
  | size : n = 0 ∨ 64 ≤ n → NoFixed n b (.error (.cursor .invalidReadSize))
  | missing : 1 ≤ n → n ≤ 63 → b = [] → NoFixed n b (.error (.cursor .eof))
  | cut : 1 ≤ n → n ≤ 63 → b ≠ [] → b.length < n → NoFixed n b (.error (.cursor .short))

/-- Chunks of a VBR integer of which none is the last. -/
def begun (w : Nat) (xs : List Nat) : List Bool := xs.flatMap fun x => bitsOfNat w (2 ^ (w - 1) + x)

/-- `b` does not begin with a VBR integer of chunk width `w`: the width is not allowed, a chunk is missing or cut off, or, with
overflow checks, a chunk is too far to the left. Such a chunk is noticed as soon as it is read. -/
inductive NoVbr (pf : Profile) (w : Nat) (b : List Bool) : Failure → Prop where
  | width : w < 2 ∨ 32 < w → NoVbr pf w b (.error (.cursor .invalidVbrWidth))
  | cut {xs : List Nat} {tail : List Bool} {f : Failure} : 2 ≤ w → w ≤ 32 → (∀ x ∈ xs, x < 2 ^ (w - 1)) →
      (pf = .debug → (xs.length - 1) * (w - 1) < 64) → b = begun w xs ++ tail → NoFixed w tail f → NoVbr pf w b f
  | overlong {xs : List Nat} {last tail : List Bool} : 2 ≤ w → w ≤ 32 → (∀ x ∈ xs, x < 2 ^ (w - 1)) → pf = .debug →
      (xs.length - 1) * (w - 1) < 64 → 64 ≤ xs.length * (w - 1) → last.length = w → b = begun w xs ++ (last ++ tail) →
      NoVbr pf w b (.panic .vbrShift)

/-- Fewer than `n` of the form `F`, and then something that is not of this form. -/
def Stuck {α : Type} (F : α → List Bool → Prop) (N : List Bool → Failure → Prop) (n : Nat) (b : List Bool) (f : Failure) : Prop :=
  ∃ vs b₁ b₂, b = b₁ ++ b₂ ∧ vs.length < n ∧ Many F vs b₁ ∧ N b₂ f

/-- No count, or one that cannot be a size in memory, or, after the count, a failure of what is counted. -/
inductive NoCounted (pf : Profile) (N : Nat → Nat → List Bool → Failure → Prop) (pos : Nat) (b : List Bool) : Failure → Prop where
  | count {f : Failure} : NoVbr pf 6 b f → NoCounted pf N pos b f
  | size {v : U64} {n tail : List Bool} : b = n ++ tail → IsVbr pf 6 v n → 2 ^ 60 ≤ v.toNat → NoCounted pf N pos b (.panic .capacity)
  | counted {v : U64} {n tail : List Bool} {f : Failure} : b = n ++ tail → IsVbr pf 6 v n → v.toNat < 2 ^ 60 →
      N v.toNat (pos + n.length) tail f → NoCounted pf N pos b f

/-! ## Abbreviation definitions -/

/-- Not the encoding of a single value, after the flag. `others` says what happens with array and blob. -/
inductive NoEncoding (pf : Profile) (others : Nat → List Bool → Failure → Prop) (b : List Bool) : Failure → Prop where
  | missing {f : Failure} : NoFixed 3 b f → NoEncoding pf others b f
  | unknown {n : Nat} {tail : List Bool} : b = bitsOfNat 3 n ++ tail → n < 8 → n = 0 ∨ 5 < n →
      NoEncoding pf others b (.error (.badAbbrevOpEnc (BitVec.ofNat 64 n)))
  | width {n : Nat} {tail : List Bool} {f : Failure} : b = bitsOfNat 3 n ++ tail → n = 1 ∨ n = 2 → NoVbr pf 5 tail f →
      NoEncoding pf others b f
  | other {n : Nat} {tail : List Bool} {f : Failure} : b = bitsOfNat 3 n ++ tail → n = 3 ∨ n = 5 → others n tail f →
      NoEncoding pf others b f

/-- Not the element of an array: there is no flag, or no encoding of a single value after it. -/
inductive NoElement (pf : Profile) (b : List Bool) : Failure → Prop where
  | missing {f : Failure} : NoFixed 1 b f → NoElement pf b f
  | encoding {flag : Bool} {tail : List Bool} {f : Failure} : b = flag :: tail →
      NoEncoding pf (fun n _ f => n = 3 ∧ f = .error (.abbrevParse (.arrayElement .array)) ∨
        n = 5 ∧ f = .error (.abbrevParse (.arrayElement .blob))) tail f → NoElement pf b f

/-- Not the `i`-th (from 0) of `num` operands. An array is the last but one, with its element as the last; if there is only one
operand, its place cannot be computed. A blob is the last. -/
inductive NoOperand (pf : Profile) (num i : Nat) (b : List Bool) : Failure → Prop where
  | missing {f : Failure} : NoFixed 1 b f → NoOperand pf num i b f
  | literal {tail : List Bool} {f : Failure} : b = true :: tail → NoVbr pf 8 tail f → NoOperand pf num i b f
  | encoding {tail : List Bool} {f : Failure} : b = false :: tail →
      NoEncoding pf (fun n tail f =>
        n = 3 ∧ (num = 1 ∧ pf = .debug ∧ f = .panic .abbrevArraySub ∨
          (num = 1 → pf = .release) ∧ i + 2 ≠ num ∧ f = .error (.abbrevParse .arrayIndex) ∨ i + 2 = num ∧ NoElement pf tail f) ∨
        n = 5 ∧ i + 1 ≠ num ∧ f = .error (.abbrevParse .blobIndex)) tail f → NoOperand pf num i b f

/-- Not a definition of an abbreviation. -/
inductive NoDef (pf : Profile) (b : List Bool) : Failure → Prop where
  | count {f : Failure} : NoVbr pf 5 b f → NoDef pf b f
  | empty {n tail : List Bool} : b = n ++ tail → IsVbr pf 5 0 n → NoDef pf b (.error (.abbrevParse .noOperand))
  | operand {num : U64} {n s tail : List Bool} {ss : List Scalar} {f : Failure} : b = n ++ (s ++ tail) → IsVbr pf 5 num n →
      Many (Scalar.IsDef pf) ss s → ss.length < num.toNat → NoOperand pf num.toNat ss.length tail f → NoDef pf b f

/-! ## Values under an abbreviation -/

def Elem.NoVal (pf : Profile) : Elem → List Bool → Failure → Prop
  | .fixed w, b, f => NoFixed w.toNat b f
  | .vbr w, b, f => NoVbr pf w.toNat b f
  | .char6, b, f => NoFixed 6 b f

def Scalar.NoVal (pf : Profile) : Scalar → List Bool → Failure → Prop
  | .lit _, _, _ => False
  | .enc e, b, f => e.NoVal pf b f

def Tail.NoVal (pf : Profile) (pad : Nat → Nat) (pos : Nat) : Tail → List Bool → Failure → Prop
  | .nothing, _, _ => False
  | .array e, b, f => NoCounted pf (fun n _ => Stuck (e.IsVal pf) (e.NoVal pf) n) pos b f
  | .blob, b, f => NoCounted pf (fun n pos b f => ∃ p tail, b = p ++ tail ∧ IsPad pad pos p ∧ Stuck IsByte (NoFixed 8) n tail f) pos b f

def NoVals (pf : Profile) (pad : Nat → Nat) (t : Tail) : Nat → List Scalar → List Bool → Failure → Prop
  | pos, [], b, f => t.NoVal pf pad pos b f
  | pos, s :: ss, b, f => s.NoVal pf b f ∨
      ∃ v b₁ b₂, b = b₁ ++ b₂ ∧ s.IsVal pf v b₁ ∧ NoVals pf pad t (pos + b₁.length) ss b₂ f

/-! ## Items -/

/-- `NoItem pf pad k outer pos b f`: in the context `k`, inside the contexts `outer`, at bit position `pos`, the bits `b` do not begin with
an item, and `f` reports what is wrong. -/
inductive NoItem (pf : Profile) (pad : Nat → Nat) (k : Ctx) (outer : List Ctx) (pos : Nat) (b : List Bool) : Failure → Prop where
  /-- No abbreviation id. -/
  | id {f : Failure} : b ≠ [] → NoFixed k.width.toNat b f → NoItem pf pad k outer pos b f
  /-- The end of a block outside blocks. -/
  | exit {i tail : List Bool} : b = i ++ tail → idBits k 0 = some i → outer = [] →
      NoItem pf pad k outer pos b (.error (.badScope .emptyStack))
  /-- The start of a block without its id. -/
  | enterId {i tail : List Bool} {f : Failure} : b = i ++ tail → idBits k 1 = some i → NoVbr pf 8 tail f → NoItem pf pad k outer pos b f
  /-- The start of a block without the width of its abbreviation ids. -/
  | enterWidth {i t tail : List Bool} {id : U64} {f : Failure} : b = i ++ (t ++ tail) → idBits k 1 = some i → IsVbr pf 8 id t →
      NoVbr pf 4 tail f → NoItem pf pad k outer pos b f
  /-- A block in which abbreviation ids have no bits. -/
  | enterZero {i t w tail : List Bool} {id : U64} : b = i ++ (t ++ (w ++ tail)) → idBits k 1 = some i → IsVbr pf 8 id t →
      IsVbr pf 4 0 w → NoItem pf pad k outer pos b (.error (.badScope (.width 0)))
  /-- The start of a block without its length. -/
  | enterLength {i t w p tail : List Bool} {id width : U64} {f : Failure} : b = i ++ (t ++ (w ++ (p ++ tail))) →
      idBits k 1 = some i → IsVbr pf 8 id t → IsVbr pf 4 width w → width ≠ 0 → IsPad pad (pos + i.length + t.length + w.length) p →
      NoFixed 32 tail f → NoItem pf pad k outer pos b f
  /-- A definition of an abbreviation that is none. -/
  | define {i tail : List Bool} {f : Failure} : b = i ++ tail → idBits k 2 = some i → NoDef pf tail f → NoItem pf pad k outer pos b f
  /-- A definition outside blocks. -/
  | defineOutside {i t tail : List Bool} {d : Def} : b = i ++ (t ++ tail) → idBits k 2 = some i → d.IsDef pf t → k.block = none →
      NoItem pf pad k outer pos b (.error (.badScope .noAbbrevs))
  /-- A definition in BLOCKINFO that is for no block. -/
  | defineFor {i t tail : List Bool} {d : Def} : b = i ++ (t ++ tail) → idBits k 2 = some i → d.IsDef pf t → k.block = some 0 →
      k.target = none → NoItem pf pad k outer pos b (.error (.streamParse .noSetBid))
  /-- A record outside blocks. -/
  | recordOutside {i tail : List Bool} : b = i ++ tail → idBits k 3 = some i → k.block = none →
      NoItem pf pad k outer pos b (.error (.streamParse .recordOutside))
  /-- A record without a code. -/
  | code {i tail : List Bool} {f : Failure} : b = i ++ tail → idBits k 3 = some i → k.block ≠ none → NoVbr pf 6 tail f →
      NoItem pf pad k outer pos b f
  /-- A record without all its fields. -/
  | fields {i c tail : List Bool} {code : U64} {f : Failure} : b = i ++ (c ++ tail) → idBits k 3 = some i → k.block ≠ none →
      IsVbr pf 6 code c → NoCounted pf (fun n _ => Stuck (IsVbr pf 6) (NoVbr pf 6) n) (pos + i.length + c.length) tail f →
      NoItem pf pad k outer pos b f
  /-- A record in BLOCKINFO that should say for which block definitions are, but does not. -/
  | setBid {i c n tail : List Bool} : b = i ++ (c ++ (n ++ tail)) → idBits k 3 = some i → k.block = some 0 → IsVbr pf 6 1 c →
      IsCount pf 0 n → NoItem pf pad k outer pos b (.panic .setBidField)
  /-- A record in BLOCKINFO with another code. -/
  | infoCode {i c n t tail : List Bool} {code : U64} {fields : List U64} : b = i ++ (c ++ (n ++ (t ++ tail))) →
      idBits k 3 = some i → k.block = some 0 → IsVbr pf 6 code c → IsCount pf fields.length n → Many (IsVbr pf 6) fields t →
      code ≠ 1 → code ≠ 2 → code ≠ 3 → NoItem pf pad k outer pos b (.error (.badBlockInfoCode code))
  /-- An abbreviation that is not defined. -/
  | undefined {i tail : List Bool} {id : U64} : b = i ++ tail → idBits k id = some i → 4 ≤ id.toNat → k.block ≠ none →
      k.defs.length + 4 ≤ id.toNat → NoItem pf pad k outer pos b (.error (.badAbbrev id))
  /-- A record by an abbreviation without all its values. -/
  | values {i tail : List Bool} {id : U64} {d : Def} {f : Failure} : b = i ++ tail → idBits k id = some i → 4 ≤ id.toNat →
      k.block ≠ none → k.defs[id.toNat - 4]? = some d → NoVals pf pad d.tail (pos + i.length) d.scalars tail f →
      NoItem pf pad k outer pos b f
  /-- A record by an abbreviation with no values, so without a code. -/
  | noCode {i v tail : List Bool} {id : U64} {d : Def} : b = i ++ (v ++ tail) → idBits k id = some i → 4 ≤ id.toNat →
      k.block ≠ none → k.defs[id.toNat - 4]? = some d → IsVals pf pad d.tail (pos + i.length) d.scalars [] v →
      NoItem pf pad k outer pos b (.panic .recordCodeRemove)

end Verif.Spec
