import Verif.Cursor.History

/-!
# A bit cursor as a tape

What the operations of a cursor do to a list of bits and a position in it, without the 64-bit blocks of the code.
-/

namespace Verif.Spec
open Cursor

/-- The bits, the position, and whether the position has only been moved in ways that keep `align32` exact: the length is a
multiple of 32 bits and the last byte seek, if any, went to a multiple of 4. -/
structure Tape where
  bits : List Bool
  pos : Nat
  word : Bool

/-- The tape of a buffer. -/
def Tape.start (buf : List U8) : Tape := ⟨bitsOf buf, 0, decide (buf.length % 4 = 0)⟩

/-- Moving to a position. -/
def Tape.at (t : Tape) (pos : Nat) : Tape := { t with pos := pos }

/-- Reading `n` bits. Without a tape, the position is not determined by the tape. -/
def Tape.read (n : Nat) (t : Tape) : Out CErr U64 × Option Tape :=
  if n = 0 ∨ 64 ≤ n then (.err .invalidReadSize, some t)
  else if t.pos = t.bits.length then (.err .eof, some t)
  else if t.bits.length < t.pos + n then (.err .short, none)
  else (.ok (BitVec.ofNat 64 (natOfBits ((t.bits.drop t.pos).take n))), some (t.at (t.pos + n)))

/-- Reading `n` bits as an integer of a type. -/
def Tape.readAs (ty : IntTy) (n : Nat) (t : Tape) : Out CErr U64 × Option Tape :=
  match t.read n with
  | (.ok v, t') => (if v.toNat ≤ ty.max then .ok v else .err .badCast, t')
  | r => r

/-- Reading chunks of `w` bits as long as their top bit is set; the rest of the bits is data. Data that has to be shifted by 64
or more makes a debug build panic. -/
def Tape.readChunks (pf : Profile) (w : Nat) : Nat → U64 → Nat → Tape → Out CErr U64 × Option Tape
  | 0, _, _, t => (.diverge, some t)
  | k + 1, acc, shift, t =>
    if t.pos = t.bits.length then (.err .eof, some t)
    else if t.bits.length < t.pos + w then (.err .short, none)
    else
      let chunk := natOfBits ((t.bits.drop t.pos).take w)
      let t := t.at (t.pos + w)
      if pf = .debug ∧ 64 ≤ shift then (.panic .vbrShift, some t)
      else
        let acc := acc ||| BitVec.ofNat 64 (chunk % 2 ^ (w - 1)) <<< (shift % 64)
        if 2 ^ (w - 1) ≤ chunk then t.readChunks pf w k acc (shift + (w - 1)) else (.ok acc, some t)

/-- Reading a VBR integer. -/
def Tape.readVbr (pf : Profile) (w : Nat) (t : Tape) : Out CErr U64 × Option Tape :=
  if w < 2 ∨ 32 < w then (.err .invalidVbrWidth, some t) else t.readChunks pf w (t.bits.length + 1) 0 0

/-- The integer whose sign is the lowest bit. -/
def unsigned (v : U64) : Int := if v.toNat % 2 = 1 then -((v.toNat / 2 : Nat) : Int) else (v.toNat / 2 : Nat)

/-- The same for results. -/
def unsignedOut : Out CErr U64 → Out CErr Int
  | .ok v => .ok (unsigned v)
  | .err e => .err e
  | .panic p => .panic p
  | .diverge => .diverge

/-- Moving to a bit. A position that is too far is `Short` if it lies less than 64 bits after the last multiple of 64 below the
end, and `Eof` otherwise. -/
def Tape.seekBit (p : Nat) (t : Tape) : Out CErr Unit × Option Tape :=
  if p ≤ t.bits.length then (.ok (), some ⟨t.bits, p, decide (t.bits.length % 32 = 0)⟩)
  else if p / 64 * 64 < t.bits.length then (.err .short, none)
  else (.err .eof, none)

/-- Moving to a byte. -/
def Tape.seekByte (pf : Profile) (x : Int) (t : Tape) : Out IoErr Nat × Option Tape :=
  if pf = .debug ∧ 2 ^ 63 ≤ x then (.panic .seekAdd, some t)
  else if 0 ≤ x ∧ 8 * x ≤ t.bits.length then
    (.ok x.toNat, some ⟨t.bits, 8 * x.toNat, decide (t.bits.length % 32 = 0 ∧ x % 4 = 0)⟩)
  else (.err .invalidInput, some t)

/-- Seeking from the start, the end or the current position. -/
def Tape.seek (pf : Profile) : SeekFrom → Tape → Out IoErr Nat × Option Tape
  | .start p, t => t.seekByte .release p.toNat
  | .fromEnd p, t => if 0 ≤ p then (.err .unsupported, some t) else t.seekByte pf ((t.bits.length / 8 : Nat) + p)
  | .current p, t => t.seekByte pf ((t.pos / 8 : Nat) + p)

/-- Any operation. -/
def Tape.apply (pf : Profile) : Op → Tape → Obs × Option Tape
  | .read n, t => (.word (t.read n).1, (t.read n).2)
  | .readAs ty n, t => (.word (t.readAs ty n).1, (t.readAs ty n).2)
  | .readExact ty, t => (.word (t.readAs ty ty.bitsize).1, (t.readAs ty ty.bitsize).2)
  | .readVbr w, t => (.word (t.readVbr pf w).1, (t.readVbr pf w).2)
  | .readSvbr w, t => (.int (unsignedOut (t.readVbr pf w).1), (t.readVbr pf w).2)
  | .seekBit p, t => (.unit (t.seekBit p).1, (t.seekBit p).2)
  | .seek p, t => (.seek (t.seek pf p).1, (t.seek pf p).2)
  | .align32, t => (.none, if t.word then some (t.at ((t.pos + 31) / 32 * 32)) else none)

/-- What is seen of the position: in bits, in bytes, the length in bytes, and whether it is the end. -/
def Tape.view (t : Tape) : Nat × Nat × Nat × Bool := (t.pos, t.pos / 8, t.bits.length / 8, decide (t.pos = t.bits.length))

/-- What is seen of a series of operations, up to the first after which the position is not determined. -/
def Tape.trace (pf : Profile) : List Op → Tape → List (Obs × Option (Nat × Nat × Nat × Bool))
  | [], _ => []
  | op :: ops, t =>
    match t.apply pf op with
    | (o, some t') => (o, some t'.view) :: t'.trace pf ops
    | (o, none) => [(o, none)]

/-- The second list shows what the first one does, as far as it goes. -/
def Agrees {α β : Type} : List (α × Option β) → List (α × β) → Prop
  | [], [] => True
  | (o, some x) :: l, (o', x') :: l' => o = o' ∧ x = x' ∧ Agrees l l'
  | [(o, none)], (o', _) :: _ => o = o'
  | _, _ => False

/-- Offsets of seeks are `i64`s. -/
def _root_.Verif.Cursor.Op.Valid : Op → Prop
  | .seek (.fromEnd p) => -2 ^ 63 ≤ p ∧ p < 2 ^ 63
  | .seek (.current p) => -2 ^ 63 ≤ p ∧ p < 2 ^ 63
  | _ => True

end Verif.Spec
