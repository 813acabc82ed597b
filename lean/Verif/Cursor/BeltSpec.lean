import Verif.Cursor.TapeSpec

/-!
# A bit cursor as a tape that is fetched in pieces

`Spec.Tape` leaves open where a cursor stands after some failures. Here the tape also has an edge, the end of what has been fetched
so far. With it every history of operations is determined, whether they succeed or fail.
-/

namespace Verif.Spec
open Cursor

/-- The bits, the position, and the end of what has been fetched. -/
structure Belt where
  bits : List Bool
  pos : Nat
  edge : Nat

/-- Nothing is fetched at first. -/
def Belt.start (buf : List U8) : Belt := ⟨bitsOf buf, 0, 0⟩

/-- A seek forgets what has been fetched. -/
def Belt.jump (t : Belt) (pos : Nat) : Belt := ⟨t.bits, pos, pos⟩

/-- Reading `n` bits. If they have not all been fetched, 64 more are, or as many as there are. If that is still too few, the bits
up to the old edge are lost. -/
def Belt.read (n : Nat) (t : Belt) : Out CErr U64 × Belt :=
  if n = 0 ∨ 64 ≤ n then (.err .invalidReadSize, t)
  else if t.pos = t.bits.length then (.err .eof, t)
  else if t.bits.length < t.pos + n then (.err .short, ⟨t.bits, t.edge, t.bits.length⟩)
  else (.ok (BitVec.ofNat 64 (natOfBits ((t.bits.drop t.pos).take n))),
    ⟨t.bits, t.pos + n, if t.pos + n ≤ t.edge then t.edge else min (t.edge + 64) t.bits.length⟩)

/-- Reading `n` bits as an integer of a type. -/
def Belt.readAs (ty : IntTy) (n : Nat) (t : Belt) : Out CErr U64 × Belt :=
  match t.read n with
  | (.ok v, t') => (if v.toNat ≤ ty.max then .ok v else .err .badCast, t')
  | r => r

/-- Reading chunks of `w` bits as long as their top bit is set; the rest of the bits is data. Data that has to be shifted by 64
or more makes a debug build panic. -/
def Belt.readChunks (pf : Profile) (w : Nat) : Nat → U64 → Nat → Belt → Out CErr U64 × Belt
  | 0, _, _, t => (.diverge, t)
  | k + 1, acc, shift, t =>
    match t.read w with
    | (.ok v, t) =>
      if pf = .debug ∧ 64 ≤ shift then (.panic .vbrShift, t)
      else
        let acc := acc ||| BitVec.ofNat 64 (v.toNat % 2 ^ (w - 1)) <<< (shift % 64)
        if 2 ^ (w - 1) ≤ v.toNat then t.readChunks pf w k acc (shift + (w - 1)) else (.ok acc, t)
    | r => r

/-- Reading a VBR integer. -/
def Belt.readVbr (pf : Profile) (w : Nat) (t : Belt) : Out CErr U64 × Belt :=
  if w < 2 ∨ 32 < w then (.err .invalidVbrWidth, t) else t.readChunks pf w (t.bits.length + 1) 0 0

/-- Moving to a bit: to the last multiple of 64 before it, if there is one, and then on by a read. -/
def Belt.seekBit (p : Nat) (t : Belt) : Out CErr Unit × Belt :=
  if t.bits.length < p / 64 * 64 then (.err .eof, t)
  else if p % 64 = 0 then (.ok (), t.jump p)
  else match (t.jump (p / 64 * 64)).read (p % 64) with
    | (.ok _, t') => (.ok (), t')
    | (.err e, t') => (.err e, t')
    | (.panic s, t') => (.panic s, t')
    | (.diverge, t') => (.diverge, t')

/-- Moving to a byte. -/
def Belt.seekByte (pf : Profile) (x : Int) (t : Belt) : Out IoErr Nat × Belt :=
  if pf = .debug ∧ 2 ^ 63 ≤ x then (.panic .seekAdd, t)
  else if 0 ≤ x ∧ 8 * x ≤ t.bits.length then (.ok x.toNat, t.jump (8 * x.toNat))
  else (.err .invalidInput, t)

/-- Seeking from the start, the end or the current position. -/
def Belt.seek (pf : Profile) : SeekFrom → Belt → Out IoErr Nat × Belt
  | .start p, t => t.seekByte .release p.toNat
  | .fromEnd p, t => if 0 ≤ p then (.err .unsupported, t) else t.seekByte pf ((t.bits.length / 8 : Nat) + p)
  | .current p, t => t.seekByte pf ((t.pos / 8 : Nat) + p)

/-- To the edge, or to 32 bits before it if that is not behind. -/
def Belt.align32 (t : Belt) : Belt := ⟨t.bits, if t.pos + 32 ≤ t.edge then t.edge - 32 else t.edge, t.edge⟩

/-- Any operation. -/
def Belt.apply (pf : Profile) : Op → Belt → Obs × Belt
  | .read n, t => (.word (t.read n).1, (t.read n).2)
  | .readAs ty n, t => (.word (t.readAs ty n).1, (t.readAs ty n).2)
  | .readExact ty, t => (.word (t.readAs ty ty.bitsize).1, (t.readAs ty ty.bitsize).2)
  | .readVbr w, t => (.word (t.readVbr pf w).1, (t.readVbr pf w).2)
  | .readSvbr w, t => (.int (unsignedOut (t.readVbr pf w).1), (t.readVbr pf w).2)
  | .seekBit p, t => (.unit (t.seekBit p).1, (t.seekBit p).2)
  | .seek p, t => (.seek (t.seek pf p).1, (t.seek pf p).2)
  | .align32, t => (.none, t.align32)

/-- What is seen of a series of operations: the results, and each time the position in bits and in bytes, the length in bytes, and
whether it is the end. -/
def Belt.trace (pf : Profile) : List Op → Belt → List (Obs × Nat × Nat × Nat × Bool)
  | [], _ => []
  | op :: ops, t =>
    let r := t.apply pf op
    (r.1, r.2.pos, r.2.pos / 8, r.2.bits.length / 8, decide (r.2.pos = r.2.bits.length)) :: r.2.trace pf ops

end Verif.Spec
