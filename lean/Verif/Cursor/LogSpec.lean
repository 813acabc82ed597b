import Verif.Cursor.BeltSpec
import Verif.Cursor.Log

/-! What the log of a cursor says, in terms of the bits alone: the bits fetched and not yet read, as a number, and how many they are. -/

namespace Verif.Spec
open Cursor

/-- The bits from `a` to `b` as a number. -/
def Belt.number (t : Belt) (a b : Nat) : U64 := BitVec.ofNat 64 (natOfBits ((t.bits.drop a).take (b - a)))

/-- A read tells its size and the bits fetched and not read. If they suffice it tells so. Otherwise it tells the up to 64 bits it fetches,
and, if those suffice, what is left of them; at the end of the bits it fetches nothing. -/
def Belt.readLog (n : Nat) (t : Belt) : List CurLine :=
  .reading n (t.number t.pos t.edge) (t.edge - t.pos) ::
  if n = 0 ∨ 64 ≤ n then []
  else if t.pos + n ≤ t.edge then [.enough]
  else if t.pos = t.bits.length then []
  else
    let edge := min (t.edge + 64) t.bits.length
    .loaded (t.number t.edge edge) (edge - t.edge) ::
    if t.pos + n ≤ t.bits.length then [.partDone (t.number (t.pos + n) edge) (edge - (t.pos + n))] else []

/-- A VBR integer: each chunk that was read, and without its top bit. -/
def Belt.chunksLog (pf : Profile) (w : Nat) : Nat → Nat → Belt → List CurLine
  | 0, _, _ => []
  | k + 1, shift, t =>
    t.readLog w ++
    match t.read w with
    | (.ok v, t') =>
      .chunk v (BitVec.ofNat 64 (v.toNat % 2 ^ (w - 1))) ::
      if (pf = .debug ∧ 64 ≤ shift) ∨ v.toNat < 2 ^ (w - 1) then [] else t'.chunksLog pf w k (shift + (w - 1))
    | _ => []

def Belt.vbrLog (pf : Profile) (w : Nat) (t : Belt) : List CurLine :=
  if w < 2 ∨ 32 < w then [] else t.chunksLog pf w (t.bits.length + 1) 0

/-- A move to a bit: where to, then how far it is from the last multiple of 64 before it. -/
def Belt.seekLog (p : Nat) (t : Belt) : List CurLine :=
  .seeking p ::
  if t.bits.length < p / 64 * 64 then []
  else .toConsume (p % 64) :: if p % 64 = 0 then [] else (t.jump (p / 64 * 64)).readLog (p % 64)

/-- Any operation. -/
def Belt.log (pf : Profile) : Op → Belt → List CurLine
  | .read n, t => t.readLog n
  | .readAs _ n, t => t.readLog n
  | .readExact ty, t => t.readLog ty.bitsize
  | .readVbr w, t => t.vbrLog pf w
  | .readSvbr w, t => t.vbrLog pf w
  | .seekBit p, t => t.seekLog p
  | .seek _, _ => []
  | .align32, _ => [.aligning]

/-- A series of operations. -/
def Belt.logs (pf : Profile) : List Op → Belt → List (List CurLine)
  | [], _ => []
  | op :: ops, t => t.log pf op :: (t.apply pf op).2.logs pf ops

end Verif.Spec
