import Verif.Cursor.Model

/-!
# Reading numbers as floating point

`read_as` and `read_exact` take every type that `num::cast` can produce, and so `f32` and `f64` too.
-/

namespace Verif

/-- The floating point types that `num::cast` can produce from a `u64` (`NumCast`). -/
inductive FloatTy where
  | f32 | f64
deriving DecidableEq, Repr

/-- `llvm-bitcursor/src/lib.rs:23-27`: `Bitsize::bitsize`, `size_of::<T>() * 8`. -/
def FloatTy.bitsize : FloatTy → Nat
  | .f32 => 32
  | .f64 => 64

/-- The number of binary digits of a number of the type. -/
def FloatTy.digits : FloatTy → Nat
  | .f32 => 24
  | .f64 => 53

/-- `num::cast::<u64, f32>` and `num::cast::<u64, f64>` (`llvm-bitcursor/src/lib.rs:268`), which never give `None`: `v as f32`,
`v as f64`. Numbers of at most `digits` digits stay the same. The rest lose their last digits, and are rounded to the nearest, ties to
the even. As the results are whole and not negative, and too small to overflow, they are given as natural numbers. -/
def FloatTy.ofU64 (t : FloatTy) (v : U64) : Nat :=
  if v.toNat < 2 ^ t.digits then v.toNat
  else
    let lost := Nat.log2 v.toNat + 1 - t.digits
    let kept := v.toNat / 2 ^ lost
    let rest := v.toNat % 2 ^ lost
    if 2 * rest < 2 ^ lost ∨ (2 * rest = 2 ^ lost ∧ kept % 2 = 0) then kept * 2 ^ lost else (kept + 1) * 2 ^ lost

namespace Cursor

/-- `llvm-bitcursor/src/lib.rs:267-270`: `read_as`, for `f32` and `f64`. -/
def readAsFloat (t : FloatTy) (nbits : Nat) : CurM Nat := fun c =>
  match read nbits c with
  | (.ok v, c) => (.ok (t.ofU64 v), c)
  | (.err e, c) => (.err e, c)
  | (.panic p, c) => (.panic p, c)
  | (.diverge, c) => (.diverge, c)

/-- `llvm-bitcursor/src/lib.rs:275-277`: `read_exact`, for `f32` and `f64`. -/
def readExactFloat (t : FloatTy) : CurM Nat := readAsFloat t t.bitsize

end Cursor

end Verif
