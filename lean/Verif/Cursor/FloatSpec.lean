/-!
# Specification of rounding to floating point

The whole numbers that have a floating point representation of `p` digits are those of the form `m * 2 ^ e` with `m < 2 ^ p`. (The
least and the greatest exponent of `f32` and `f64` play no role for whole numbers of 64 bits.)
-/

namespace Verif.Spec

/-- `x` is a floating point number of `p` digits. -/
def FloatNumber (p x : Nat) : Prop := ∃ m e, m < 2 ^ p ∧ x = m * 2 ^ e

/-- `x` is a floating point number of `p` digits whose first digit is not, and whose last digit is zero. -/
def EvenFloat (p x : Nat) : Prop := ∃ m e, 2 ^ (p - 1) ≤ m ∧ m < 2 ^ p ∧ m % 2 = 0 ∧ x = m * 2 ^ e

/-- How far two numbers are from each other. -/
def apart (a b : Nat) : Nat := (a - b) + (b - a)

/-- `x` is `n` rounded to `p` digits: no floating point number is nearer to `n`, and if another one is as near, then `x` is
the even one. -/
structure Rounded (p n x : Nat) : Prop where
  float : FloatNumber p x
  nearest : ∀ y, FloatNumber p y → apart n x ≤ apart n y
  even : ∀ y, FloatNumber p y → apart n y = apart n x → y ≠ x → EvenFloat p x

end Verif.Spec
