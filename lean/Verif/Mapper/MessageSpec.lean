import Verif.Mapper.Display

/-! # What a message claims

Some messages compare numbers. Such a message should state a comparison that holds. -/

namespace Verif.Spec

/-- The comparisons found in messages. -/
inductive Comparison where
  | less | greater | atLeast
deriving DecidableEq

/-- How a comparison is written. -/
def Comparison.text : Comparison → Str
  | .less => " < ".toList
  | .greater => " > ".toList
  | .atLeast => " >= ".toList

/-- What it means. -/
def Comparison.Holds : Comparison → Nat → Nat → Prop
  | .less, a, b => a < b
  | .greater, a, b => a > b
  | .atLeast, a, b => a ≥ b

/-- The message contains the comparison of the whole numbers `a` and `b`: no further digits stand around it. -/
def Claims (message : Str) (a : Nat) (op : Comparison) (b : Nat) : Prop :=
  ∃ before after, message = before ++ decimal a ++ op.text ++ decimal b ++ after ∧
    (∀ c ∈ before.getLast?, ¬ ('0' ≤ c ∧ c ≤ '9')) ∧ ∀ c ∈ after.head?, ¬ ('0' ≤ c ∧ c ≤ '9')

/-- All comparisons in the message hold. -/
def Honest (message : Str) : Prop := ∀ a op b, Claims message a op b → op.Holds a b

/-- The call is refused with the message. -/
def Refused {ε α : Type} (text : ε → Option Str) (call : Out ε α) (message : Str) : Prop :=
  ∃ e, call = .err e ∧ text e = some message

end Verif.Spec
