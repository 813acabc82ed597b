import Verif.Support.Text
import Verif.Mapper.DataLayout

/-! Specification of an error report: its lines, and how the messages are found in them. -/

namespace Verif.Spec

/-- Lines as a text, each with its end. -/
def unlines (ls : List Str) : Str := ls.flatMap (· ++ ['\n'])

/-- The lines of a message, which has no end of line after the last. -/
def HasLines (message : Str) (ls : List Str) : Prop := message ++ ['\n'] = unlines ls ∧ ∀ l ∈ ls, '\n' ∉ l

/-- A number, to the right of five columns, and a colon. -/
def Column (n : Nat) (t : Str) : Prop :=
  ∃ k, t = List.replicate k ' ' ++ (decimal n ++ ": ".toList) ∧ k + (decimal n).length = max 5 (decimal n).length

/-- Messages in numbered lines. Further lines of a message have blanks instead of the number. -/
inductive Numbered : Nat → List Str → List Str → Prop where
  | nil {n : Nat} : Numbered n [] []
  | cons {n : Nat} {message first number : Str} {more : List Str} {messages lines : List Str} : HasLines message (first :: more) →
      Column n number → Numbered (n + 1) messages lines →
      Numbered n (message :: messages) ((number ++ first) :: (more.map (List.replicate 7 ' ' ++ ·) ++ lines))

/-- The report of an error: its message, and those of its causes from the outside in. A single cause has no number. -/
inductive IsReport : List Str → List Str → Prop where
  | alone {message : Str} : '\n' ∉ message → IsReport [message] ["Error: ".toList ++ message]
  | one {message cause : Str} {lines : List Str} : '\n' ∉ message → HasLines cause lines →
      IsReport [message, cause]
        (("Error: ".toList ++ message) :: [] :: "Caused by:".toList :: lines.map (List.replicate 4 ' ' ++ ·))
  | many {message cause cause' : Str} {causes lines : List Str} : '\n' ∉ message →
      Numbered 0 (cause :: cause' :: causes) lines →
      IsReport (message :: cause :: cause' :: causes) (("Error: ".toList ++ message) :: [] :: "Caused by:".toList :: lines)

/-- The first cause does not begin with a digit. -/
def NoNumber (messages : List Str) : Prop := ∀ m ∈ messages[1]?, ∀ c ∈ m.head?, ¬ ('0' ≤ c ∧ c ≤ '9')

/-- A control character: Unicode's category Cc. -/
def Control (c : Char) : Prop := c.toNat < 32 ∨ (127 ≤ c.toNat ∧ c.toNat < 160)

/-- The text has no control character. -/
def NoControl (s : Str) : Prop := ∀ c ∈ s, ¬ Control c

/-- The error tells a character of the datalayout text that is not expected there. -/
inductive Quotes : DataLayoutError → Char → Prop where
  | spec {c : Char} : Quotes (.unknownSpec c) c
  | function {c : Char} : Quotes (.badSpecParse ("unknown function pointer alignment specifier: ".toList ++ [c])) c
  | separator {c : Char} : Quotes (.badSpecParse ("bad separator for mangling spec: ".toList ++ [c])) c
  | mangling {c : Char} : Quotes (.badSpecParse ("unknown mangling kind in spec: ".toList ++ [c])) c
  | aggregate {c : Char} : Quotes (.badAlignSpec (.parse ("unexpected character before aggregate spec: ".toList ++ [c]))) c

end Verif.Spec
