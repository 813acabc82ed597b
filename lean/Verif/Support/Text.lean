import Verif.Base.Out

/-!
# Rust string operations used by the text parsers

A `&str` is the list of its characters. Byte indices only matter for slicing `[1..]`, which panics if the first
character takes more than one byte.
-/

namespace Verif

abbrev Str := List Char

/-- `core::num::IntErrorKind`, as far as it occurs for unsigned types. -/
inductive IntErr where
  | empty | invalidDigit | posOverflow
deriving DecidableEq, Repr

/-- The decimal text of a number; `to_string` of an unsigned integer. -/
def decimal (n : Nat) : Str := Nat.toDigits 10 n

/-- `Display` of `core::num::ParseIntError`. -/
def IntErr.text : IntErr → Str
  | .empty => "cannot parse integer from empty string".toList
  | .invalidDigit => "invalid digit found in string".toList
  | .posOverflow => "number too large to fit in target type".toList

/-- `char::to_digit(10)`. -/
def digit? (c : Char) : Option Nat :=
  if 48 ≤ c.toNat ∧ c.toNat ≤ 57 then some (c.toNat - 48) else none

/-- The digit loop of `core::num::*::from_str_radix` for an unsigned type with maximum `max`, radix 10. -/
def parseDigits (max : Nat) : Nat → Str → Out IntErr Nat
  | acc, [] => .ok acc
  | acc, c :: cs =>
    match digit? c with
    | none => .err .invalidDigit
    | some d => if acc * 10 + d ≤ max then parseDigits max (acc * 10 + d) cs else .err .posOverflow

/-- `str::parse` for an unsigned integer type with maximum `max`: empty input is an error, a lone sign is an error, a
leading `+` is skipped. -/
def parseUInt (max : Nat) (s : Str) : Out IntErr Nat :=
  match s with
  | [] => .err .empty
  | c :: cs =>
    if (c = '+' ∨ c = '-') ∧ cs = [] then .err .invalidDigit
    else if c = '+' then parseDigits max 0 cs
    else parseDigits max 0 (c :: cs)

/-- `str::parse::<u32>()`. -/
def parseU32 (s : Str) : Out IntErr U32 := do
  let n ← parseUInt (2 ^ 32 - 1) s
  pure (BitVec.ofNat 32 n)

/-- `str::parse::<u64>()`. -/
def parseU64 (s : Str) : Out IntErr U64 := do
  let n ← parseUInt (2 ^ 64 - 1) s
  pure (BitVec.ofNat 64 n)

/-- `str::split(char)`, collected. -/
def split (sep : Char) : Str → List Str
  | [] => [[]]
  | c :: cs =>
    if c = sep then [] :: split sep cs
    else
      match split sep cs with
      | [] => [[c]]
      | p :: ps => (c :: p) :: ps

/-- `&s[1..]`. -/
def sliceFrom1 {ε : Type} : Str → Out ε Str
  | [] => .panic .strSlice
  | c :: cs => if c.utf8Size = 1 then .ok cs else .panic .strSlice

end Verif
