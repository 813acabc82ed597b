import Verif.Bitstream.Parser
import Verif.Support.Text

/-! The example program `llvm-bitstream/examples/dump-bitstream.rs`: what it prints, and how it ends. -/

namespace Verif.Dump

/-- `{}` and `{:?}` of an unsigned integer. -/
def number (n : U64) : Str := Nat.toDigits 10 n.toNat

/-- A digit of `{:X}`. -/
def hexChar (d : Nat) : Char := ("0123456789ABCDEF".toList[d]?).getD '0'

/-- The digits of `{:X}`, at most as many as the first argument says. -/
def hexDigits : Nat → Nat → Str
  | 0, _ => []
  | k + 1, n => if n < 16 then [hexChar n] else hexDigits k (n / 16) ++ [hexChar (n % 16)]

/-- `{:#X}` of an integer of at most 64 bits. -/
def hex (n : U64) : Str := "0x".toList ++ hexDigits 16 n.toNat

/-- `{:?}` of a list of integers, after the opening bracket. -/
def restOfList : List U64 → Str
  | [] => "]".toList
  | [f] => number f ++ "]".toList
  | f :: fs => number f ++ ", ".toList ++ restOfList fs

/-- `"\t".repeat(scope)`: a string cannot be longer than `isize::MAX` bytes. -/
def tabs (scope : Nat) : Out BErr Str :=
  if scope < 2 ^ 63 then .ok (List.replicate scope '\t') else .panic .capacity

/-- `scope += 1` on a `usize`, l. 41. -/
def scopeAdd (pf : Profile) (scope : Nat) : Out BErr Nat :=
  if scope + 1 < 2 ^ 64 then .ok (scope + 1)
  else match pf with
    | .debug => .panic .dumpScope
    | .release => .ok 0

/-- `scope -= 1` on a `usize`, l. 44. -/
def scopeSub (pf : Profile) (scope : Nat) : Out BErr Nat :=
  if scope = 0 then
    match pf with
    | .debug => .panic .dumpScope
    | .release => .ok (2 ^ 64 - 1)
  else .ok (scope - 1)

/-- What is written to the standard output, and how the program ends: an error is returned from `main`. -/
abbrev Result := Str × Out BErr Unit

/-- Printing a line and going on. -/
def line (l : Str) (r : Result) : Result := (l ++ '\n' :: r.1, r.2)

/-- `?`, overflows and other panics: the rest is not run. -/
def andThen {α : Type} (x : Out BErr α) (f : α → Result) : Result :=
  match x with
  | .ok a => f a
  | .err e => ([], .err e)
  | .panic p => ([], .panic p)
  | .diverge => ([], .diverge)

/-- `llvm-bitstream/examples/dump-bitstream.rs:36-57`: the loop. A call that needs more rounds than there is fuel gives
`diverge`. -/
def loop (pf : Profile) : Nat → Nat → Bitstream → Result
  | 0, _, _ => ([], .diverge)
  | n + 1, scope, b =>
    match Bitstream.next pf b with
    | (.done, _) => ([], .ok ())
    | (.error e, _) => ([], .err e)
    | (.panic p, _) => ([], .panic p)
    | (.diverge, _) => ([], .diverge)
    | (.item (.subBlock s), b') =>
      andThen (tabs scope) fun t =>
        line (t ++ "BLOCK ".toList ++ number s.blockId ++ " {".toList) <|
          andThen (scopeAdd pf scope) fun scope' => loop pf n scope' b'
    | (.item .endBlock, b') =>
      andThen (scopeSub pf scope) fun scope' =>
        andThen (tabs scope') fun t => line (t ++ "}".toList) (loop pf n scope' b')
    | (.item (.record r), b') =>
      andThen (tabs scope) fun t =>
        line (t ++ "RECORD { code: ".toList ++ number r.code ++ ", fields: [".toList ++ restOfList r.fields ++ " }".toList)
          (loop pf n scope b')

/-- `println!("Wrapper: {:#?}", wrapper)`, l. 30-32, with the derived `Debug` of `llvm-bitstream/src/lib.rs:23-35`. -/
def wrapperText (w : BitcodeWrapper) : List Str :=
  ["Wrapper: BitcodeWrapper {".toList,
   "    magic: ".toList ++ number w.magic ++ ",".toList,
   "    version: ".toList ++ number w.version ++ ",".toList,
   "    offset: ".toList ++ number w.offset ++ ",".toList,
   "    size: ".toList ++ number w.size ++ ",".toList,
   "    cpu_type: ".toList ++ number w.cpuType ++ ",".toList,
   "}".toList]

/-- `llvm-bitstream/examples/dump-bitstream.rs:20-60`: `main`, from the bytes of the input file on. Reading the file and the
command line are not modelled, and neither is output that cannot be written. -/
def main (pf : Profile) (input : List U8) : Result :=
  andThen (Bitstream.from pf input) fun x =>
    (x.1.elim [] wrapperText).foldr line <|
      line ("Entered bitstream; magic: ".toList ++ hex x.2.magic) <|
        loop pf (x.2.parser.cursor.bitLen + 2) 0 x.2

end Verif.Dump
