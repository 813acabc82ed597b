import Verif.Mapper.Module
import Verif.Support.Text

/-! The example program `llvm-mapper/examples/unroll-bitstream.rs`: what it prints, and how it ends. It prints with `{:#?}`, so the
derived implementations of `Debug` are modelled, and the parts of `core::fmt` that they call.

Which characters `{:?}` of a string leaves as they are depends on tables of the standard library; these are a parameter,
`plain : Char → Bool`. -/

namespace Verif.Print

/-- A digit of `{:x}`. -/
def hexChar (d : Nat) : Char := ("0123456789abcdef".toList[d]?).getD '0'

/-- The digits of `{:x}`, at most as many as the first argument says. -/
def hexDigits : Nat → Nat → Str
  | 0, _ => []
  | k + 1, n => if n < 16 then [hexChar n] else hexDigits k (n / 16) ++ [hexChar (n % 16)]

/-- `char::escape_debug_ext`, as it is called for the characters of a string. -/
def escape (plain : Char → Bool) (c : Char) : Str :=
  if c = Char.ofNat 0 then ['\\', '0']
  else if c = '\t' then ['\\', 't']
  else if c = '\r' then ['\\', 'r']
  else if c = '\n' then ['\\', 'n']
  else if c = '\\' then ['\\', '\\']
  else if c = '"' then ['\\', '"']
  else if plain c then [c]
  else ['\\', 'u', '{'] ++ hexDigits 6 c.toNat ++ ['}']

/-- `{:?}` of a string. -/
def quote (plain : Char → Bool) (s : Str) : Str := '"' :: s.flatMap (escape plain) ++ ['"']

/-- What goes through a `core::fmt::builders::PadAdapter`: four spaces at the beginning of lines. The flag is `on_newline`. -/
def pad : Bool → Str → Str
  | _, [] => []
  | onNewline, c :: cs => (if onNewline then [' ', ' ', ' ', ' '] else []) ++ c :: pad (c == '\n') cs

/-- `DebugStruct` with `{:#?}`, for a structure with fields. -/
def debugStruct (name : Str) (fields : List (Str × Str)) : Str :=
  name ++ (" {\n".toList ++ (fields.flatMap (fun f => pad true (f.1 ++ (": ".toList ++ (f.2 ++ ",\n".toList)))) ++ "}".toList))

/-- `DebugTuple` with `{:#?}`, for a tuple structure with one field. -/
def debugTuple (name value : Str) : Str :=
  name ++ ("(\n".toList ++ (pad true (value ++ ",\n".toList) ++ ")".toList))

/-- `DebugList` with `{:#?}`. -/
def debugList (values : List Str) : Str :=
  match values with
  | [] => "[]".toList
  | vs => "[\n".toList ++ (vs.flatMap (fun v => pad true (v ++ ",\n".toList)) ++ "]".toList)

/-- `#[derive(Debug)]` of `Identification`, `llvm-mapper/src/block/identification.rs:33-39`. -/
def identification (plain : Char → Bool) (i : Identification) : Str :=
  debugStruct "Identification".toList
    [("producer".toList, quote plain i.producer), ("epoch".toList, decimal i.epoch.toNat)]

/-- `#[derive(Debug)]` of `Module`, `llvm-mapper/src/block/module.rs:66-74`. -/
def «module» (plain : Char → Bool) (m : Module) : Str :=
  debugStruct "Module".toList
    [("triple".toList, quote plain m.triple), ("asm".toList, debugList (m.asm.map (quote plain))),
      ("deplibs".toList, debugList (m.deplibs.map (quote plain)))]

/-- `{:#?}` of a `Vec<u8>`. -/
def byteList (bs : List U8) : Str := debugList (bs.map fun b => decimal b.toNat)

/-- `#[derive(Debug)]` of `Strtab`, `llvm-mapper/src/block/strtab.rs:39-40`. -/
def strtab (t : Strtab) : Str := debugTuple "Strtab".toList (byteList t.bytes)

/-- `#[derive(Debug)]` of `Symtab`, `llvm-mapper/src/block/symtab.rs:32-33`, and of `Option`. -/
def symtab : Option Symtab → Str
  | none => "None".toList
  | some t => debugTuple "Some".toList (debugTuple "Symtab".toList (byteList t.bytes))

/-- `#[derive(Debug)]` of `BitcodeModule`, `llvm-mapper/src/unroll.rs:492-505`. -/
def bitcodeModule (plain : Char → Bool) (m : BitcodeModule) : Str :=
  debugStruct "BitcodeModule".toList
    [("identification".toList, identification plain m.identification), ("module".toList, «module» plain m.module),
      ("strtab".toList, strtab m.strtab), ("symtab".toList, symtab m.symtab)]

/-- `#[derive(Debug)]` of `Bitcode`, `llvm-mapper/src/unroll.rs:244-248`. -/
def bitcode (plain : Char → Bool) (b : Bitcode) : Str :=
  debugStruct "Bitcode".toList [("modules".toList, debugList (b.modules.map (bitcodeModule plain)))]

/-- `llvm-mapper/examples/unroll-bitstream.rs:21-36`: `main`, after the file has been read. What is printed, or the error it returns;
errors of opening the stream are not wrapped there, but are here, like those of reading it. -/
def main (pf : Profile) (target : Str) (plain : Char → Bool) (bytes : List U8) : Out MapperError Str := do
  let s ← (Bitstream.from pf bytes).mapErr .parse
  let unrolled ← Bitcode.ofStream pf target s.2
  .ok (bitcode plain unrolled ++ ['\n'])

end Verif.Print
