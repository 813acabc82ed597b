import Verif.Mapper.Module
import Verif.Support.Text

/-! Specification of the text for a mapped file: its lines, and which texts are string literals. -/

namespace Verif.Spec

/-! ## String literals -/

/-- At most six digits, those of a number in base 16. -/
def IsHex (n : Nat) (l : Str) : Prop :=
  ∃ ds : List Nat, l = ds.map (fun d => "0123456789abcdef".toList.getD d '?') ∧ (∀ d ∈ ds, d < 16) ∧ ds ≠ [] ∧
    ds.length ≤ 6 ∧ ds.foldl (fun v d => 16 * v + d) 0 = n

/-- One character of a string literal, as in Rust: a character that is not special, or an escape. -/
inductive Spells : Str → Char → Prop where
  | self {c : Char} : c ≠ '"' → c ≠ '\\' → c ≠ '\n' → c ≠ '\r' → Spells [c] c
  | nul : Spells ['\\', '0'] (Char.ofNat 0)
  | tab : Spells ['\\', 't'] '\t'
  | cr : Spells ['\\', 'r'] '\r'
  | lf : Spells ['\\', 'n'] '\n'
  | backslash : Spells ['\\', '\\'] '\\'
  | quote : Spells ['\\', '"'] '"'
  | code {c : Char} {l : Str} : IsHex c.toNat l → Spells ('\\' :: 'u' :: '{' :: l ++ ['}']) c

/-- The text spells the string, character by character. -/
inductive SpellsAll : Str → Str → Prop where
  | nil : SpellsAll [] []
  | cons {t ts : Str} {c : Char} {s : Str} : Spells t c → SpellsAll ts s → SpellsAll (t ++ ts) (c :: s)

/-- A string literal, in quotes. -/
def IsLiteral (t s : Str) : Prop := ∃ l, t = '"' :: l ++ ['"'] ∧ SpellsAll l s

/-! ## Lines -/

/-- A value in a text: its lines, each with how far it is indented, if it begins at a depth, after something in its first line
and before something in its last. -/
abbrev Doc := Nat → Str → Str → List (Nat × Str)

/-- A value in one line. -/
def Doc.word (t : Str) : Doc := fun d pre post => [(d, pre ++ (t ++ post))]

/-- A line to open, parts with labels, each followed by a comma and one level deeper, and a line to close. -/
def Doc.group (opening closing : Str) (parts : List (Str × Doc)) : Doc := fun d pre post =>
  (d, pre ++ opening) :: (parts.flatMap (fun p => p.2 (d + 1) p.1 [',']) ++ [(d, closing ++ post)])

/-- A list, in one line if it is empty. -/
def Doc.list (parts : List Doc) : Doc :=
  match parts with
  | [] => .word "[]".toList
  | ps => .group "[".toList "]".toList (ps.map fun p => ([], p))

/-! In the following, the first argument says how strings are written. -/

section
variable (quoted : Str → Str)

def byteDoc (bs : List U8) : Doc := .list (bs.map fun b => .word (decimal b.toNat))

def stringsDoc (l : List Str) : Doc := .list (l.map fun s => .word (quoted s))

def moduleDoc (m : BitcodeModule) : Doc :=
  .group "BitcodeModule {".toList "}".toList
    [("identification: ".toList, .group "Identification {".toList "}".toList
      [("producer: ".toList, .word (quoted m.identification.producer)),
        ("epoch: ".toList, .word (decimal m.identification.epoch.toNat))]),
      ("module: ".toList, .group "Module {".toList "}".toList
        [("triple: ".toList, .word (quoted m.module.triple)),
          ("asm: ".toList, stringsDoc quoted m.module.asm),
          ("deplibs: ".toList, stringsDoc quoted m.module.deplibs)]),
      ("strtab: ".toList, .group "Strtab(".toList ")".toList [([], byteDoc m.strtab.bytes)]),
      ("symtab: ".toList, match m.symtab with
        | none => .word "None".toList
        | some t => .group "Some(".toList ")".toList [([], .group "Symtab(".toList ")".toList [([], byteDoc t.bytes)])])]

def bitcodeDoc (b : Bitcode) : Doc :=
  .group "Bitcode {".toList "}".toList [("modules: ".toList, .list (b.modules.map (moduleDoc quoted)))]

end

/-- Lines as a text: four spaces for each level. -/
def linesText (ls : List (Nat × Str)) : Str := ls.flatMap fun l => List.replicate (4 * l.1) ' ' ++ (l.2 ++ ['\n'])

/-- The text for a mapped file. -/
def bitcodeText (quoted : Str → Str) (b : Bitcode) : Str := linesText (bitcodeDoc quoted b 0 [] [])

end Verif.Spec
