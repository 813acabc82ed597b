import Verif.Mapper.UnrollSpec
import Verif.Support.TextLemmas

/-! Specification of the dump of a bitstream: the text for the tree of its blocks. -/

namespace Verif.Spec

/-- A line, indented by tabs. -/
def dumpLine (depth : Nat) (l : Str) : Str := List.replicate depth '\t' ++ l ++ ['\n']

/-- The line for a record. -/
def recordText (r : BRecord) : Str :=
  "RECORD { code: ".toList ++ decimal r.code.toNat ++ ", fields: [".toList ++
    ", ".toList.intercalate (r.fields.map fun f => decimal f.toNat) ++ "] }".toList

/-- The line that opens a block. -/
def blockText (s : BBlock) : Str := "BLOCK ".toList ++ decimal s.blockId.toNat ++ " {".toList

/-- The lines for contents: records, and blocks with their contents indented by one more between braces. -/
def Forest.dump (depth : Nat) : Forest → Str
  | nil => []
  | record r rest => dumpLine depth (recordText r) ++ rest.dump depth
  | block s body rest =>
    dumpLine depth (blockText s) ++ body.dump (depth + 1) ++ dumpLine depth "}".toList ++ rest.dump depth

/-- The lines for top-level blocks. -/
def dumpTops (tops : List (BBlock × Forest)) : Str :=
  tops.flatMap fun c => dumpLine 0 (blockText c.1) ++ c.2.dump 1 ++ dumpLine 0 "}".toList

/-- The lines for blocks that are opened one inside the other and stay open. -/
def dumpOpen (depth : Nat) : List (BBlock × Forest) → Str
  | [] => []
  | c :: cs => dumpLine depth (blockText c.1) ++ c.2.dump (depth + 1) ++ dumpOpen (depth + 1) cs

/-- `l` are the digits of `n` in base 16, without leading zeros. -/
def HexText (n : Nat) (l : Str) : Prop :=
  ∃ ds : List Nat, l = ds.map (fun d => "0123456789ABCDEF".toList.getD d '?') ∧ (∀ d ∈ ds, d < 16) ∧ ds ≠ [] ∧
    (ds.head? = some 0 → ds = [0]) ∧ ds.foldl (fun v d => 16 * v + d) 0 = n

/-- The lines before those of the blocks: the wrapper, if there is one, and the magic number in base 16. -/
def dumpHeader (w : Option BitcodeWrapper) (magic : Str) : Str :=
  (match w with
    | none => []
    | some w =>
      "Wrapper: BitcodeWrapper {\n    magic: ".toList ++ decimal w.magic.toNat ++
      ",\n    version: ".toList ++ decimal w.version.toNat ++ ",\n    offset: ".toList ++ decimal w.offset.toNat ++
      ",\n    size: ".toList ++ decimal w.size.toNat ++ ",\n    cpu_type: ".toList ++ decimal w.cpuType.toNat ++
      ",\n}\n".toList) ++ "Entered bitstream; magic: 0x".toList ++ magic ++ "\n".toList

/-- How the program ends when the stream does. -/
def dumpEnd : Bitstream.Next → Out BErr Unit
  | .done => .ok ()
  | .error e => .err e
  | .panic p => .panic p
  | _ => .diverge

end Verif.Spec
