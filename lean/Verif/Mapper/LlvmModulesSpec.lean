import Verif.Mapper.LlvmModuleSpec

/-!
# Files with several modules, as LLVM writes them

`BitcodeWriter` writes any number of modules into one file, each after an identification, then the symbol table of all of them, if there is
one, and their common string table (`BitcodeWriter.cpp`, `writeModule`, `writeSymtab`, `writeStrtab`).
-/

namespace Verif.Spec

/-- A module with the identification that is written before it. -/
structure ProducedModule where
  producer : Str
  epoch : U64
  module : LlvmModule

/-- The blocks of the modules: for each an identification and a module block. -/
inductive ModuleBlocks : List ProducedModule → List (BBlock × Forest) → Prop
  | nil : ModuleBlocks [] []
  | cons {P : ProducedModule} {Ps : List ProducedModule} {i c : BBlock × Forest} {tops : List (BBlock × Forest)} :
      IsIdentification i P.producer P.epoch → c.1.blockId = 8 → P.module.WrittenAs c.2 → ModuleBlocks Ps tops → ModuleBlocks (P :: Ps) (i :: c :: tops)

/-- The blocks of the tables: the symbol table, if there is one, and the string table. -/
inductive TableBlocks (text : List U8) : Option (List U8) → List (BBlock × Forest) → Prop
  | plain {s : BBlock × Forest} : IsBytes s 23 text → TableBlocks text none [s]
  | withSymbols {y s : BBlock × Forest} {symbols : List U8} : IsBytes y 25 symbols → IsBytes s 23 text → TableBlocks text (some symbols) [y, s]

/-- Bytes that are read: not just one, and in a debug build not none. -/
def ReadableBytes (pf : Profile) (bytes : List U8) : Prop := bytes.length ≠ 1 ∧ (bytes = [] → pf = .release)

/-- What is reported of one of the modules of a file. -/
structure ProducedModule.ReportedAs (P : ProducedModule) (target : Str) (text : List U8) (symbols : Option (List U8)) (m : BitcodeModule) : Prop where
  identification : m.identification = ⟨P.producer, P.epoch⟩
  strtab : m.strtab.bytes = text
  symtab : m.symtab.map (·.bytes) = symbols
  module : P.module.ReportedAs target m.module

end Verif.Spec
