import Verif.Mapper.ModuleSpec
import Verif.Mapper.TreeSpec

/-! Specification of the results that mapping can have, and of a file for each of them. -/

namespace Verif.Spec

/-- Texts that a record can hold: none of one byte, and none without bytes in a debug build. -/
def HeldText (pf : Profile) (s : Str) : Prop := (utf8 s).length ≠ 1 ∧ (s = [] → pf = .release)

/-- The same for bytes. -/
def HeldBytes (pf : Profile) (bs : List U8) : Prop := bs.length ≠ 1 ∧ (bs = [] → pf = .release)

/-- What a mapped module can be. Lines of assembly are the pieces of one text, so there is no line feed in them. -/
structure ModuleCanBe (pf : Profile) (target : Str) (m : BitcodeModule) : Prop where
  producer : HeldText pf m.identification.producer
  strtab : HeldBytes pf m.strtab.bytes
  symtab : ∀ s, m.symtab = some s → HeldBytes pf s.bytes
  triple : m.module.triple = target ∨ HeldText pf m.module.triple
  asm : m.module.asm = [] ∨ ((∀ l ∈ m.module.asm, '\n' ∉ l) ∧ HeldText pf (['\n'].intercalate m.module.asm))
  deplibs : ∀ d ∈ m.module.deplibs, HeldText pf d

/-- What a mapped file can be. If there is a symbol table, the modules before it have one as well. -/
def FileCanBe (pf : Profile) (target : Str) (f : Bitcode) : Prop :=
  (∀ m ∈ f.modules, ModuleCanBe pf target m) ∧ f.modules.Pairwise fun a b => b.symtab ≠ none → a.symtab ≠ none

/-! ## Files for them -/

def bytesFields (bs : List U8) : List U64 := bs.map (·.setWidth 64)

/-- Records with the same code, one for each text. -/
def textRecords (code : U64) (ts : List Str) (rest : Tree) : Tree :=
  ts.foldr (fun s rest => .record code (bytesFields (utf8 s)) rest) rest

/-- The contents of a module block: the version, an empty type table, an empty symbol table, and what the module has. -/
def moduleTree (target : Str) (m : Module) : Tree :=
  .record 1 [2] <| .block 17 (.record 1 [0] .nil) <| .block 14 .nil <|
    textRecords 2 (if m.triple = target then [] else [m.triple]) <|
    textRecords 4 (if m.asm = [] then [] else [['\n'].intercalate m.asm]) <|
    textRecords 6 m.deplibs .nil

/-- The blocks of a module: identification, module, string table and symbol table, if there is one. -/
def partsTree (target : Str) (m : BitcodeModule) (rest : Tree) : Tree :=
  .block 13 (.record 1 (bytesFields (utf8 m.identification.producer)) <| .record 2 [m.identification.epoch] .nil) <|
  .block 8 (moduleTree target m.module) <|
  .block 23 (.record 1 (bytesFields m.strtab.bytes) .nil) <|
  match m.symtab with
  | none => rest
  | some s => .block 25 (.record 1 (bytesFields s.bytes) .nil) rest

def fileTree (target : Str) (f : Bitcode) : Tree := f.modules.foldr (partsTree target) .nil

end Verif.Spec
