import Verif.Mapper.ModuleSpec
import Verif.Bitstream.Deliver

/-! Specification of how much a mapped file holds. -/

namespace Verif.Spec

/-- The characters and bytes of a mapped module: its producer, target triple, assembly and libraries, and its tables. -/
def moduleSize (m : BitcodeModule) : Nat :=
  m.identification.producer.length + m.module.triple.length + (m.module.asm.map (·.length)).sum +
    (m.module.deplibs.map (·.length)).sum + m.strtab.bytes.length + m.symtab.elim 0 fun s => s.bytes.length

def fileSize (f : Bitcode) : Nat := (f.modules.map moduleSize).sum

/-- A module of the file has a type table with the types `ts`. -/
def ModuleTypes (pf : Profile) (bytes : List U8) (ts : List Ty) : Prop :=
  ∃ w b tops p c d, Bitstream.from pf bytes = .ok (w, b) ∧ Delivers pf b (completeEntries tops) ∧ p ∈ parts tops ∧
    p.module = some c ∧ c.2.withId 17 = [d] ∧ TypesSay pf d.2.records ts

end Verif.Spec
