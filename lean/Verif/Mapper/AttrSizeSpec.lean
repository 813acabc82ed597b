import Verif.Mapper.ModuleSpec
import Verif.Bitstream.Deliver

/-! Specification of how much attribute groups and lists hold. -/

namespace Verif.Spec

/-- One for each attribute, and one for each character of its strings. -/
def attributeSize : Attribute → Nat
  | .enum _ => 1
  | .int _ => 1
  | .str s => 1 + s.length
  | .strKeyValue k v => 1 + k.length + v.length

def groupSize (x : AttributeGroup) : Nat := (x.attributes.map attributeSize).sum

def listSize (e : AttributeEntry) : Nat := (e.map groupSize).sum

def listsSize (as : Attributes) : Nat := (as.map listSize).sum

/-- A module of the file has the attribute groups `g` [10] and the attribute lists `as` [9]. -/
def ModuleLists (pf : Profile) (bytes : List U8) (g : AttributeGroups) (as : Attributes) : Prop :=
  ∃ w b tops p c d e, Bitstream.from pf bytes = .ok (w, b) ∧ Delivers pf b (completeEntries tops) ∧ p ∈ parts tops ∧
    p.module = some c ∧ c.2.withId 10 = [d] ∧ GroupsSay d.2.records g ∧ c.2.withId 9 = [e] ∧ ListsSay g e.2.records as

end Verif.Spec
