import Verif.Mapper.AttributeSpec
import Verif.Mapper.ModuleSpec

/-!
# Attribute groups as LLVM writes them

The records that LLVM's writer makes of attribute groups (`BitcodeWriter.cpp`, `writeAttributeGroupTable`), and when mapped groups are those
that were written.
-/

namespace Verif.Spec

/-- An attribute as LLVM writes it: by number, by number with a value, a string, a string with a value, or by number with a type (`sret(T)`,
`byval(T)`, `elementtype(T)`; in old files the type may be missing). Strings are any bytes. -/
inductive LlvmAttr where
  | enum (id : U64)
  | int (id value : U64)
  | str (key : List U8)
  | keyValue (key value : List U8)
  | type (id : U64) (type : Option U64)

/-- A string with the NUL at its end. -/
def llvmString (s : List U8) : List U64 := s.map (·.setWidth 64) ++ [0]

/-- The fields of an attribute. -/
def LlvmAttr.fields : LlvmAttr → List U64
  | .enum id => [0, id]
  | .int id value => [1, id, value]
  | .str key => 3 :: llvmString key
  | .keyValue key value => 4 :: (llvmString key ++ llvmString value)
  | .type id none => [5, id]
  | .type id (some t) => [6, id, t]

/-- Strings have no NUL in them; a value that is empty is not written. -/
def LlvmAttr.Allowed : LlvmAttr → Prop
  | .str key => (0 : U8) ∉ key
  | .keyValue key value => (0 : U8) ∉ key ∧ (0 : U8) ∉ value ∧ value ≠ []
  | _ => True

/-- Some text: not empty, and UTF-8. -/
def IsText (s : List U8) : Prop := s ≠ [] ∧ ∃ t, utf8 t = s

/-- The attributes that are read: those listed without a value; those with a value of which the value is one they can have here; strings that are
text; none with a type. -/
def LlvmAttr.Readable : LlvmAttr → Prop
  | .enum id => ∃ a, (id.toNat, a) ∈ enumAttributeTable
  | .int id value => (id.toNat ∈ [1, 25] ∧ value.toNat ≤ 64) ∨ (id.toNat = 33 ∧ value.toNat ≤ 2) ∨ (id.toNat = 51 ∧ value.toNat ≠ 0) ∨
      id.toNat ∈ [41, 42, 74, 82, 86]
  | .str key => IsText key
  | .keyValue key value => IsText key ∧ IsText value
  | .type _ _ => False

/-- The mapped attribute is the one that was written. What values mean is a question of its own (`AsInt`, `Packs`). -/
def SameAttr : LlvmAttr → Attribute → Prop
  | .enum id, .enum a => (id.toNat, a) ∈ enumAttributeTable
  | .int id value, .int a => AsInt a id.toNat value.toNat
  | .str key, .str s => key ≠ [] ∧ utf8 s = key
  | .keyValue key value, .strKeyValue k v => key ≠ [] ∧ utf8 k = key ∧ utf8 v = value
  | _, _ => False

/-- A group: its number, the index of the parameter (0 is the return value, `2^32 - 1` the function), and its attributes. -/
structure LlvmGroup where
  id : U32
  param : U32
  attrs : List LlvmAttr

/-- The record of a group. -/
def LlvmGroup.toRecord (g : LlvmGroup) : BRecord :=
  ⟨none, 3, g.id.setWidth 64 :: g.param.setWidth 64 :: g.attrs.flatMap LlvmAttr.fields⟩

/-- A group has attributes, and they are allowed. -/
def LlvmGroup.Allowed (g : LlvmGroup) : Prop := g.attrs ≠ [] ∧ ∀ a ∈ g.attrs, a.Allowed

/-- The mapped group is the one that was written. -/
def SameGroup (g : LlvmGroup) (x : AttributeGroup) : Prop :=
  x.disposition = place g.param.toNat ∧ Each SameAttr g.attrs x.attributes

end Verif.Spec
