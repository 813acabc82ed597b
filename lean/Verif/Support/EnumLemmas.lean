import Verif.Support.Enums

/-! Facts about `tryFromPrimitive`. -/

namespace Verif

/-- The variant list is complete and the discriminants are different from each other. -/
class LawfulNumEnum (α : Type) [NumEnum α] : Prop where
  complete : ∀ a : α, a ∈ (NumEnum.all : List α)
  nodup : ((NumEnum.all : List α).map NumEnum.code).Nodup

theorem tryFromPrimitive_iff {α : Type} [NumEnum α] [h : LawfulNumEnum α] {v : U64} {a : α} :
    tryFromPrimitive v = some a ↔ NumEnum.code a = v := by
  unfold tryFromPrimitive
  constructor
  · intro hf
    have := List.find?_some hf
    simpa using this
  · rintro rfl
    have hm := h.complete a
    have hn := h.nodup
    revert hm hn
    generalize (NumEnum.all : List α) = l
    intro hm hn
    induction l with
    | nil => simp at hm
    | cons x xs ih =>
      simp only [List.map_cons, List.nodup_cons] at hn
      rw [List.find?_cons]
      by_cases hx : NumEnum.code x = NumEnum.code a
      · rcases List.mem_cons.1 hm with rfl | hm
        · simp
        · exact absurd (hx ▸ List.mem_map_of_mem hm) hn.1
      · have hx' : (NumEnum.code x == NumEnum.code a) = false := by simpa using hx
        rw [hx']
        rcases List.mem_cons.1 hm with rfl | hm
        · exact absurd rfl hx
        · exact ih hm hn.2

theorem tryFromPrimitive_code {α : Type} [NumEnum α] [LawfulNumEnum α] (a : α) :
    tryFromPrimitive (NumEnum.code a) = some a := tryFromPrimitive_iff.2 rfl

theorem tryFromPrimitive_none {α : Type} [NumEnum α] [LawfulNumEnum α] {v : U64} :
    (tryFromPrimitive v : Option α) = none ↔ v ∉ (NumEnum.all : List α).map NumEnum.code := by
  unfold tryFromPrimitive
  simp

theorem code_injective {α : Type} [NumEnum α] [LawfulNumEnum α] {a b : α} (h : NumEnum.code a = NumEnum.code b) :
    a = b := by
  have := tryFromPrimitive_code a
  rw [h, tryFromPrimitive_code b] at this
  exact (Option.some.inj this).symm

instance : LawfulNumEnum ReservedBlockId where
  complete a := by cases a <;> decide
  nodup := by decide +kernel

instance : LawfulNumEnum IrBlockId where
  complete a := by cases a <;> decide
  nodup := by decide +kernel

instance : LawfulNumEnum IdentificationCode where
  complete a := by cases a <;> decide
  nodup := by decide +kernel

instance : LawfulNumEnum ModuleCode where
  complete a := by cases a <;> decide
  nodup := by decide +kernel

instance : LawfulNumEnum TypeCode where
  complete a := by cases a <;> decide
  nodup := by decide +kernel

instance : LawfulNumEnum StrtabCode where
  complete a := by cases a <;> decide
  nodup := by decide +kernel

instance : LawfulNumEnum SymtabCode where
  complete a := by cases a <;> decide
  nodup := by decide +kernel

instance : LawfulNumEnum AttributeCode where
  complete a := by cases a <;> decide
  nodup := by decide +kernel

instance : LawfulNumEnum FunctionCode where
  complete a := by cases a <;> decide
  nodup := by decide +kernel

instance : LawfulNumEnum UnaryOpcode where
  complete a := by cases a <;> decide
  nodup := by decide +kernel

instance : LawfulNumEnum BinaryOpcode where
  complete a := by cases a <;> decide
  nodup := by decide +kernel

instance : LawfulNumEnum RMWOperation where
  complete a := by cases a <;> decide
  nodup := by decide +kernel

instance : LawfulNumEnum Visibility where
  complete a := by cases a <;> decide
  nodup := by decide +kernel

instance : LawfulNumEnum DllStorageClass where
  complete a := by cases a <;> decide
  nodup := by decide +kernel

instance : LawfulNumEnum CallingConvention where
  complete a := by cases a <;> decide
  nodup := by decide +kernel

instance : LawfulNumEnum AttributeKind where
  complete a := by cases a <;> decide
  nodup := by decide +kernel

instance : LawfulNumEnum AttributeId where
  complete a := by cases a <;> decide
  nodup := by decide +kernel

end Verif
