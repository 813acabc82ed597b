import Verif.Mapper.TypeSpec
import Verif.Mapper.SizeSpec

/-! Specification of the types that LLVM allows (`isValidElementType`, `isValidArgumentType` and `isValidReturnType` in
`llvm/lib/IR/Type.cpp`, and the reader's check that a vector has elements), to compare the rules of this library with. The rules for
pointers, arrays, structures and functions are those of `TypeSpec`. -/

namespace Verif.Spec

/-- LLVM takes numbers and pointers of both kinds as elements of vectors. -/
def LlvmVectorElement (t : Ty) : Prop := IsFloat t ∨ IsInteger t ∨ IsTypedPointer t ∨ ∃ a, t = .opaquePointer a

/-- A type that keeps LLVM's rules at every depth. -/
inductive LlvmValid : Ty → Prop
  | prim (p : Prim) : LlvmValid (.prim p)
  | integer {w : U32} : 1 ≤ w.toNat → w.toNat ≤ 2 ^ 24 - 1 → LlvmValid (.integer w)
  | function {r : Ty} {ps : List Ty} {v : Bool} : LlvmValid r → OkReturn r → (∀ p ∈ ps, LlvmValid p) → (∀ p ∈ ps, OkArgument p) →
      LlvmValid (.function r ps v)
  | pointer {p : Ty} {a : AddressSpace} : LlvmValid p → OkPointee p → LlvmValid (.pointer p a)
  | opaquePointer (a : AddressSpace) : LlvmValid (.opaquePointer a)
  | struct {n : Option Str} {fs : List Ty} {p : Bool} : (∀ f ∈ fs, LlvmValid f) → (∀ f ∈ fs, OkStructElement f) →
      LlvmValid (.struct n fs p)
  | array {n : U64} {e : Ty} : LlvmValid e → OkArrayElement e → LlvmValid (.array n e)
  | fixedVector {n : U64} {e : Ty} : LlvmValid e → LlvmVectorElement e → n ≠ 0 → LlvmValid (.fixedVector n e)
  | scalableVector {n : U64} {e : Ty} : LlvmValid e → LlvmVectorElement e → n ≠ 0 → LlvmValid (.scalableVector n e)

/-- `Part u t`: `u` is `t` or occurs in it, at any depth. -/
inductive Part (u : Ty) : Ty → Prop
  | self : Part u u
  | within {s t : Ty} : s ∈ components t → Part u s → Part u t

/-- A vector of opaque pointers. -/
def PointerVector (t : Ty) : Prop := ∃ n a, t = .fixedVector n (.opaquePointer a) ∨ t = .scalableVector n (.opaquePointer a)

/-- A vector without elements. -/
def EmptyVector (t : Ty) : Prop := ∃ e, t = .fixedVector 0 e ∨ t = .scalableVector 0 e

end Verif.Spec
