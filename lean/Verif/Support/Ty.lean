import Verif.Support.Align

/-! Types: `llvm-support/src/ty.rs`. -/

namespace Verif

/-- The variants of `Type` without contents, `llvm-support/src/ty.rs:65-77`. -/
inductive Prim where
  | half | bFloat | float | double | metadata | x86Fp80 | fp128 | ppcFp128 | void | label | x86Mmx | x86Amx | token
deriving DecidableEq, Repr

/-- `llvm-support/src/ty.rs:63-86`: `Type`, with `IntegerType` (l. 347-350), `FunctionType` (l. 507-511), `PointerType`
(l. 396-399), `StructType` (l. 302-309), `ArrayType` (l. 431-434) and `VectorType` (l. 469-472) flattened into the variants. -/
inductive Ty where
  | prim (p : Prim)
  | integer (bitWidth : U32)
  | function (returnType : Ty) (paramTypes : List Ty) (isVararg : Bool)
  | pointer (pointee : Ty) (addressSpace : AddressSpace)
  | opaquePointer (addressSpace : AddressSpace)
  | struct (name : Option Str) (fields : List Ty) (isPacked : Bool)
  | array (numElements : U64) (elementType : Ty)
  | fixedVector (numElements : U64) (elementType : Ty)
  | scalableVector (numElements : U64) (elementType : Ty)
deriving Repr

/-! Equality is derived in Rust (l. 62); Lean's deriving handler does not cover lists of the type itself. -/

mutual
def Ty.beq : Ty → Ty → Bool
  | .prim p, .prim q => p == q
  | .integer v, .integer w => v == w
  | .function r ps v, .function r' ps' v' => Ty.beq r r' && Ty.beqList ps ps' && v == v'
  | .pointer p a, .pointer p' a' => Ty.beq p p' && a == a'
  | .opaquePointer a, .opaquePointer a' => a == a'
  | .struct n fs p, .struct n' fs' p' => n == n' && Ty.beqList fs fs' && p == p'
  | .array n e, .array n' e' => n == n' && Ty.beq e e'
  | .fixedVector n e, .fixedVector n' e' => n == n' && Ty.beq e e'
  | .scalableVector n e, .scalableVector n' e' => n == n' && Ty.beq e e'
  | _, _ => false
def Ty.beqList : List Ty → List Ty → Bool
  | [], [] => true
  | a :: l, b :: m => Ty.beq a b && Ty.beqList l m
  | _, _ => false
end

mutual
theorem Ty.beq_iff : ∀ a b : Ty, Ty.beq a b = true ↔ a = b
  | .prim p, b => by cases b <;> simp [Ty.beq]
  | .integer v, b => by cases b <;> simp [Ty.beq]
  | .function r ps v, b => by
    cases b <;> simp [Ty.beq, and_assoc]
    rw [Ty.beq_iff r, Ty.beqList_iff ps]
  | .pointer p a, b => by
    cases b <;> simp [Ty.beq]
    rw [Ty.beq_iff p]; simp
  | .opaquePointer a, b => by cases b <;> simp [Ty.beq]
  | .struct n fs p, b => by
    cases b <;> simp [Ty.beq, and_assoc]
    rw [Ty.beqList_iff fs]; simp
  | .array n e, b => by
    cases b <;> simp [Ty.beq]
    rw [Ty.beq_iff e]; simp
  | .fixedVector n e, b => by
    cases b <;> simp [Ty.beq]
    rw [Ty.beq_iff e]; simp
  | .scalableVector n e, b => by
    cases b <;> simp [Ty.beq]
    rw [Ty.beq_iff e]; simp
theorem Ty.beqList_iff : ∀ a b : List Ty, Ty.beqList a b = true ↔ a = b
  | [], b => by cases b <;> simp [Ty.beqList]
  | a :: l, b => by
    cases b <;> simp [Ty.beqList]
    rw [Ty.beq_iff a, Ty.beqList_iff l]
end

instance : DecidableEq Ty := fun a b => decidable_of_iff _ (Ty.beq_iff a b)

namespace Ty

/-- `llvm-support/src/ty.rs:102-113`: `is_floating`. -/
def isFloating : Ty → Bool
  | prim .half | prim .bFloat | prim .float | prim .double | prim .x86Fp80 | prim .fp128 | prim .ppcFp128 => true
  | _ => false

/-- `llvm-support/src/ty.rs:116-118`: `is_integer`. -/
def isInteger : Ty → Bool
  | integer _ => true
  | _ => false

/-- `llvm-support/src/ty.rs:122-127`: `is_pointee`. -/
def isPointee : Ty → Bool
  | prim .void | prim .label | prim .metadata | prim .token | prim .x86Amx => false
  | _ => true

/-- `llvm-support/src/ty.rs:131-142`: `is_array_element`. -/
def isArrayElement : Ty → Bool
  | prim .void | prim .label | prim .metadata | function .. | prim .token | prim .x86Amx | scalableVector .. => false
  | _ => true

/-- `llvm-support/src/ty.rs:146-151`: `is_struct_element`. -/
def isStructElement : Ty → Bool
  | prim .void | prim .label | prim .metadata | function .. | prim .token => false
  | _ => true

/-- `llvm-support/src/ty.rs:168-170`: `is_vector_element`. -/
def isVectorElement (t : Ty) : Bool :=
  t.isFloating || match t with
    | integer _ | pointer .. => true
    | _ => false

/-- `llvm-support/src/ty.rs:173-175`: `is_first_class`. -/
def isFirstClass : Ty → Bool
  | function .. | prim .void => false
  | _ => true

/-- `llvm-support/src/ty.rs:186-188`: `is_argument`. -/
def isArgument (t : Ty) : Bool := t.isFirstClass

/-- `llvm-support/src/ty.rs:192-194`: `is_return`. -/
def isReturn : Ty → Bool
  | function .. | prim .label | prim .metadata => false
  | _ => true

/-- `llvm-support/src/ty.rs:199-213`: `scalar_type`. -/
def scalarType : Ty → Ty
  | scalableVector _ e => e
  | fixedVector _ e => e
  | t => t

/-- `llvm-support/src/ty.rs:217-219`: `is_floating_or_floating_vector`. -/
def isFloatingOrFloatingVector (t : Ty) : Bool := t.scalarType.isFloating

/-- `llvm-support/src/ty.rs:223-225`: `is_integer_or_integer_vector`. -/
def isIntegerOrIntegerVector (t : Ty) : Bool := t.scalarType.isInteger

/-- The errors of the constructors, `llvm-support/src/ty.rs:292-297,331-340,384-389,421-426,456-461,494-502`: one type here,
with the variants' names qualified by the error type's. -/
inductive Error where
  | structBadElement (t : Ty)
  | integerBadWidth
  | pointerBadPointee (t : Ty)
  | arrayBadElement (t : Ty)
  | vectorBadElement (t : Ty)
  | functionBadReturn (t : Ty)
  | functionBadParameter (t : Ty)
deriving DecidableEq, Repr

/-- `llvm-support/src/ty.rs:228-236,313-327`: `new_struct`. -/
def newStruct (name : Option Str) (fields : List Ty) (isPacked : Bool) : Out Error Ty :=
  match fields.find? (fun t => !t.isStructElement) with
  | some bad => .err (.structBadElement bad)
  | none => .ok (struct name fields isPacked)

/-- `llvm-support/src/ty.rs:354`. -/
def minIntBits : U32 := 1

/-- `llvm-support/src/ty.rs:356`. -/
def maxIntBits : U32 := BitVec.ofNat 32 (2 ^ 24 - 1)

/-- `llvm-support/src/ty.rs:239-243,371-382`: `new_integer`. -/
def newInteger (bitWidth : U32) : Out Error Ty :=
  if minIntBits ≤ bitWidth ∧ bitWidth ≤ maxIntBits then .ok (integer bitWidth) else .err .integerBadWidth

/-- `llvm-support/src/ty.rs:246-253,403-412`: `new_pointer`. -/
def newPointer (pointee : Ty) (addressSpace : AddressSpace) : Out Error Ty :=
  if pointee.isPointee then .ok (pointer pointee addressSpace) else .err (.pointerBadPointee pointee)

/-- `llvm-support/src/ty.rs:256-260,438-447`: `new_array`. -/
def newArray (numElements : U64) (elementType : Ty) : Out Error Ty :=
  if elementType.isArrayElement then .ok (array numElements elementType) else .err (.arrayBadElement elementType)

/-- `llvm-support/src/ty.rs:263-270,476-485`: `new_scalable_vector`. -/
def newScalableVector (numElements : U64) (elementType : Ty) : Out Error Ty :=
  if elementType.isVectorElement then .ok (scalableVector numElements elementType)
  else .err (.vectorBadElement elementType)

/-- `llvm-support/src/ty.rs:273-277,476-485`: `new_vector`. -/
def newVector (numElements : U64) (elementType : Ty) : Out Error Ty :=
  if elementType.isVectorElement then .ok (fixedVector numElements elementType)
  else .err (.vectorBadElement elementType)

/-- `llvm-support/src/ty.rs:280-288,515-532`: `new_function`. -/
def newFunction (returnType : Ty) (paramTypes : List Ty) (isVararg : Bool) : Out Error Ty :=
  if !returnType.isReturn then .err (.functionBadReturn returnType)
  else
    match paramTypes.find? (fun t => !t.isArgument) with
    | some bad => .err (.functionBadParameter bad)
    | none => .ok (function returnType paramTypes isVararg)

/-- `llvm-support/src/ty.rs:366-368`: `byte_width` of an integer type. `bit_width + 7` does not overflow for widths of
integer types. -/
def byteWidth (bitWidth : U32) : U32 := (bitWidth + 7) / 8

end Ty

end Verif
