import Verif.Support.Enums
import Verif.Support.Ty

/-! Unary and binary operators: `llvm-support/src/opcode.rs`. -/

namespace Verif

/-- `llvm-support/src/opcode.rs:63-66`: `UnaryOp`. -/
inductive UnaryOp where
  | fNeg
deriving DecidableEq, Repr

/-- `llvm-support/src/opcode.rs:70-74`: `UnaryOpError`. -/
inductive UnaryOpError where
  | opcode (v : U64)
deriving DecidableEq, Repr

/-- `llvm-support/src/opcode.rs:84-90`: `From<UnaryOpcode> for UnaryOp`. -/
def UnaryOp.ofOpcode : UnaryOpcode → UnaryOp
  | .fNeg => .fNeg

/-- `llvm-support/src/opcode.rs:76-82`: `TryFrom<u64> for UnaryOp`. -/
def UnaryOp.tryFrom (v : U64) : Out UnaryOpError UnaryOp := do
  let opc ← Out.ofOption (.opcode v) (tryFromPrimitive v)
  .ok (.ofOpcode opc)

/-- `llvm-support/src/opcode.rs:94-131`: `BinaryOp`. -/
inductive BinaryOp where
  | add | fAdd | sub | fSub | mul | fMul | uDiv | sDiv | fDiv | uRem | sRem | fRem | shl | lShr | aShr | and | or | xor
deriving DecidableEq, Repr

/-- `llvm-support/src/opcode.rs:135-147`: `BinaryOpError`. -/
inductive BinaryOpError where
  | invalidType (t : Ty)
  | incompatibleType (t : Ty)
  | opcode (v : U64)
deriving DecidableEq, Repr

/-- `llvm-support/src/opcode.rs:162-187`: the `match`, arm by arm. -/
def BinaryOp.choose (opc : BinaryOpcode) (isFp : Bool) (ty : Ty) : Out BinaryOpError BinaryOp :=
  match opc, isFp with
  | .add, false => .ok .add
  | .add, true => .ok .fAdd
  | .sub, false => .ok .sub
  | .sub, true => .ok .fSub
  | .mul, false => .ok .mul
  | .mul, true => .ok .fMul
  | .uDiv, false => .ok .uDiv
  | .uDiv, true => .err (.incompatibleType ty)
  | .sDiv, false => .ok .sDiv
  | .sDiv, true => .ok .fDiv
  | .uRem, false => .ok .uRem
  | .uRem, true => .err (.incompatibleType ty)
  | .sRem, false => .ok .sRem
  | .sRem, true => .ok .fRem
  | .shl, true => .ok .shl
  | .lShr, true => .ok .lShr
  | .aShr, true => .ok .aShr
  | .and, true => .ok .and
  | .or, true => .ok .or
  | .xor, true => .ok .xor
  | _, false => .err (.incompatibleType ty)

/-- `llvm-support/src/opcode.rs:149-189`: `TryFrom<(u64, &Type)> for BinaryOp`. -/
def BinaryOp.tryFrom (v : U64) (ty : Ty) : Out BinaryOpError BinaryOp := do
  let opc ← Out.ofOption (.opcode v) (tryFromPrimitive v)
  let isFp := ty.isFloatingOrFloatingVector
  if !isFp || !ty.isIntegerOrIntegerVector then .err (.invalidType ty)
  else BinaryOp.choose opc isFp ty

end Verif
