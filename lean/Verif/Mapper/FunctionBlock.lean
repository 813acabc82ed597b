import Verif.Mapper.TypeTable
import Verif.Support.Opcode

/-! Function bodies: `llvm-mapper/src/block/function/mod.rs`. -/

namespace Verif

/-- What the messages of `FunctionError::BadInst(String)` say after the function code,
`llvm-mapper/src/block/function/mod.rs:84-88,98-101`. -/
inductive InstMsg where
  | fields (expected got : Nat)
  | type (index : U64)
deriving DecidableEq, Repr

/-- `llvm-mapper/src/block/function/mod.rs:20-44`: `FunctionError`. -/
inductive FunctionBlockError where
  | invalidBlockCount
  | unknownFunctionCode (v : U64)
  | badInst (c : FunctionCode) (m : InstMsg)
  | badUnOp (e : UnaryOpError)
  | badBinOp (e : BinaryOpError)
  | map (e : MapError)
deriving DecidableEq, Repr

/-- `llvm-mapper/src/block/function/mod.rs:49-52`: `Function`. Nothing is ever put into a basic block, so only their number
is kept. -/
structure FunctionBlock where
  blocks : Nat
deriving DecidableEq, Repr

/-- The size of a `BasicBlock` (`llvm-mapper/src/block/function/basic_block.rs:8-11`), a vector, in bytes on a 64-bit
target; the capacity overflow of l. 75 depends on it. Running out of memory below that limit is not modelled. -/
def basicBlockSize : Nat := 24

/-- `Vec::with_capacity(nblocks as usize)`, `llvm-mapper/src/block/function/mod.rs:75`. -/
def blockCapacity (n : U64) : Out FunctionBlockError Unit :=
  if n.toNat * basicBlockSize < 2 ^ 63 then .ok () else .panic .capacity

/-- `unpack_fields!`, `llvm-mapper/src/block/function/mod.rs:81-91`: an error unless there are exactly `n` fields. -/
def unpackFields (code : FunctionCode) (r : BRecord) (n : Nat) : Out FunctionBlockError Unit :=
  if r.fields.length = n then .ok () else .err (.badInst code (.fields n r.fields.length))

/-- `get_type!`, `llvm-mapper/src/block/function/mod.rs:93-104`. -/
def instType (code : FunctionCode) (types : TypeTable) (ty : U64) : Out FunctionBlockError Ty :=
  Out.ofOption (.badInst code (.type ty)) (types.get ty)

/-- `llvm-mapper/src/block/function/mod.rs:78-197`: one round of the loop over the records. The codes are listed in the
order of the `match`; the last arm stands for the arms that are `todo!()`. -/
def functionStep (types : TypeTable) (r : BRecord) : Out FunctionBlockError Unit := do
  let code ← Out.ofOption (.unknownFunctionCode r.code) (tryFromPrimitive r.code : Option FunctionCode)
  match code with
  | .declareBlocks => .ok ()
  | .operandBundle => .panic .unimplemented
  | .debugLoc => .panic .unimplemented
  | .debugLocAgain => .panic .unimplemented
  | .instBinop =>
    match r.fields with
    | [_, ty, _, opcode] => do
      let ty ← instType code types ty
      let _ ← (BinaryOp.tryFrom opcode ty).mapErr .badBinOp
      .ok ()
    | fs => .err (.badInst code (.fields 4 fs.length))
  | .instCast => unpackFields code r 4
  | .instAlloca => unpackFields code r 4
  | .instLoad => unpackFields code r 4
  | .instStore => unpackFields code r 4
  | .instUnop =>
    match r.fields with
    | [_, ty, opcode] => do
      let _ ← instType code types ty
      let _ ← (UnaryOp.tryFrom opcode).mapErr .badUnOp
      .ok ()
    | fs => .err (.badInst code (.fields 3 fs.length))
  | _ => .panic .unimplemented

/-- The loop, l. 78-197: the records in order, up to the first failure. -/
def functionLoop (types : TypeTable) : List BRecord → Out FunctionBlockError Unit
  | [] => .ok ()
  | r :: rs => do
    functionStep types r
    functionLoop types rs

/-- `llvm-mapper/src/block/function/mod.rs:54-201`: `TryFrom<(&Block, &MapCtx)> for Function`; of the context only the type
table is used. After the loop comes `unimplemented!()`, l. 199. -/
def FunctionBlock.tryFrom (b : UBlock) (types : TypeTable) : Out FunctionBlockError FunctionBlock := do
  let r ← (Records.exactlyOne b.records FunctionCode.declareBlocks.code).mapErr fun e => .map (.inconsistent e)
  let n ← Out.ofOption .invalidBlockCount r.fields.head?
  blockCapacity n
  functionLoop types b.records
  .panic .unimplemented

end Verif
