import Verif.Mapper.Tables
import Verif.Support.Align

/-! `llvm-mapper/src/map.rs`: the errors shared by the mappings. -/

namespace Verif

/-- `llvm-mapper/src/map.rs:42-50`: `MapCtxError`. -/
inductive MapCtxError where
  | noVersion
  | noTypeTable
deriving DecidableEq, Repr

/-- The messages of `MapError::Invalid(String)`, `llvm-mapper/src/block/type_table.rs:341,352,377,464,502`. -/
inductive InvalidMsg where
  | opaqueUnnamed
  | opaqueNamed
  | pointerSpace (e : AddressSpaceError)
  | structDeclared
  | typeSpace (e : AddressSpaceError)
deriving DecidableEq, Repr

/-- `llvm-mapper/src/map.rs:12-38`: `MapError`. `Unsupported` has one message only (`block/type_table.rs:387`), and
`BadBlockMap` is never made. -/
inductive MapError where
  | badBlockMap
  | inconsistent (e : ConsistencyError)
  | unsupported
  | invalid (m : InvalidMsg)
  | recordString (e : RecordStringError)
  | context (e : MapCtxError)
deriving DecidableEq, Repr

end Verif
