import Verif.Support.Enums

/-! Enumerations of `llvm-support/src/lib.rs` that decode every number. -/

namespace Verif

/-- `llvm-support/src/lib.rs:91-103`: `Linkage`. -/
inductive Linkage where
  | external | availableExternally | linkOnceAny | linkOnceOdr | weakAny | weakOdr | appending | internal | «private»
  | externalWeak | common
deriving DecidableEq, Repr

/-- `llvm-support/src/lib.rs:105-124`: `From<u64> for Linkage`. -/
def Linkage.ofU64 (v : U64) : Linkage :=
  match v.toNat with
  | 0 | 5 | 6 | 15 => .external
  | 1 | 16 => .weakAny
  | 2 => .appending
  | 3 => .internal
  | 4 | 18 => .linkOnceAny
  | 7 => .externalWeak
  | 8 => .common
  | 9 | 13 | 14 => .«private»
  | 10 | 17 => .weakOdr
  | 11 | 19 => .linkOnceOdr
  | 12 => .availableExternally
  | _ => .external

/-- `llvm-support/src/lib.rs:185-202`: `ThreadLocalMode`. -/
inductive ThreadLocalMode where
  | notThreadLocal | generalDynamicTls | localDynamicTls | initialExecTls | localExecTls
deriving DecidableEq, Repr

/-- `llvm-support/src/lib.rs:204-216`: `From<u64> for ThreadLocalMode`. -/
def ThreadLocalMode.ofU64 (v : U64) : ThreadLocalMode :=
  match v.toNat with
  | 0 => .notThreadLocal
  | 1 => .generalDynamicTls
  | 2 => .localDynamicTls
  | 3 => .initialExecTls
  | 4 => .localExecTls
  | _ => .generalDynamicTls

/-- `#[derive(IntoPrimitive)]` on `ThreadLocalMode`, `llvm-support/src/lib.rs:185`. -/
def ThreadLocalMode.code : ThreadLocalMode → U64
  | .notThreadLocal => 0
  | .generalDynamicTls => 1
  | .localDynamicTls => 2
  | .initialExecTls => 3
  | .localExecTls => 4

/-- `llvm-support/src/lib.rs:219-230`: `UnnamedAddr`. -/
inductive UnnamedAddr where
  | none | «global» | «local»
deriving DecidableEq, Repr

/-- `llvm-support/src/lib.rs:232-242`: `From<u64> for UnnamedAddr`. -/
def UnnamedAddr.ofU64 (v : U64) : UnnamedAddr :=
  match v.toNat with
  | 0 => .none
  | 1 => .«global»
  | 2 => .«local»
  | _ => .none

/-- `#[derive(IntoPrimitive)]` on `UnnamedAddr`, `llvm-support/src/lib.rs:219`. -/
def UnnamedAddr.code : UnnamedAddr → U64
  | .none => 0
  | .«global» => 1
  | .«local» => 2

/-- `llvm-support/src/lib.rs:247-257`: `RuntimePreemption`. -/
inductive RuntimePreemption where
  | dsoPreemptable | dsoLocal
deriving DecidableEq, Repr

/-- `llvm-support/src/lib.rs:259-268`: `From<u64> for RuntimePreemption`. -/
def RuntimePreemption.ofU64 (v : U64) : RuntimePreemption :=
  match v.toNat with
  | 0 => .dsoPreemptable
  | 1 => .dsoLocal
  | _ => .dsoPreemptable

/-- `#[derive(IntoPrimitive)]` on `RuntimePreemption`, `llvm-support/src/lib.rs:247`. -/
def RuntimePreemption.code : RuntimePreemption → U64
  | .dsoPreemptable => 0
  | .dsoLocal => 1

end Verif
