import Verif.Mapper.MapError
import Verif.Support.Ty

/-! The type table: `llvm-mapper/src/block/type_table.rs`. -/

namespace Verif

/-- `llvm-mapper/src/block/type_table.rs:18-62`: `TypeTableError`. The five errors of type constructors are one variant. -/
inductive TypeTableError where
  | badSize (expected got : Nat)
  | badIndex (i : Nat)
  | unknownTypeCode (code : U64)
  | badTable
  | invalidType (e : Ty.Error)
  | map (e : MapError)
deriving DecidableEq, Repr

/-- `llvm-mapper/src/block/type_table.rs:66-67`: `TypeRef`. -/
abbrev TypeRef := U64

/-- `llvm-mapper/src/block/type_table.rs:84-106`: `PartialType`, with the structures of l. 178-215 flattened. -/
inductive PType where
  | prim (p : Prim)
  | integer (bitWidth : U32)
  | function (returnType : TypeRef) (paramTypes : List TypeRef) (isVararg : Bool)
  | pointer (pointee : TypeRef) (addressSpace : AddressSpace)
  | opaquePointer (addressSpace : AddressSpace)
  | struct (name : Option Str) (fieldTypes : List TypeRef) (isPacked : Bool)
  | array (numElements : U64) (elementType : TypeRef)
  | fixedVector (numElements : U64) (elementType : TypeRef)
  | scalableVector (numElements : U64) (elementType : TypeRef)
deriving DecidableEq, Repr

/-- `.map(f).collect::<Result<Vec<_>, _>>()?`: in order, up to the first failure. -/
def mapOut {ε α β : Type} (f : α → Out ε β) : List α → Out ε (List β)
  | [] => .ok []
  | a :: l => do
    let b ← f a
    let bs ← mapOut f l
    .ok (b :: bs)

/-- `llvm-mapper/src/block/type_table.rs:111-175`: `PartialType::resolve`, given the resolution of references. -/
def PType.resolve (ref : TypeRef → Out TypeTableError Ty) : PType → Out TypeTableError Ty
  | prim p => .ok (.prim p)
  | integer w => (Ty.newInteger w).mapErr .invalidType
  | function ret params va => do
    let r ← ref ret
    let ps ← mapOut ref params
    (Ty.newFunction r ps va).mapErr .invalidType
  | pointer p a => do
    let t ← ref p
    (Ty.newPointer t a).mapErr .invalidType
  | opaquePointer a => .ok (.opaquePointer a)
  | struct name fields packed => do
    let fs ← mapOut ref fields
    (Ty.newStruct name fs packed).mapErr .invalidType
  | array n e => do
    let t ← ref e
    (Ty.newArray n t).mapErr .invalidType
  | fixedVector n e => do
    let t ← ref e
    (Ty.newVector n t).mapErr .invalidType
  | scalableVector n e => do
    let t ← ref e
    (Ty.newScalableVector n t).mapErr .invalidType

/-- `llvm-mapper/src/block/type_table.rs:244-259`: `PartialTypeTable::get` and `resolve`. Resolution is a recursion without
a bound; here a call that goes deeper than the fuel gives `diverge`. `resolveRef_stable` shows that no result changes with
more fuel than there are entries plus one, so `diverge` at that depth stands for a recursion that never ends (in practice, that
overflows the stack). -/
def resolveRef (table : List PType) : Nat → TypeRef → Out TypeTableError Ty
  | 0, _ => .diverge
  | n + 1, r =>
    match table[r.toNat]? with
    | some p => p.resolve (resolveRef table n)
    | none => .err (.badIndex r.toNat)

/-- `llvm-mapper/src/block/type_table.rs:280-281`: `TypeTable`. -/
abbrev TypeTable := List Ty

/-- `llvm-mapper/src/block/type_table.rs:262-276`: `reify`. -/
def reifyTypes (numEntries : Nat) (table : List PType) : Out TypeTableError TypeTable :=
  if table.length ≠ numEntries then .err (.badSize numEntries table.length)
  else mapOut (PType.resolve (resolveRef table (table.length + 1))) table

/-- `llvm-mapper/src/block/type_table.rs:284-287`: `get`. -/
def TypeTable.get (t : TypeTable) (r : TypeRef) : Option Ty := t[r.toNat]?

/-- `type_field!`, `llvm-mapper/src/block/type_table.rs:313-321`. -/
def typeField (r : BRecord) (n : Nat) : Out TypeTableError U64 := Out.ofOption .badTable r.fields[n]?

/-- The state of the loop: the partial types so far, and the pending type name (l. 309-310). -/
structure TypeTableState where
  inner : List PType
  lastName : Str
deriving DecidableEq, Repr

/-- `partial_types.add`, l. 235-237. -/
def TypeTableState.add (s : TypeTableState) (t : PType) : TypeTableState := { s with inner := s.inner ++ [t] }

/-- `*partial_types.last_mut() = t`, for a table that is not empty. -/
def TypeTableState.setLast (s : TypeTableState) (t : PType) : TypeTableState :=
  { s with inner := s.inner.dropLast ++ [t] }

/-- `record.fields()[1..]`, l. 431-434, 454-457, and `[2..]`, l. 487-490: the fields before have been read, so the slice
does not panic. -/
def typeRefs (r : BRecord) (n : Nat) : List TypeRef := r.fields.drop n

/-- `llvm-mapper/src/block/type_table.rs:334-368`: `TypeCode::Opaque`. -/
def stepOpaque (s : TypeTableState) : Out TypeTableError TypeTableState :=
  if s.lastName = [] then .err (.map (.invalid .opaqueUnnamed))
  else
    match s.inner.getLast? with
    | some (.struct (some _) _ _) => .err (.map (.invalid .opaqueNamed))
    | some (.struct none fields packed) =>
      .ok { s.setLast (.struct (some s.lastName) fields packed) with lastName := [] }
    | _ => .ok { s.add (.struct (some s.lastName) [] false) with lastName := [] }

/-- `llvm-mapper/src/block/type_table.rs:448-482`: `TypeCode::StructNamed`. -/
def stepStructNamed (s : TypeTableState) (r : BRecord) : Out TypeTableError TypeTableState := do
  let packed ← typeField r 0
  let fields := typeRefs r 1
  match s.inner.getLast? with
  | some (.struct name fs p) =>
    if name.isSome ∨ fs ≠ [] then .err (.map (.invalid .structDeclared))
    else .ok { s.setLast (.struct (some s.lastName) fields p) with lastName := [] }
  | _ => .ok { s.add (.struct (some s.lastName) fields (packed > 0)) with lastName := [] }

/-- `llvm-mapper/src/block/type_table.rs:311-507`: one round of the loop over the records. -/
def typeStep (pf : Profile) (s : TypeTableState) (r : BRecord) : Out TypeTableError TypeTableState := do
  let code ← Out.ofOption (.unknownTypeCode r.code) (tryFromPrimitive r.code : Option TypeCode)
  match code with
  | .numEntry => .ok s
  | .void => .ok (s.add (.prim .void))
  | .half => .ok (s.add (.prim .half))
  | .bFloat => .ok (s.add (.prim .bFloat))
  | .float => .ok (s.add (.prim .float))
  | .double => .ok (s.add (.prim .double))
  | .label => .ok (s.add (.prim .label))
  | .opaque => stepOpaque s
  | .integer => do
    let w ← typeField r 0
    .ok (s.add (.integer (w.setWidth 32)))
  | .pointer => do
    let pointee ← typeField r 0
    let a ← typeField r 1
    let a ← (AddressSpace.tryFromU64 a).mapErr fun e => .map (.invalid (.pointerSpace e))
    .ok (s.add (.pointer pointee a))
  | .functionOld => .err (.map .unsupported)
  | .array => do
    let n ← typeField r 0
    let e ← typeField r 1
    .ok (s.add (.array n e))
  | .vector => do
    let n ← typeField r 0
    let e ← typeField r 1
    let scalable := (r.fields[2]?).elim false (· > 0)
    .ok (s.add (if scalable then .scalableVector n e else .fixedVector n e))
  | .x86Fp80 => .ok (s.add (.prim .x86Fp80))
  | .fp128 => .ok (s.add (.prim .fp128))
  | .ppcFp128 => .ok (s.add (.prim .ppcFp128))
  | .metadata => .ok (s.add (.prim .metadata))
  | .x86Mmx => .ok (s.add (.prim .x86Mmx))
  | .structAnon => do
    let packed ← typeField r 0
    .ok (s.add (.struct none (typeRefs r 1) (packed > 0)))
  | .structName => do
    let n ← (r.tryString pf 0).mapErr fun e => .map (.recordString e)
    .ok { s with lastName := s.lastName ++ n }
  | .structNamed => stepStructNamed s r
  | .function => do
    let va ← typeField r 0
    let ret ← typeField r 1
    .ok (s.add (.function ret (typeRefs r 2) (va > 0)))
  | .token => .ok (s.add (.prim .token))
  | .x86Amx => .ok (s.add (.prim .x86Amx))
  | .opaquePointer => do
    let a ← typeField r 0
    let a ← (AddressSpace.tryFromU64 a).mapErr fun e => .map (.invalid (.typeSpace e))
    .ok (s.add (.opaquePointer a))

/-- The size of a `PartialType` in bytes, on which the capacity overflow of l. 231 depends. Rust does not specify it; this
is what the compiler lays out on 64-bit targets (two 24-byte vectors and a flag). Running out of memory below that limit is
not modelled. -/
def partialTypeSize : Nat := 56

/-- `llvm-mapper/src/block/type_table.rs:228-233`: `Vec::with_capacity(numentries)`. -/
def typeCapacity (n : U64) : Out TypeTableError Unit :=
  if n.toNat * partialTypeSize < 2 ^ 63 then .ok () else .panic .capacity

/-- `llvm-mapper/src/block/type_table.rs:290-512`: `TryFrom<&Block> for TypeTable`. -/
def TypeTable.tryFrom (pf : Profile) (b : UBlock) : Out TypeTableError TypeTable := do
  let r ← Out.ofOption .badTable (Records.one b.records TypeCode.numEntry.code)
  let n ← Out.ofOption .badTable r.fields.head?
  typeCapacity n
  let s ← b.records.foldlM (typeStep pf) { inner := [], lastName := [] }
  reifyTypes n.toNat s.inner

end Verif
