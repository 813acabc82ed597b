import Verif.Support.Align
import Verif.Mapper.Unroll

/-!
# Model of `llvm-mapper/src/record/datalayout.rs`: the datalayout string
-/

namespace Verif

/-- `llvm-support/src/lib.rs:52-57`: `Endian`. -/
inductive Endian where
  | big | little
deriving DecidableEq, Repr

/-- `llvm-support/src/lib.rs:70-83`: `Mangling`. -/
inductive Mangling where
  | elf | mips | macho | windowsX86Coff | windowsCoff | xCoff
deriving DecidableEq, Repr

/-- `llvm-mapper/src/record/datalayout.rs:20-48`: `DataLayoutError`. -/
inductive DataLayoutError where
  | badString (e : RecordStringError)
  | badAlign (e : AlignError)
  | badAddressSpace (e : AddressSpaceError)
  | unknownSpec (c : Char)
  | emptySpec
  | badEncoding
  | badInt (e : IntErr)
  | badSpecParse (message : Str)
  | badAlignSpec (e : AlignSpecError)
deriving DecidableEq, Repr

/-- `llvm-mapper/src/record/datalayout.rs:53-78`: `DataLayout`. -/
structure DataLayout where
  endianness : Endian
  naturalStackAlignment : Option Align
  programAddressSpace : AddressSpace
  globalVariableAddressSpace : AddressSpace
  allocaAddressSpace : AddressSpace
  typeAlignments : TypeAlignSpecs
  pointerAlignments : PointerAlignSpecs
  aggregateAlignment : Align
  functionPointerAlignment : Option FunctionPointerAlign
  mangling : Option Mangling
  nativeIntegerWidths : List U32
  nonIntegralAddressSpaces : List AddressSpace
deriving DecidableEq, Repr

namespace DataLayout

/-- `llvm-mapper/src/record/datalayout.rs:80-97`: `default`. -/
def default : DataLayout where
  endianness := .big
  naturalStackAlignment := none
  programAddressSpace := .default
  globalVariableAddressSpace := .default
  allocaAddressSpace := .default
  typeAlignments := TypeAlignSpecs.default
  pointerAlignments := PointerAlignSpecs.default
  aggregateAlignment := .align8
  functionPointerAlignment := none
  mangling := none
  nativeIntegerWidths := []
  nonIntegralAddressSpaces := []

/-- `Align::from_bit_align(s.parse::<u64>()?)?`, lines 122 and 145. -/
def parseBitAlign (s : Str) : Out DataLayoutError Align := do
  let v ← (parseU64 s).mapErr .badInt
  (Align.fromBitAlign v).mapErr .badAlign

/-- `s.parse::<u32>()?.try_into()?`, lines 125, 128, 131. -/
def parseAS (s : Str) : Out DataLayoutError AddressSpace := do
  let v ← (parseU32 s).mapErr .badInt
  (AddressSpace.tryFromU32 v).mapErr .badAddressSpace

/-- The closure of lines 221-234. -/
def parseNonIntegral (s : Str) : Out DataLayoutError AddressSpace := do
  let a ← parseAS s
  if a = .default then .err (.badSpecParse "address space 0 cannot be non-integral".toList) else pure a

/-- The closure of line 240. -/
def parseWidth (s : Str) : Out DataLayoutError U32 := (parseU32 s).mapErr .badInt

/-- `iter.map(f).collect::<Result<Vec<_>, _>>()`: stops at the first error. -/
def collect {α β ε : Type} (f : α → Out ε β) : List α → Out ε (List β)
  | [] => .ok []
  | x :: xs => do
    let y ← f x
    let ys ← collect f xs
    pure (y :: ys)

/-- `llvm-mapper/src/record/datalayout.rs:143-167`: `F`. -/
def specF (d : DataLayout) (body : Str) : Out DataLayoutError DataLayout :=
  match body with
  | [] => .err (.badSpecParse "function pointer alignment spec is empty".toList)
  | id :: _ => do
    let rest ← sliceFrom1 body
    let align ← parseBitAlign rest
    if id = 'i' then pure { d with functionPointerAlignment := some (.independent align) }
    else if id = 'n' then pure { d with functionPointerAlignment := some (.multipleOfFunctionAlign align) }
    else .err (.badSpecParse ("unknown function pointer alignment specifier: ".toList ++ [id]))

/-- `llvm-mapper/src/record/datalayout.rs:188-206`: the mangling kind. -/
def manglingKind (c : Char) : Out DataLayoutError Mangling :=
  if c = 'e' then .ok .elf
  else if c = 'm' then .ok .mips
  else if c = 'o' then .ok .macho
  else if c = 'x' then .ok .windowsX86Coff
  else if c = 'w' then .ok .windowsCoff
  else if c = 'a' then .ok .xCoff
  else .err (.badSpecParse ("unknown mangling kind in spec: ".toList ++ [c]))

/-- `llvm-mapper/src/record/datalayout.rs:168-209`: `m`. Characters after the kind are not looked at. -/
def specM (d : DataLayout) (body : Str) : Out DataLayoutError DataLayout :=
  match body with
  | [] => .err (.badSpecParse "mangling spec is empty".toList)
  | sep :: rest =>
    if sep = ':' then
      match rest with
      | [] => .err (.badSpecParse "mangling spec has no mangling kind".toList)
      | c :: _ => do
        let kind ← manglingKind c
        pure { d with mangling := some kind }
    else .err (.badSpecParse ("bad separator for mangling spec: ".toList ++ [sep]))

/-- `llvm-mapper/src/record/datalayout.rs:210-249`: `n` and `ni`. `body[2..]` is taken in two steps. -/
def specN (d : DataLayout) (body : Str) : Out DataLayoutError DataLayout :=
  match body with
  | [] => .err (.badSpecParse "integer width spec is empty".toList)
  | c :: rest =>
    if c = 'i' then
      match rest with
      | [] => .err (.badSpecParse "cannot find address space 0".toList)
      | _ => do
        let rest ← sliceFrom1 rest
        let l ← collect parseNonIntegral (split ':' rest)
        pure { d with nonIntegralAddressSpaces := l }
    else do
      let l ← collect parseWidth (split ':' body)
      pure { d with nativeIntegerWidths := l }

/-- The body of the loop, `llvm-mapper/src/record/datalayout.rs:109-251`. -/
def applySpec (d : DataLayout) (spec : Str) : Out DataLayoutError DataLayout :=
  match spec with
  | [] => .err .emptySpec
  | c :: _ => do
    let body ← sliceFrom1 spec
    if c = 'e' then pure { d with endianness := .little }
    else if c = 'E' then pure { d with endianness := .big }
    else if c = 'S' then do
      let a ← parseBitAlign body
      pure { d with naturalStackAlignment := some a }
    else if c = 'P' then do
      let a ← parseAS body
      pure { d with programAddressSpace := a }
    else if c = 'G' then do
      let a ← parseAS body
      pure { d with globalVariableAddressSpace := a }
    else if c = 'A' then do
      let a ← parseAS body
      pure { d with allocaAddressSpace := a }
    else if c = 'p' then do
      let s ← (PointerAlignSpec.fromStr spec).mapErr .badAlignSpec
      pure { d with pointerAlignments := d.pointerAlignments.update s }
    else if c = 'i' ∨ c = 'v' ∨ c = 'f' ∨ c = 'a' then do
      let s ← (TypeAlignSpec.fromStr spec).mapErr .badAlignSpec
      pure { d with typeAlignments := d.typeAlignments.update s }
    else if c = 'F' then specF d body
    else if c = 'm' then specM d body
    else if c = 'n' then specN d body
    else .err (.unknownSpec c)

/-- The loop over the specs, `llvm-mapper/src/record/datalayout.rs:108-252`. -/
def applySpecs (d : DataLayout) : List Str → Out DataLayoutError DataLayout
  | [] => .ok d
  | s :: rest => do
    let d' ← applySpec d s
    applySpecs d' rest

/-- `str::is_ascii`. -/
def isAscii (s : Str) : Bool := s.all fun c => decide (c.toNat < 128)

/-- `llvm-mapper/src/record/datalayout.rs:99-256`: `DataLayout::from_str`. -/
def fromStr (value : Str) : Out DataLayoutError DataLayout :=
  if isAscii value then applySpecs default (split '-' value) else .err .badEncoding

/-- `llvm-mapper/src/record/datalayout.rs:258-265`: `PartialCtxMappable<Record> for DataLayout`; the context is not used. -/
def tryMap (pf : Profile) (r : BRecord) : Out DataLayoutError DataLayout := do
  let s ← (r.tryString pf 0).mapErr .badString
  fromStr s

end DataLayout
end Verif
