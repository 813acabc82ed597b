import Verif.Support.Text

/-!
# Model of `llvm-support/src/align.rs`
-/

namespace Verif

/-- `llvm-support/src/align.rs:14-25`: `AlignError`. -/
inductive AlignError where
  | shiftTooBig (shift : U8)
  | notPowerOfTwo (v : U64)
  | notByteMultiple (v : U64)
deriving DecidableEq, Repr

/-- `llvm-support/src/align.rs:31`: `Align(u8)`. The field is private; derived `Ord` compares it. -/
structure Align where
  shift : U8
deriving DecidableEq, Repr

namespace Align

/-- `llvm-support/src/align.rs:57`: `MAX_SHIFT`. -/
def maxShift : U8 := 63

/-- `llvm-support/src/align.rs:59-63`: the constants. -/
def align8 : Align := ⟨0⟩
def align16 : Align := ⟨1⟩
def align32 : Align := ⟨2⟩
def align64 : Align := ⟨3⟩
def align128 : Align := ⟨4⟩

/-- `llvm-support/src/align.rs:68-70`: `is_pow2`. -/
def isPow2 (v : U64) : Bool := decide (v > 0) && (v &&& (v - 1)) == 0

/-- `u64::leading_zeros`. -/
def leadingZeros (v : U64) : Nat := if v = 0 then 64 else 63 - Nat.log2 v.toNat

/-- `llvm-support/src/align.rs:74-77`: `log2`, for `value > 0`. -/
def log2 (v : U64) : U8 := BitVec.ofNat 8 (64 - 1 - leadingZeros v)

/-- Derived `PartialOrd`, `llvm-support/src/align.rs:30`: `a < b`. -/
abbrev less (a b : Align) : Prop := a.shift < b.shift

/-- Derived `PartialOrd`, `llvm-support/src/align.rs:30`: `a <= b`. -/
abbrev atMost (a b : Align) : Prop := a.shift ≤ b.shift

/-- Derived `Ord`, `llvm-support/src/align.rs:30`. -/
def cmp (a b : Align) : Ordering := if a.less b then .lt else if a = b then .eq else .gt

/-- `llvm-support/src/align.rs:81-86`: `from_shift`. -/
def fromShift (shift : U8) : Out AlignError Align :=
  if shift > maxShift then .err (.shiftTooBig shift) else .ok ⟨shift⟩

/-- `llvm-support/src/align.rs:90-95`: `from_byte_align`. -/
def fromByteAlign (byteAlign : U64) : Out AlignError Align :=
  if isPow2 byteAlign then fromShift (log2 byteAlign) else .err (.notPowerOfTwo byteAlign)

/-- `llvm-support/src/align.rs:99-104`: `from_bit_align`. -/
def fromBitAlign (bitAlign : U64) : Out AlignError Align :=
  if bitAlign % 8 = 0 then fromByteAlign (bitAlign / 8) else .err (.notByteMultiple bitAlign)

/-- `llvm-support/src/align.rs:112-114`: `byte_align`. The shift is below 64 for every `Align` that can be made
(`Props.C33_made`), so `1 << self.0` does not overflow. -/
def byteAlign (a : Align) : U64 := (1 : U64) <<< a.shift.toNat

/-- `llvm-support/src/align.rs:117-119`: `bit_align`. -/
def bitAlign (pf : Profile) (a : Align) : Out AlignError U64 :=
  if a.byteAlign.toNat * 8 < 2 ^ 64 then .ok (a.byteAlign * 8)
  else match pf with
    | .debug => .panic .bitAlignMul
    | .release => .ok (a.byteAlign * 8)

end Align

/-- `llvm-support/src/align.rs:136-151`: `MaybeAlign` and its `TryFrom<u8>`. -/
structure MaybeAlign where
  align : Option Align
deriving DecidableEq, Repr

def MaybeAlign.tryFrom (v : U8) : Out AlignError MaybeAlign :=
  if v = 0 then .ok ⟨none⟩
  else do
    let a ← Align.fromShift (v - 1)
    pure ⟨some a⟩

/-- `llvm-support/src/align.rs:122-134`: `AlignedTypeWidthError`. -/
inductive AlignedTypeWidthError where
  | zero
  | tooBig (v : U32)
deriving DecidableEq, Repr

/-- `llvm-support/src/align.rs:155`: `AlignedTypeWidth(u32)`. -/
structure AlignedTypeWidth where
  val : U32
deriving DecidableEq, Repr

/-- `llvm-support/src/align.rs:179-187`, with `MAX = (1 << 23) - 1` (line 168). -/
def AlignedTypeWidth.tryFrom (v : U32) : Out AlignedTypeWidthError AlignedTypeWidth :=
  if v > 0 ∧ v.toNat ≤ 2 ^ 23 - 1 then .ok ⟨v⟩ else .err (.tooBig v)

/-- `llvm-support/src/align.rs:191-200`: `AlignedType`. -/
inductive AlignedType where
  | aggregate
  | float (w : AlignedTypeWidth)
  | integer (w : AlignedTypeWidth)
  | vector (w : AlignedTypeWidth)
deriving DecidableEq, Repr

/-- `llvm-support/src/align.rs:208-242`: `AlignedType::cmp`. -/
def AlignedType.cmp : AlignedType → AlignedType → Ordering
  | .aggregate, .aggregate => .eq
  | .aggregate, _ => .lt
  | .float _, .aggregate => .gt
  | .float l, .float r => compare l.val.toNat r.val.toNat
  | .float _, .integer _ => .lt
  | .float _, .vector _ => .lt
  | .integer _, .aggregate => .gt
  | .integer _, .float _ => .gt
  | .integer l, .integer r => compare l.val.toNat r.val.toNat
  | .integer _, .vector _ => .lt
  | .vector _, .aggregate => .gt
  | .vector _, .float _ => .gt
  | .vector _, .integer _ => .gt
  | .vector l, .vector r => compare l.val.toNat r.val.toNat

/-- `llvm-support/src/align.rs:518-523`: `AddressSpaceError`. -/
inductive AddressSpaceError where
  | tooBig (v : U64)
deriving DecidableEq, Repr

/-- `llvm-support/src/align.rs:268-296`: `AlignSpecError`. -/
inductive AlignSpecError where
  | badTypeWidth (e : AlignedTypeWidthError)
  | alignPref (pref abi : Align)
  | abiAlignTooLarge (abi : Align)
  | parse (message : Str)
  | parseAlign (e : AlignError)
  | badInt (e : IntErr)
  | badAddressSpace (e : AddressSpaceError)
deriving DecidableEq, Repr

/-- `llvm-support/src/align.rs:301-311`: `TypeAlignSpec`. Equality and order only look at the type (lines 313-329). -/
structure TypeAlignSpec where
  alignedType : AlignedType
  abi : Align
  pref : Align
deriving DecidableEq, Repr

/-- `llvm-support/src/align.rs:313-317`: `==` for specs. -/
abbrev TypeAlignSpec.same (a b : TypeAlignSpec) : Prop := a.alignedType = b.alignedType

/-- `llvm-support/src/align.rs:319-329`: `cmp` and `partial_cmp` for specs, and so `<=`. -/
abbrev TypeAlignSpec.cmp (a b : TypeAlignSpec) : Ordering := a.alignedType.cmp b.alignedType

/-- `llvm-support/src/align.rs:436`: `MAX_ALIGN`. -/
def TypeAlignSpec.maxAlign : Align := ⟨15⟩

/-- `llvm-support/src/align.rs:440-457`: `TypeAlignSpec::new`. -/
def TypeAlignSpec.new (ty : AlignedType) (abi pref : Align) : Out AlignSpecError TypeAlignSpec :=
  if pref.less abi then .err (.alignPref pref abi)
  else if abi.atMost maxAlign ∧ pref.atMost maxAlign then .ok { alignedType := ty, abi := abi, pref := pref }
  else .err (.abiAlignTooLarge abi)

/-- `.parse::<u64>().map_err(|e| AlignSpecError::Parse(..)).and_then(|a| Align::from_bit_align(a).map_err(Into::into))`,
`llvm-support/src/align.rs:368-371`, `400-403`, `630-633`. -/
def parseAbi (s : Str) : Out AlignSpecError Align := do
  let a ← (parseU64 s).mapErr fun e => .parse e.text
  (Align.fromBitAlign a).mapErr .parseAlign

/-- The optional preferred alignment, `llvm-support/src/align.rs:373-380`, `404-411`, `634-641`. -/
def parsePref (abi : Align) : Option Str → Out AlignSpecError Align
  | none => .ok abi
  | some s => do
    let a ← (parseU64 s).mapErr .badInt
    (Align.fromBitAlign a).mapErr .parseAlign

/-- `llvm-support/src/align.rs:350-383`: the aggregate case; `body` is what follows `a`. -/
def TypeAlignSpec.parseAggregate (body : Str) : Out AlignSpecError TypeAlignSpec :=
  match body with
  | [] => .err (.parse "empty aggregate specifier".toList)
  | c :: rest =>
    if c = ':' then
      match split ':' rest with
      | [] => .err (.parse "wrong number of aggregate alignment parameters: expected at least 1, got 0".toList)
      | p0 :: ps => do
        let abi ← parseAbi p0
        let pref ← parsePref abi ps[0]?
        TypeAlignSpec.new .aggregate abi pref
    else .err (.parse ("unexpected character before aggregate spec: ".toList ++ [c]))

/-- `llvm-support/src/align.rs:386-422`: all other cases. -/
def TypeAlignSpec.parseOther (id : Char) (body : Str) : Out AlignSpecError TypeAlignSpec :=
  match split ':' body with
  | p0 :: p1 :: ps => do
    let bs ← (parseU32 p0).mapErr fun e => AlignSpecError.parse e.text
    let bitsize ← (AlignedTypeWidth.tryFrom bs).mapErr .badTypeWidth
    let abi ← parseAbi p1
    let pref ← parsePref abi ps[0]?
    if id = 'i' then TypeAlignSpec.new (.integer bitsize) abi pref
    else if id = 'v' then TypeAlignSpec.new (.vector bitsize) abi pref
    else if id = 'f' then TypeAlignSpec.new (.float bitsize) abi pref
    else .err (.parse ("unknown type for align spec: ".toList ++ [id]))
  | ps => .err (.parse ("wrong number of alignment parameters for spec '".toList ++ id ::
      "': expected at least 2, got ".toList ++ decimal ps.length))

/-- `llvm-support/src/align.rs:334-424`: `TypeAlignSpec::from_str`. -/
def TypeAlignSpec.fromStr (value : Str) : Out AlignSpecError TypeAlignSpec :=
  match value with
  | [] => .err (.parse "cannot parse type alignment from an empty string".toList)
  | id :: _ => do
    let body ← sliceFrom1 value
    if id = 'a' then parseAggregate body else parseOther id body

/-- `slice::iter().rposition(p)`. -/
def rposition {α : Type} (p : α → Bool) : List α → Option Nat
  | [] => none
  | x :: xs =>
    match rposition p xs with
    | some i => some (i + 1)
    | none => if p x then some 0 else none

/-- `llvm-support/src/align.rs:462`: `TypeAlignSpecs(Vec<TypeAlignSpec>)`. -/
abbrev TypeAlignSpecs := List TypeAlignSpec

namespace TypeAlignSpecs

/-- Derived `PartialEq`, `llvm-support/src/align.rs:461`: `==` of the vectors, elementwise. -/
def same : TypeAlignSpecs → TypeAlignSpecs → Prop
  | [], [] => True
  | a :: as, b :: bs => a.same b ∧ same as bs
  | _, _ => False

/-- `llvm-support/src/align.rs:464-484`: `default`. The `unwrap`s succeed, see `Props.C34_default_valid`. -/
def default : TypeAlignSpecs :=
  [⟨.aggregate, .align64, .align64⟩,
   ⟨.float ⟨16⟩, .align16, .align16⟩,
   ⟨.float ⟨32⟩, .align32, .align32⟩,
   ⟨.float ⟨64⟩, .align64, .align64⟩,
   ⟨.float ⟨128⟩, .align128, .align128⟩,
   ⟨.integer ⟨1⟩, .align8, .align8⟩,
   ⟨.integer ⟨8⟩, .align8, .align8⟩,
   ⟨.integer ⟨16⟩, .align16, .align16⟩,
   ⟨.integer ⟨32⟩, .align32, .align32⟩,
   ⟨.integer ⟨64⟩, .align64, .align64⟩]

/-- `llvm-support/src/align.rs:489-513`: `update`. `pos` is an index of the list (`rposition_lt`), so the index
expressions do not panic and the `none` branch below is not reached. -/
def update (l : TypeAlignSpecs) (spec : TypeAlignSpec) : TypeAlignSpecs :=
  match rposition (fun other => (other.cmp spec).isLE) l with
  | some pos =>
    match l[pos]? with
    | some other =>
      if other.same spec then
        l.set pos { other with abi := spec.abi, pref := spec.pref }
      else l.insertIdx (pos + 1) spec
    | none => l
  | none => l.insertIdx 0 spec

end TypeAlignSpecs

/-- `llvm-support/src/align.rs:526-527`: `AddressSpace(u32)`. -/
structure AddressSpace where
  val : U32
deriving DecidableEq, Repr

/-- Derived `Ord`, `llvm-support/src/align.rs:525`. -/
abbrev AddressSpace.cmp (a b : AddressSpace) : Ordering := compare a.val.toNat b.val.toNat

/-- Derived `Default`. -/
def AddressSpace.default : AddressSpace := ⟨0⟩

/-- `llvm-support/src/align.rs:528-536`, with `MAX = (1 << 23) - 1` (line 550). -/
def AddressSpace.tryFromU32 (v : U32) : Out AddressSpaceError AddressSpace :=
  if v.toNat ≤ 2 ^ 23 - 1 then .ok ⟨v⟩ else .err (.tooBig (v.setWidth 64))

/-- `llvm-support/src/align.rs:538-546`. -/
def AddressSpace.tryFromU64 (v : U64) : Out AddressSpaceError AddressSpace :=
  if v.toNat ≤ 2 ^ 23 - 1 then .ok ⟨v.setWidth 32⟩ else .err (.tooBig v)

/-- `llvm-support/src/align.rs:555-571`: `PointerAlignSpec`. Derived equality compares all fields; order only looks at
the address space (lines 573-585). -/
structure PointerAlignSpec where
  addressSpace : AddressSpace
  abi : Align
  pref : Align
  pointerSize : U64
  indexSize : U64
deriving DecidableEq, Repr

namespace PointerAlignSpec

/-- `llvm-support/src/align.rs:573-585`: `cmp` and `partial_cmp`, and so `<=`. -/
abbrev cmp (a b : PointerAlignSpec) : Ordering := a.addressSpace.cmp b.addressSpace

/-- `llvm-support/src/align.rs:587-597`: `default`. -/
def default : PointerAlignSpec := ⟨.default, .align64, .align64, 64, 64⟩

/-- `llvm-support/src/align.rs:659-683`: `new`. -/
def new (addressSpace : AddressSpace) (abi pref : Align) (pointerSize indexSize : U64) :
    Out AlignSpecError PointerAlignSpec :=
  if pref.less abi then .err (.alignPref pref abi)
  else .ok ⟨addressSpace, abi, pref, pointerSize, indexSize⟩

/-- `llvm-support/src/align.rs:625-628`: the address space field. -/
def parseAddressSpace (p : Str) : Out AlignSpecError AddressSpace :=
  match p with
  | [] => .ok .default
  | _ => do
    let n ← (parseU32 p).mapErr .badInt
    (AddressSpace.tryFromU32 n).mapErr .badAddressSpace

/-- `llvm-support/src/align.rs:642-645`: the index size. -/
def parseIndex (pointerSize : U64) : Option Str → Out AlignSpecError U64
  | none => .ok pointerSize
  | some s => (parseU64 s).mapErr .badInt

/-- `llvm-support/src/align.rs:602-654`: `from_str`. -/
def fromStr (value : Str) : Out AlignSpecError PointerAlignSpec :=
  match value with
  | [] => .err (.parse "cannot parse from an empty string".toList)
  | _ => do
    let rest ← sliceFrom1 value
    match split ':' rest with
    | p0 :: p1 :: p2 :: ps => do
      let addressSpace ← parseAddressSpace p0
      let pointerSize ← (parseU64 p1).mapErr .badInt
      let abi ← parseAbi p2
      let pref ← parsePref abi ps[0]?
      let indexSize ← parseIndex pointerSize ps[1]?
      pure { addressSpace, abi, pref, pointerSize, indexSize }
    | ps => .err (.parse ("pointer align spec has too few parts (".toList ++ decimal ps.length ++
        ", expected at least 4)".toList))

end PointerAlignSpec

/-- `llvm-support/src/align.rs:687-702`: `FunctionPointerAlign`. -/
inductive FunctionPointerAlign where
  | independent (abi : Align)
  | multipleOfFunctionAlign (abi : Align)
deriving DecidableEq, Repr

/-- `llvm-support/src/align.rs:706`: `PointerAlignSpecs(Vec<PointerAlignSpec>)`. -/
abbrev PointerAlignSpecs := List PointerAlignSpec

namespace PointerAlignSpecs

/-- `llvm-support/src/align.rs:708-712`: `default`. -/
def default : PointerAlignSpecs := [.default]

/-- `llvm-support/src/align.rs:717-741`: `update`; see `TypeAlignSpecs.update`. -/
def update (l : PointerAlignSpecs) (spec : PointerAlignSpec) : PointerAlignSpecs :=
  match rposition (fun other => (other.cmp spec).isLE) l with
  | some pos =>
    match l[pos]? with
    | some other =>
      if other = spec then l.set pos { other with abi := spec.abi, pref := spec.pref }
      else l.insertIdx (pos + 1) spec
    | none => l
  | none => l.insertIdx 0 spec

end PointerAlignSpecs
end Verif
