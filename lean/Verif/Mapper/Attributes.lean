import Verif.Mapper.EnumAttribute
import Verif.Mapper.TypeTable

/-! `llvm-mapper/src/block/attributes.rs`: the `PARAMATTR_BLOCK` and `PARAMATTR_GROUP_BLOCK` blocks. -/

namespace Verif

/-- The messages of `AttributeError::AttributeMalformed(&'static str, _)`,
`llvm-mapper/src/block/attributes.rs:233,281,290,298,304,312,320,348`. -/
inductive MalformedMsg where
  | nonEnum
  | enumGiven
  | tooLarge
  | alignment
  | allocSize
  | unwindTable
deriving DecidableEq, Repr

/-- `llvm-mapper/src/block/attributes.rs:16-62`: `AttributeError`. `Map` is left out: it is never constructed. -/
inductive AttributeError where
  | unknownAttributeCode (v : U64)
  | unknownAttributeKind (v : U64)
  | wrongBlock (c : AttributeCode)
  | tooShort
  | badString
  | unknownAttributeId (v : U64)
  | attributeMalformed (m : MalformedMsg) (id : AttributeId)
  | intAttributeUnsupported (id : AttributeId)
  | badAttributeGroup (id : U32)
  | groupTooShort (c : AttributeCode) (n : Nat)
  | groupSizeMismatch (idx len : Nat)
deriving DecidableEq, Repr

/-- `llvm-mapper/src/block/attributes.rs:227-235`: `TryFrom<AttributeId> for EnumAttribute`. -/
def EnumAttribute.tryFrom (id : AttributeId) : Out AttributeError EnumAttribute :=
  Out.ofOption (.attributeMalformed .nonEnum id) (tryFromPrimitive id.code)

/-- `llvm-mapper/src/block/attributes.rs:252-271`: `IntAttribute`. -/
inductive IntAttribute where
  | alignment (a : MaybeAlign)
  | stackAlignment (a : MaybeAlign)
  | dereferenceable (n : U64)
  | dereferenceableOrNull (n : U64)
  | allocSize (eltSize : U32) (numElts : Option U32)
  /-- documented as `vscale_range(<Min>[, <Max>])` -/
  | vScaleRange (a b : U32)
  | uwTable (v : UwTableVariant)
  | allocKind (bits : U64)
  | memoryKind (bits : U64)
deriving DecidableEq, Repr

/-- `llvm-mapper/src/block/attributes.rs:288-301,302-315`: `u8::try_from` and `MaybeAlign::try_from`, with both errors
mapped. -/
def alignValue (key : AttributeId) (value : U64) : Out AttributeError MaybeAlign :=
  if value.toNat < 256 then (MaybeAlign.tryFrom (value.setWidth 8)).mapErr fun _ => .attributeMalformed .alignment key
  else .err (.attributeMalformed .tooLarge key)

/-- `(value >> 32) as u32` -/
def hi32 (v : U64) : U32 := (v >>> 32).setWidth 32
/-- `value as u32` -/
def lo32 (v : U64) : U32 := v.setWidth 32

/-- `llvm-mapper/src/block/attributes.rs:273-356`: `TryFrom<(AttributeId, u64)> for IntAttribute`. -/
def IntAttribute.tryFrom (key : AttributeId) (value : U64) : Out AttributeError IntAttribute :=
  if (tryFromPrimitive key.code : Option EnumAttribute).isSome ∧ key ≠ .uwTable then
    .err (.attributeMalformed .enumGiven key)
  else
    match key with
    | .alignment => do
      let a ← alignValue key value
      .ok (.alignment a)
    | .stackAlignment => do
      let a ← alignValue key value
      .ok (.stackAlignment a)
    | .dereferenceable => .ok (.dereferenceable value)
    | .dereferenceableOrNull => .ok (.dereferenceableOrNull value)
    | .allocSize =>
      if value = 0 then .err (.attributeMalformed .allocSize key)
      else .ok (.allocSize (hi32 value) (if lo32 value = 0xffffffff then none else some (lo32 value)))
    | .vScaleRange =>
      let min := hi32 value
      let max := if lo32 value = 0 then min else lo32 value
      .ok (.vScaleRange max min)
    | .uwTable => do
      let v ← Out.ofOption (.attributeMalformed .unwindTable key) (tryFromPrimitive value)
      .ok (.uwTable v)
    | .allocKind => .ok (.allocKind value)
    | .memory => .ok (.memoryKind value)
    | o => .err (.intAttributeUnsupported o)

/-- `llvm-mapper/src/block/attributes.rs:361-370`: `Attribute`. -/
inductive Attribute where
  | enum (a : EnumAttribute)
  | int (a : IntAttribute)
  | str (s : Str)
  | strKeyValue (k v : Str)
deriving DecidableEq, Repr

/-- `next!`, `llvm-mapper/src/block/attributes.rs:382-391`. -/
def nextField (fields : List U64) (pos : Nat) : Out AttributeError U64 := Out.ofOption .tooShort fields[pos]?

/-- `take_string!`, `llvm-mapper/src/block/attributes.rs:393-415`, with the number of fields it consumes: the bytes of the
string, and one more for the NUL (whether there is one or not). -/
def takeString (fields : List U64) (pos : Nat) : Out AttributeError (Str × Nat) :=
  if fields.length < pos then .panic .attrSlice
  else do
    let bytes ← Out.ofOption .badString (toBytes ((fields.drop pos).takeWhile fun f => f ≠ 0))
    if bytes = [] then .err .badString
    else do
      let s ← Out.ofOption .badString (utf8Decode bytes)
      .ok (s, bytes.length + 1)

/-- `llvm-mapper/src/block/attributes.rs:375-450`: `Attribute::from_record`. -/
def Attribute.fromRecord (start : Nat) (fields : List U64) : Out AttributeError (Nat × Attribute) := do
  let k ← nextField fields start
  let kind ← Out.ofOption (.unknownAttributeKind k) (tryFromPrimitive k : Option AttributeKind)
  match kind with
  | .enum => do
    let f ← nextField fields (start + 1)
    let key ← Out.ofOption (.unknownAttributeId f) (tryFromPrimitive f)
    let a ← EnumAttribute.tryFrom key
    .ok (2, .enum a)
  | .intKeyValue => do
    let f ← nextField fields (start + 1)
    let key ← Out.ofOption (.unknownAttributeId f) (tryFromPrimitive f)
    let value ← nextField fields (start + 2)
    let a ← IntAttribute.tryFrom key value
    .ok (3, .int a)
  | .strKey => do
    let (key, n) ← takeString fields (start + 1)
    .ok (1 + n, .str key)
  | .strKeyValue => do
    let (key, n) ← takeString fields (start + 1)
    let (value, m) ← takeString fields (start + 1 + n)
    .ok (1 + n + m, .strKeyValue key value)

/-- `llvm-mapper/src/block/attributes.rs:508-526`: `AttributeGroupDisposition`. -/
inductive AttributeGroupDisposition where
  | «return»
  | parameter (n : U32)
  | function
deriving DecidableEq, Repr

/-- `llvm-mapper/src/block/attributes.rs:517-525`: `From<u32>`. -/
def AttributeGroupDisposition.ofU32 (v : U32) : AttributeGroupDisposition :=
  if v = 0xffffffff then .function else if v = 0 then .return else .parameter v

/-- `llvm-mapper/src/block/attributes.rs:529-534`: `AttributeGroup`. -/
structure AttributeGroup where
  disposition : AttributeGroupDisposition
  attributes : List Attribute
deriving DecidableEq, Repr

/-- `llvm-mapper/src/block/attributes.rs:572-579`: the `while` loop, with the index it ends with. The fuel bounds the number
of rounds; `attrLoop_fuel` shows that the number of fields is always enough. -/
def attrLoop (fields : List U64) : Nat → Nat → List Attribute → Out AttributeError (Nat × List Attribute)
  | 0, idx, acc => if idx < fields.length then .diverge else .ok (idx, acc)
  | fuel + 1, idx, acc =>
    if idx < fields.length then do
      let (count, attr) ← Attribute.fromRecord idx fields
      attrLoop fields fuel (idx + count) (acc ++ [attr])
    else .ok (idx, acc)

/-- `llvm-mapper/src/block/attributes.rs:538`: `AttributeGroups`, a hash map, here the list of its entries in the order of their
keys, so that equal maps are equal lists. -/
abbrev AttributeGroups := List (U32 × AttributeGroup)

/-- `llvm-mapper/src/block/attributes.rs:541-543`: `get`. -/
def AttributeGroups.get (g : AttributeGroups) (id : U32) : Option AttributeGroup := g.lookup id

/-- `HashMap::insert`, `llvm-mapper/src/block/attributes.rs:589-595`: an existing entry of the same key is replaced. -/
def AttributeGroups.insert (g : AttributeGroups) (id : U32) (x : AttributeGroup) : AttributeGroups :=
  g.filter (fun e => e.1 < id) ++ (id, x) :: g.filter (fun e => id < e.1)

/-- `fields[i]`, `llvm-mapper/src/block/attributes.rs:566-567`. -/
def attrField (fields : List U64) (i : Nat) : Out AttributeError U64 :=
  match fields[i]? with
  | some v => .ok v
  | none => .panic .attrIndex

/-- `llvm-mapper/src/block/attributes.rs:552-596`: one round of the loop over the records. -/
def groupStep (g : AttributeGroups) (r : BRecord) : Out AttributeError AttributeGroups := do
  let code ← Out.ofOption (.unknownAttributeCode r.code) (tryFromPrimitive r.code : Option AttributeCode)
  if code ≠ .groupCodeEntry then .err (.wrongBlock code)
  else if r.fields.length < 3 then .err (.groupTooShort code r.fields.length)
  else do
    let id ← attrField r.fields 0
    let param ← attrField r.fields 1
    let (idx, attributes) ← attrLoop r.fields r.fields.length 2 []
    if idx ≠ r.fields.length then .err (.groupSizeMismatch idx r.fields.length)
    else .ok (g.insert (id.setWidth 32) { disposition := .ofU32 (param.setWidth 32), attributes })

/-- `llvm-mapper/src/block/attributes.rs:546-601`: `TryFrom<&Block> for AttributeGroups`. -/
def AttributeGroups.tryFrom (b : UBlock) : Out AttributeError AttributeGroups := b.records.foldlM groupStep []

/-- `llvm-mapper/src/block/attributes.rs:455`: `AttributeEntry`. -/
abbrev AttributeEntry := List AttributeGroup

/-- `llvm-mapper/src/block/attributes.rs:459`: `Attributes`. -/
abbrev Attributes := List AttributeEntry

/-- `llvm-mapper/src/block/attributes.rs:462-464`: `get`; `usize` is 64 bits wide. -/
def Attributes.get (a : Attributes) (id : U64) : Option AttributeEntry := a[id.toNat]?

/-- `llvm-mapper/src/block/attributes.rs:481-493`: one group reference. -/
def groupRef (g : AttributeGroups) (f : U64) : Out AttributeError AttributeGroup :=
  Out.ofOption (.badAttributeGroup (f.setWidth 32)) (g.get (f.setWidth 32))

/-- `llvm-mapper/src/block/attributes.rs:473-500`: one round of the loop over the records. -/
def attrsStep (g : AttributeGroups) (r : BRecord) : Out AttributeError AttributeEntry := do
  let code ← Out.ofOption (.unknownAttributeCode r.code) (tryFromPrimitive r.code : Option AttributeCode)
  match code with
  | .entryOld => .panic .unimplemented
  | .entry => mapOut (groupRef g) r.fields
  | .groupCodeEntry => .err (.wrongBlock code)

/-- `llvm-mapper/src/block/attributes.rs:467-503`: `TryFrom<(&Block, &PartialMapCtx)> for Attributes`; of the context only
the attribute groups are used. -/
def Attributes.tryFrom (b : UBlock) (g : AttributeGroups) : Out AttributeError Attributes := mapOut (attrsStep g) b.records

end Verif
