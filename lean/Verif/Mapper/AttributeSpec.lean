import Verif.Mapper.Attributes

/-! Specification of attribute blocks: LLVM's bitcode format document ("PARAMATTR_BLOCK", "PARAMATTR_GROUP_BLOCK"),
`AttributeImpl.h` and `Attributes.cpp`. -/

namespace Verif.Spec

/-- A string as record fields: one field for each byte. -/
def strFields (s : Str) : List U64 := (utf8 s).map (·.setWidth 64)

/-- A string that can be written with a NUL at its end. -/
def CString (s : Str) : Prop := s ≠ [] ∧ (0 : U8) ∉ utf8 s

/-- `AsInt a id v`: as an attribute with value `v` and number `id`, `a` is read. For `dereferenceable`,
`dereferenceable_or_null`, `allocsize`, `uwtable`, `allockind` and `memory` this is LLVM's encoding; for `align`, `alignstack`
and `vscale_range` it is not (see `Packs`). -/
inductive AsInt : IntAttribute → Nat → Nat → Prop
  | alignNone : AsInt (.alignment ⟨none⟩) 1 0
  | align {a : Align} : a.shift.toNat ≤ 63 → AsInt (.alignment ⟨some a⟩) 1 (a.shift.toNat + 1)
  | stackAlignNone : AsInt (.stackAlignment ⟨none⟩) 25 0
  | stackAlign {a : Align} : a.shift.toNat ≤ 63 → AsInt (.stackAlignment ⟨some a⟩) 25 (a.shift.toNat + 1)
  | uwTableNone : AsInt (.uwTable .none) 33 0
  | uwTableSync : AsInt (.uwTable .sync) 33 1
  | uwTableAsync : AsInt (.uwTable .async) 33 2
  | dereferenceable (n : U64) : AsInt (.dereferenceable n) 41 n.toNat
  | dereferenceableOrNull (n : U64) : AsInt (.dereferenceableOrNull n) 42 n.toNat
  | allocSize (e n : U32) : n.toNat ≠ 2 ^ 32 - 1 → ¬ (e.toNat = 0 ∧ n.toNat = 0) →
      AsInt (.allocSize e (some n)) 51 (e.toNat * 2 ^ 32 + n.toNat)
  | allocSizeOne (e : U32) : AsInt (.allocSize e none) 51 (e.toNat * 2 ^ 32 + (2 ^ 32 - 1))
  | vScaleRange (min max : U32) : max.toNat ≠ 0 → AsInt (.vScaleRange max min) 74 (min.toNat * 2 ^ 32 + max.toNat)
  | vScaleRangeOne (min : U32) : AsInt (.vScaleRange min min) 74 (min.toNat * 2 ^ 32)
  | allocKind (n : U64) : AsInt (.allocKind n) 82 n.toNat
  | memory (n : U64) : AsInt (.memoryKind n) 86 n.toNat

/-- `AttrWritten a fs`: the record fields `fs` are those of the attribute `a`: its kind (0, 1, 3, 4), and its number, its number
and value, its string, or its key and its value. -/
inductive AttrWritten : Attribute → List U64 → Prop
  | enum {a : EnumAttribute} {id : U64} : (id.toNat, a) ∈ enumAttributeTable → AttrWritten (.enum a) [0, id]
  | int {a : IntAttribute} {id v : U64} : AsInt a id.toNat v.toNat → AttrWritten (.int a) [1, id, v]
  | str {s : Str} : CString s → AttrWritten (.str s) (3 :: (strFields s ++ [0]))
  | strKeyValue {k v : Str} : CString k → CString v →
      AttrWritten (.strKeyValue k v) (4 :: (strFields k ++ 0 :: (strFields v ++ [0])))

/-- The fields of attributes one after the other; `l` has each attribute with its fields. -/
def AllAttrs (l : List (Attribute × List U64)) : Prop := ∀ x ∈ l, AttrWritten x.1 x.2

/-- What a group's attributes belong to: the return value (0), the function (`2^32 - 1`) or a parameter. -/
def place (param : Nat) : AttributeGroupDisposition :=
  if param = 0 then .return else if param = 2 ^ 32 - 1 then .function else .parameter (BitVec.ofNat 32 param)

/-- `IsAttrGroup r id param attrs`: `r` is the record of a group with this id for this parameter index, with these attributes, at
least one. -/
def IsAttrGroup (r : BRecord) (id param : U64) (attrs : List Attribute) : Prop :=
  r.code = 3 ∧ ∃ l, AllAttrs l ∧ l.map (·.1) = attrs ∧ attrs ≠ [] ∧ r.fields = id :: param :: l.flatMap (·.2)

/-- `AttrGroups rs gs`: the records `rs` are those of the groups `gs` (id, parameter index and attributes), in order. -/
def AttrGroups (rs : List BRecord) (gs : List (U64 × U64 × List Attribute)) : Prop :=
  rs.length = gs.length ∧
    ∀ (i : Nat) (r : BRecord) (g : U64 × U64 × List Attribute), rs[i]? = some r → gs[i]? = some g → IsAttrGroup r g.1 g.2.1 g.2.2

/-- The last of the groups with the given id, ids being taken modulo `2^32`. -/
def lastGroup (gs : List (U64 × U64 × List Attribute)) (id : U32) : Option AttributeGroup :=
  (gs.reverse.find? fun g => g.1.toNat % 2 ^ 32 = id.toNat).map fun g =>
    { disposition := place (g.2.1.toNat % 2 ^ 32), attributes := g.2.2 }

/-- The records of a block of groups and what they define: for each id the last group, listed by id. -/
def GroupsSay (rs : List BRecord) (g : AttributeGroups) : Prop :=
  ∃ gs, AttrGroups rs gs ∧ g.Pairwise (fun a b => a.1.toNat < b.1.toNat) ∧ ∀ id x, (id, x) ∈ g ↔ lastGroup gs id = some x

/-- The records of a block of attribute lists and the lists: for each record its groups, ids being taken modulo `2^32`. -/
def ListsSay (g : AttributeGroups) (rs : List BRecord) (as : Attributes) : Prop :=
  as.length = rs.length ∧ ∀ (i : Nat) (r : BRecord) (e : AttributeEntry), rs[i]? = some r → as[i]? = some e →
    r.code = 2 ∧ e.length = r.fields.length ∧ ∀ (j : Nat) (f : U64) (x : AttributeGroup), r.fields[j]? = some f → e[j]? = some x →
      ∃ id, id.toNat = f.toNat % 2 ^ 32 ∧ (id, x) ∈ g

/-- A record of attributes whose last one has a key and is cut off in it: complete attributes, then a 4 and a key without the
NUL at its end. -/
def CutInKey (r : BRecord) : Prop :=
  r.code = 3 ∧ ∃ id param l k, AllAttrs l ∧ CString k ∧ r.fields = id :: param :: (l.flatMap (·.2) ++ 4 :: strFields k)

/-- An attribute cut off in its last string, which is not empty: where its NUL would be the fields end. -/
inductive CutLast : Attribute → List U64 → Prop
  | str {s : Str} : CString s → CutLast (.str s) (3 :: strFields s)
  | strKeyValue {k v : Str} : CString k → CString v → CutLast (.strKeyValue k v) (4 :: (strFields k ++ 0 :: strFields v))

/-- The numbers of the attributes with a value. -/
def valuedNumbers : List Nat := [1, 25, 33, 41, 42, 51, 74, 82, 86]

/-- Fields that begin with a string: a non-empty text in UTF-8 up to a NUL or to the end. -/
def BeginsWithString (fs : List U64) : Prop := ∃ s, CString s ∧ ((∃ rest, fs = strFields s ++ 0 :: rest) ∨ fs = strFields s)

/-- What is wrong with the attribute number `id` and the value `v`: it takes no value (`uwtable` may have one), an alignment does not
fit a byte or is more than 2^63 bytes, an `allocsize` is 0, or there is no such `uwtable`. -/
def ValueFault (id v : Nat) : MalformedMsg → Prop
  | .nonEnum => False
  | .enumGiven => id ≠ 33 ∧ ∃ a, (id, a) ∈ enumAttributeTable
  | .tooLarge => id ∈ [1, 25] ∧ 256 ≤ v
  | .alignment => id ∈ [1, 25] ∧ 64 < v ∧ v < 256
  | .allocSize => id = 51 ∧ v = 0
  | .unwindTable => id = 33 ∧ 2 < v

/-- `AttrFault fs e`: the fields `fs` do not begin with an attribute, and `e` says why. -/
inductive AttrFault : List U64 → AttributeError → Prop
  | kind {k : U64} {rest : List U64} : k.toNat ∉ [0, 1, 3, 4] → AttrFault (k :: rest) (.unknownAttributeKind k)
  | cutNumber {k : U64} : k.toNat ∈ [0, 1] → AttrFault [k] .tooShort
  | cutValue {id : U64} {key : AttributeId} : (id.toNat, key) ∈ attributeIdTable → AttrFault [1, id] .tooShort
  | number {k id : U64} {rest : List U64} : k.toNat ∈ [0, 1] → (∀ key, (id.toNat, key) ∉ attributeIdTable) →
      AttrFault (k :: id :: rest) (.unknownAttributeId id)
  | needsValue {id : U64} {key : AttributeId} {rest : List U64} : (id.toNat, key) ∈ attributeIdTable →
      (∀ a, (id.toNat, a) ∉ enumAttributeTable) → AttrFault (0 :: id :: rest) (.attributeMalformed .nonEnum key)
  | badValue {id v : U64} {key : AttributeId} {rest : List U64} {m : MalformedMsg} : (id.toNat, key) ∈ attributeIdTable →
      ValueFault id.toNat v.toNat m → AttrFault (1 :: id :: v :: rest) (.attributeMalformed m key)
  | unsupported {id v : U64} {key : AttributeId} {rest : List U64} : (id.toNat, key) ∈ attributeIdTable →
      id.toNat ∉ valuedNumbers → (∀ a, (id.toNat, a) ∉ enumAttributeTable) →
      AttrFault (1 :: id :: v :: rest) (.intAttributeUnsupported key)
  | badKey {k : U64} {rest : List U64} : k.toNat ∈ [3, 4] → ¬ BeginsWithString rest → AttrFault (k :: rest) .badString
  | badString {k : Str} {rest : List U64} : CString k → ¬ BeginsWithString rest →
      AttrFault (4 :: (strFields k ++ 0 :: rest)) .badString

/-- `GroupFault r e`: `r` is not the record of a group, and `e` says why. -/
inductive GroupFault : BRecord → AttributeError → Prop
  | code {r : BRecord} : r.code.toNat ∉ [1, 2, 3] → GroupFault r (.unknownAttributeCode r.code)
  | old {r : BRecord} : r.code = 1 → GroupFault r (.wrongBlock .entryOld)
  | list {r : BRecord} : r.code = 2 → GroupFault r (.wrongBlock .entry)
  | empty {r : BRecord} : r.code = 3 → r.fields.length < 3 →
      GroupFault r (.groupTooShort .groupCodeEntry r.fields.length)
  | attribute {r : BRecord} {id param : U64} {l : List (Attribute × List U64)} {fs : List U64} {e : AttributeError} :
      r.code = 3 → AllAttrs l → r.fields = id :: param :: (l.flatMap (·.2) ++ fs) → AttrFault fs e → GroupFault r e
  | cut {r : BRecord} {id param : U64} {l : List (Attribute × List U64)} {fs : List U64} {a : Attribute} :
      r.code = 3 → AllAttrs l → r.fields = id :: param :: (l.flatMap (·.2) ++ fs) → CutLast a fs →
      GroupFault r (.groupSizeMismatch (r.fields.length + 1) r.fields.length)

/-! ## LLVM's encodings of attributes with parameters -/

/-- Attributes with parameters, as written in LLVM's textual form. -/
inductive Meaning where
  /-- `align n`, in bytes -/
  | align (bytes : Nat)
  /-- `alignstack(n)`, in bytes -/
  | alignStack (bytes : Nat)
  | dereferenceable (n : Nat)
  | dereferenceableOrNull (n : Nat)
  /-- `allocsize(e)` or `allocsize(e, n)` -/
  | allocSize (e : Nat) (n : Option Nat)
  /-- `vscale_range(min, max)`; without `max` there is no upper bound -/
  | vScaleRange (min : Nat) (max : Option Nat)

/-- LLVM's number and 64-bit value of an attribute: `Attribute::getWithAlignment` (the value is the alignment in bytes, a power
of two), `packAllocSizeArgs` and `packVScaleRangeArgs` (two 32-bit halves; an absent `allocsize` argument is `2^32 - 1`, an
absent upper bound 0). -/
inductive Packs : Meaning → Nat → Nat → Prop
  | align {k : Nat} : k ≤ 32 → Packs (.align (2 ^ k)) 1 (2 ^ k)
  | alignStack {k : Nat} : k ≤ 32 → Packs (.alignStack (2 ^ k)) 25 (2 ^ k)
  | dereferenceable {n : Nat} : n < 2 ^ 64 → Packs (.dereferenceable n) 41 n
  | dereferenceableOrNull {n : Nat} : n < 2 ^ 64 → Packs (.dereferenceableOrNull n) 42 n
  | allocSizeOne {e : Nat} : e < 2 ^ 32 → Packs (.allocSize e none) 51 (e * 2 ^ 32 + (2 ^ 32 - 1))
  | allocSize {e n : Nat} : e < 2 ^ 32 → n < 2 ^ 32 - 1 → (e, n) ≠ (0, 0) →
      Packs (.allocSize e (some n)) 51 (e * 2 ^ 32 + n)
  | vScaleRange {min max : Nat} : min < 2 ^ 32 → max < 2 ^ 32 → max ≠ 0 →
      Packs (.vScaleRange min (some max)) 74 (min * 2 ^ 32 + max)
  | vScaleRangeMin {min : Nat} : min < 2 ^ 32 → Packs (.vScaleRange min none) 74 (min * 2 ^ 32)

/-- The mapped attribute says this, its parameters taken in the documented order. -/
inductive Reports : IntAttribute → Meaning → Prop
  | align {a : Align} : Reports (.alignment ⟨some a⟩) (.align a.byteAlign.toNat)
  | alignStack {a : Align} : Reports (.stackAlignment ⟨some a⟩) (.alignStack a.byteAlign.toNat)
  | dereferenceable {n : U64} : Reports (.dereferenceable n) (.dereferenceable n.toNat)
  | dereferenceableOrNull {n : U64} : Reports (.dereferenceableOrNull n) (.dereferenceableOrNull n.toNat)
  | allocSizeOne {e : U32} : Reports (.allocSize e none) (.allocSize e.toNat none)
  | allocSize {e n : U32} : Reports (.allocSize e (some n)) (.allocSize e.toNat (some n.toNat))
  | vScaleRange {min max : U32} : Reports (.vScaleRange min max) (.vScaleRange min.toNat (some max.toNat))

end Verif.Spec
