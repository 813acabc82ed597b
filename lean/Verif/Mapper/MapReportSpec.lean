import Verif.Bitstream.ReportSpec
import Verif.Mapper.TypeRangeSpec
import Verif.Mapper.VerdictSpec

/-! # Specification: the errors and panics of mapping a file

Lists of everything that mapping can report, with its cause. Some errors hold a number of things in the file, or a type with
everything it is made of; `fits n` is to say that there is room for so many of them. -/

namespace Verif.Spec

/-- Why a text is refused: it has one byte, or a character that is no byte, or it is not UTF-8. -/
inductive TextError : RecordStringError → Prop where
  | one : TextError (.badIndex 0 1)
  | character : TextError .badCharacter
  | encoding : TextError .badEncoding

/-- Why the contents of a table are refused. -/
inductive ContentError : RecordBlobError → Prop where
  | one : ContentError (.badIndex 0 1)
  | byte : ContentError .badByte

/-- Why a name in the string table is refused. -/
inductive NameError : StrtabError → Prop where
  | range : NameError .badRange
  | text : NameError .badString

/-- Why a datalayout is refused: as a text, or for one of the reasons of `LayoutFault` with a text of two or more bytes. -/
inductive LayoutError (fits : Nat → Prop) : DataLayoutError → Prop where
  | text {e : RecordStringError} : TextError e → LayoutError fits (.badString e)
  | spec {s : Str} {e : DataLayoutError} : 2 ≤ (utf8 s).length → fits (utf8 s).length → LayoutFault s e → LayoutError fits e

/-! ## Types -/

/-- How much there is to write for a table of types: the number of fields, and 3 for each record. -/
def tableWeight (ts : List Ty) : Nat := ((tableRecords ts).map fun r => r.fields.length + 3).sum

/-- A type that is in some table of types. -/
def TypeCanBe (fits : Nat → Prop) (t : Ty) : Prop := ∃ ts, TypesCanBe ts ∧ t ∈ ts ∧ fits (tableWeight ts)

/-- Why a table of types is refused. -/
inductive TableError (fits : Nat → Prop) : TypeTableError → Prop where
  | code (c : U64) : c = 0 ∨ 25 < c.toNat → TableError fits (.unknownTypeCode c)
  /-- A record without the fields it needs, or no count. -/
  | short : TableError fits .badTable
  | oldFunction : TableError fits (.map .unsupported)
  | pointerSpace (a : U64) : 2 ^ 23 ≤ a.toNat → TableError fits (.map (.invalid (.pointerSpace (.tooBig a))))
  | typeSpace (a : U64) : 2 ^ 23 ≤ a.toNat → TableError fits (.map (.invalid (.typeSpace (.tooBig a))))
  | unnamed : TableError fits (.map (.invalid .opaqueUnnamed))
  | namedTwice : TableError fits (.map (.invalid .structDeclared))
  | opaqueTwice : TableError fits (.map (.invalid .opaqueNamed))
  | name {e : RecordStringError} : TextError e → TableError fits (.map (.recordString e))
  /-- A reference to a type that there is not. It comes from a type, so there is at least one, the type 0. -/
  | index (i : Nat) : 0 < i → i < 2 ^ 64 → TableError fits (.badIndex i)
  /-- A count that is not that of the types. -/
  | count (n m : Nat) : n ≠ m → n * 56 < 2 ^ 63 → fits m → TableError fits (.badSize n m)
  | width : TableError fits (.invalidType .integerBadWidth)
  | returns {t : Ty} : TypeCanBe fits t → ¬ OkReturn t → TableError fits (.invalidType (.functionBadReturn t))
  | parameter {t : Ty} : TypeCanBe fits t → ¬ OkArgument t → TableError fits (.invalidType (.functionBadParameter t))
  | pointee {t : Ty} : TypeCanBe fits t → ¬ OkPointee t → TableError fits (.invalidType (.pointerBadPointee t))
  | member {t : Ty} : TypeCanBe fits t → ¬ OkStructElement t → TableError fits (.invalidType (.structBadElement t))
  | element {t : Ty} : TypeCanBe fits t → ¬ OkArrayElement t → TableError fits (.invalidType (.arrayBadElement t))
  | lane {t : Ty} : TypeCanBe fits t → ¬ OkVectorElement t → TableError fits (.invalidType (.vectorBadElement t))

/-! ## Attributes -/

/-- Why a table of attribute groups or of attribute lists is refused. -/
inductive AttributesError (fits : Nat → Prop) : AttributeError → Prop where
  | code (c : U64) : c.toNat ∉ [1, 2, 3] → AttributesError fits (.unknownAttributeCode c)
  | wrongBlock (c : AttributeCode) : AttributesError fits (.wrongBlock c)
  | kind (k : U64) : k.toNat ∉ [0, 1, 3, 4] → AttributesError fits (.unknownAttributeKind k)
  | cut : AttributesError fits .tooShort
  | text : AttributesError fits .badString
  | number (id : U64) : (∀ key, (id.toNat, key) ∉ attributeIdTable) → AttributesError fits (.unknownAttributeId id)
  /-- No value where one is needed. -/
  | noValue (id : Nat) (key : AttributeId) : (id, key) ∈ attributeIdTable → (∀ a, (id, a) ∉ enumAttributeTable) →
      AttributesError fits (.attributeMalformed .nonEnum key)
  | badValue (id v : Nat) (key : AttributeId) (m : MalformedMsg) : (id, key) ∈ attributeIdTable → v < 2 ^ 64 → ValueFault id v m →
      AttributesError fits (.attributeMalformed m key)
  /-- A number that is none of those with a value, nor of those without. -/
  | unsupported (id : Nat) (key : AttributeId) : (id, key) ∈ attributeIdTable → id ∉ valuedNumbers →
      (∀ a, (id, a) ∉ enumAttributeTable) → AttributesError fits (.intAttributeUnsupported key)
  | group (id : U32) : AttributesError fits (.badAttributeGroup id)
  | short (n : Nat) : n < 3 → AttributesError fits (.groupTooShort .groupCodeEntry n)
  /-- A record of `n` fields that ends in a string: its first two fields, the kind, and at least one byte. -/
  | size (n : Nat) : 4 ≤ n → fits n → AttributesError fits (.groupSizeMismatch (n + 1) n)

/-! ## COMDATs, functions and aliases -/

inductive ComdatsError (fits : Nat → Prop) : ComdatError → Prop where
  | version : ComdatsError fits .v1Unsupported
  | length (n : Nat) : n ≠ 3 → fits n → ComdatsError fits (.tooShort n)
  | name {e : StrtabError} : NameError e → ComdatsError fits (.name e)
  | kind (k : U64) : (∀ x, (k.toNat, x) ∉ selectionKindTable) → ComdatsError fits (.selectionKind k)

inductive FunctionsError : FunctionRecordError → Prop where
  | version : FunctionsError .v1Unsupported
  | length (n : Nat) : n < 10 → FunctionsError (.tooShort n)
  | name {e : StrtabError} : NameError e → FunctionsError (.strtab e)
  | typeId (v : U64) : FunctionsError (.typeId v)
  | type : FunctionsError .type
  | callingConvention (v : U64) : (∀ x, (v.toNat, x) ∉ callingConventionTable) → FunctionsError (.callingConvention v)
  /-- Attributes, sections and garbage collectors are counted from 1, and errors name the number of the attributes but the
  position of the others. -/
  | attribute (v : U64) : v ≠ 0 → FunctionsError (.attribute v)
  | «section» (n : Nat) : n < 2 ^ 64 - 1 → FunctionsError (.section n)
  | gc (n : Nat) : n < 2 ^ 64 - 1 → FunctionsError (.gc n)
  | alignment (shift : U8) : 64 ≤ shift.toNat → shift.toNat < 255 → FunctionsError (.alignment (.shiftTooBig shift))
  | visibility (v : U64) : (∀ x, (v.toNat, x) ∉ visibilityTable) → FunctionsError (.visibility v)
  | storageClass (v : U64) : (∀ x, (v.toNat, x) ∉ dllStorageClassTable) → FunctionsError (.dllStorageClass v)

inductive AliasesError : AliasError → Prop where
  | version : AliasesError .v1Unsupported
  | length (n : Nat) : n < 5 → AliasesError (.tooShort n)
  | name {e : StrtabError} : NameError e → AliasesError (.strtab e)
  | type (v : U64) : AliasesError (.type v)
  | visibility (v : U64) : (∀ x, (v.toNat, x) ∉ visibilityTable) → AliasesError (.visibility v)
  | storageClass (v : U64) : (∀ x, (v.toNat, x) ∉ dllStorageClassTable) → AliasesError (.dllStorageClass v)

/-- Why a function body is refused. -/
inductive BodiesError (fits : Nat → Prop) : FunctionBlockError → Prop where
  | noCount : BodiesError fits (.map (.inconsistent (.missingRecord 1)))
  | counts : BodiesError fits (.map (.inconsistent (.tooManyRecords 1)))
  | emptyCount : BodiesError fits .invalidBlockCount
  | code (c : U64) : (∀ x, (c.toNat, x) ∉ functionCodeTable) → BodiesError fits (.unknownFunctionCode c)
  | fields (code : Nat) (c : FunctionCode) (n : Nat) : (code, c) ∈ functionCodeTable → code ∈ [2, 3, 19, 20, 44] → n ≠ 4 →
      fits n → BodiesError fits (.badInst c (.fields 4 n))
  | unaryFields (c : FunctionCode) (n : Nat) : (56, c) ∈ functionCodeTable → n ≠ 3 → fits n →
      BodiesError fits (.badInst c (.fields 3 n))
  | type (code : Nat) (c : FunctionCode) (i : U64) : (code, c) ∈ functionCodeTable → code ∈ [2, 56] →
      BodiesError fits (.badInst c (.type i))
  | unary (op : U64) : op ≠ 0 → BodiesError fits (.badUnOp (.opcode op))
  | binary (op : U64) : 13 ≤ op.toNat → BodiesError fits (.badBinOp (.opcode op))
  | operand {t : Ty} : TypeCanBe fits t → BodiesError fits (.badBinOp (.invalidType t))

/-! ## Modules and files -/

inductive ModulesError (fits : Nat → Prop) : ModuleError → Prop where
  | noVersion : ModulesError fits (.map (.inconsistent (.missingRecord 1)))
  | emptyVersion : ModulesError fits .missingVersion
  | records (code : U64) : code.toNat ∈ [1, 2, 3, 4] → ModulesError fits (.map (.inconsistent (.tooManyRecords code)))
  | noTypes : ModulesError fits (.map (.inconsistent (.missingBlock (.ir .type))))
  | noSymbols : ModulesError fits (.map (.inconsistent (.missingBlock (.ir .valueSymtab))))
  | blocks (id : U64) : id.toNat ∈ [9, 10, 14, 17] → ModulesError fits (.map (.inconsistent (.tooManyBlocks (.ofU64 id))))
  | text {e : RecordStringError} : TextError e → ModulesError fits (.map (.recordString e))
  | layout {e : DataLayoutError} : LayoutError fits e → ModulesError fits (.dataLayoutRecord e)
  | types {e : TypeTableError} : TableError fits e → ModulesError fits (.typeTableBlock e)
  | attributes {e : AttributeError} : AttributesError fits e → ModulesError fits (.attributeBlock e)
  | comdat {e : ComdatError} : ComdatsError fits e → ModulesError fits (.comdatRecord e)
  | function {e : FunctionRecordError} : FunctionsError e → ModulesError fits (.functionRecord e)
  | body {e : FunctionBlockError} : BodiesError fits e → ModulesError fits (.functionBlock e)
  | alias {e : AliasError} : AliasesError e → ModulesError fits (.alias e)

/-- What mapping a file can report. -/
inductive FileError (fits : Nat → Prop) : MapperError → Prop where
  | opening {e : BErr} : OpenError e → FileError fits (.parse e)
  | reading {e : BErr} : ReadError e → FileError fits (.parse e)
  | truncated : FileError fits (.unroll .unexpectedEnd)
  | unidentified : FileError fits (.unroll .moduleWithoutIdentification)
  | adjacent : FileError fits (.unroll .adjacentModules)
  /-- A block that is none of those of a file, nor BLOCKINFO [0]. -/
  | unexpected (id : U64) : id.toNat ∉ [0, 8, 13, 23, 25] → FileError fits (.unroll (.unexpectedTopLevel (.ofU64 id)))
  | noStrtab : FileError fits (.unroll .missingStrtab)
  | noModule : FileError fits (.unroll .missingModule)
  | strtabMissing : FileError fits (.map (.strtab .missingBlob))
  | strtab {e : RecordBlobError} : ContentError e → FileError fits (.map (.strtab (.badBlob e)))
  | symtabMissing : FileError fits (.map (.symtab .missingBlob))
  | symtab {e : RecordBlobError} : ContentError e → FileError fits (.map (.symtab (.invalidBlob e)))
  | identification (e : IdentificationError) : FileError fits (.map (.identification e))
  | inModule {e : ModuleError} : ModulesError fits e → FileError fits (.map (.module e))

/-- The ways in which mapping a file can fail to return. -/
inductive FileStops (pf : Profile) : Stop → Prop where
  /-- Types that refer to each other in a circle. -/
  | hang : FileStops pf .hang
  /-- A count of types, of basic blocks or of elements that there can be no memory for. -/
  | capacity : FileStops pf (.panic .capacity)
  /-- A BLOCKINFO record for a block, without the block. -/
  | setBid : FileStops pf (.panic .setBidField)
  /-- A record without a code. -/
  | noCode : FileStops pf (.panic .recordCodeRemove)
  /-- A key of an attribute that is cut off. -/
  | key : FileStops pf (.panic .attrSlice)
  /-- A function body, or an attribute list of the old kind. -/
  | unimplemented : FileStops pf (.panic .unimplemented)
  /-- A name that overflows. -/
  | name : FileStops pf (.panic (nameSite pf))
  /-- Only in a debug build: a number of more than 64 bits, an abbreviation for an array without an element, or an empty text. -/
  | number : pf = .debug → FileStops pf (.panic .vbrShift)
  | array : pf = .debug → FileStops pf (.panic .abbrevArraySub)
  | text : pf = .debug → FileStops pf (.panic .recordLenSub)

end Verif.Spec
