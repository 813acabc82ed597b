import Verif.Props.CauseLists

/-! The messages of an error and its causes determine the error: the errors of mapping. -/

namespace Verif.Props
open Verif.Spec

/-! ## Names -/

def reservedNames : List String := [
  "BlockInfo", "Reserved1", "Reserved2", "Reserved3", "Reserved4", "Reserved5", "Reserved6", "Reserved7"]

theorem reservedNames_differ : Names ')' reservedNames := ⟨_, by unfold reservedNames; repeat constructor, by decide +kernel⟩

theorem reservedNames_named (e : ReservedBlockId) : Named reservedNames e.ctorIdx (Stderr.reservedName e) := by
  cases e <;> exact ⟨_, rfl, rfl⟩

def irNames : List String := [
  "Module", "ParamAttr", "ParamAttrGroup", "Constants", "Function", "Identification", "ValueSymtab", "Metadata",
  "MetadataAttachment", "Type", "Uselist", "ModuleStrtab", "GlobalValSummary", "OperandBundleTags", "MetadataKind", "Strtab",
  "FullLtoGlobalValSummary", "Symtab", "SyncScopeNames"]

theorem irNames_differ : Names ')' irNames := ⟨_, by unfold irNames; repeat constructor, by decide +kernel⟩

theorem irNames_named (e : IrBlockId) : Named irNames e.ctorIdx (Stderr.irName e) := by
  cases e <;> exact ⟨_, rfl, rfl⟩

def attributeNames : List String := [
  "Alignment", "AlwaysInline", "ByVal", "InlineHint", "InReg", "MinSize", "Naked", "Nest", "NoAlias", "NoBuiltin", "NoCapture",
  "NoDuplicate", "NoImplicitFloat", "NoInline", "NonLazyBind", "NoRedZone", "NoReturn", "NoUnwind", "OptimizeForSize",
  "ReadNone", "ReadOnly", "Returned", "ReturnsTwice", "SExt", "StackAlignment", "StackProtect", "StackProtectReq",
  "StackProtectStrong", "StructRet", "SanitizeAddress", "SanitizeThread", "SanitizeMemory", "UwTable", "ZExt", "Builtin",
  "Cold", "OptimizeNone", "InAlloca", "NonNull", "JumpTable", "Dereferenceable", "DereferenceableOrNull", "Convergent",
  "SafeStack", "ArgMemOnly", "SwiftSelf", "SwiftError", "NoRecurse", "InaccessiblememOnly", "InaccessiblememOrArgmemonly",
  "AllocSize", "WriteOnly", "Speculatable", "StrictFp", "SanitizeHwAddress", "NoCfCheck", "OptForFuzzing", "Shadowcallstack",
  "SpeculativeLoadHardening", "ImmArg", "WillReturn", "NoFree", "NoSync", "SanitizeMemtag", "Preallocated", "NoMerge",
  "NullPointerIsValid", "NoUndef", "ByRef", "MustProgress", "NoCallback", "Hot", "NoProfile", "VScaleRange", "SwiftAsync",
  "NoSanitizeCoverage", "ElementType", "DisableSanitizerInstrumentation", "NoSanitizeBounds", "AllocAlign", "AllocatedPointer",
  "AllocKind", "PresplitCoroutine", "FnretthunkExtern", "SkipProfile", "Memory"]

theorem attributeNames_differ : Names ' ' attributeNames := ⟨_, by unfold attributeNames; repeat constructor, by decide +kernel⟩

theorem attributeNames_named (e : AttributeId) : Named attributeNames e.ctorIdx (Stderr.attributeName e) := by
  cases e <;> exact ⟨_, rfl, rfl⟩

def functionNames : List String := [
  "DeclareBlocks", "InstBinop", "InstCast", "InstGepOld", "InstSelect", "InstExtractelt", "InstInsertelt", "InstShufflevec",
  "InstCmp", "InstRet", "InstBr", "InstSwitch", "InstInvoke", "InstUnreachable", "InstPhi", "InstAlloca", "InstLoad",
  "InstVaarg", "InstStoreOld", "InstExtractval", "InstInsertval", "InstCmp2", "InstVselect", "InstInboundsGepOld",
  "InstIndirectbr", "DebugLocAgain", "InstCall", "DebugLoc", "InstFence", "InstCmpxchgOld", "InstAtomicrmwOld", "InstResume",
  "InstLandingpadOld", "InstLoadatomic", "InstStoreatomicOld", "InstGep", "InstStore", "InstStoreatomic", "InstCmpxchg",
  "InstLandingpad", "InstCleanupret", "InstCatchret", "InstCatchpad", "InstCleanuppad", "InstCatchswitch", "OperandBundle",
  "InstUnop", "Instcallbr", "InstFreeze", "InstAtomicrmw"]

theorem functionNames_differ : Names ':' functionNames := ⟨_, by unfold functionNames; repeat constructor, by decide +kernel⟩

theorem functionNames_named (e : FunctionCode) : Named functionNames e.ctorIdx (e.name.toList) := by
  cases e <;> exact ⟨_, rfl, rfl⟩

def attributeCodeNames : List String := [
  "EntryOld", "Entry", "GroupCodeEntry"]

theorem attributeCodeNames_differ : Names ' ' attributeCodeNames := ⟨_, by unfold attributeCodeNames; repeat constructor, by decide +kernel⟩

theorem attributeCodeNames_named (e : AttributeCode) : Named attributeCodeNames e.ctorIdx (e.name.toList) := by
  cases e <;> exact ⟨_, rfl, rfl⟩

theorem attributeName_inj {a b : AttributeId} (h : Stderr.attributeName a = Stderr.attributeName b) : a = b := by
  rw [← AttributeId.ofNat_ctorIdx a, named_end attributeNames_differ (attributeNames_named a) (attributeNames_named b) h,
    AttributeId.ofNat_ctorIdx]

theorem function_then {a b : FunctionCode} {x y : Str} (h : a.name.toList ++ (':' :: x) = b.name.toList ++ (':' :: y)) :
    a = b ∧ x = y := by
  obtain ⟨h1, h2⟩ := named_then functionNames_differ (functionNames_named a) (functionNames_named b) h
  exact ⟨by rw [← FunctionCode.ofNat_ctorIdx a, h1, FunctionCode.ofNat_ctorIdx], h2⟩

theorem attributeCode_then {a b : AttributeCode} {x y : Str} (h : a.name.toList ++ (' ' :: x) = b.name.toList ++ (' ' :: y)) :
    a = b ∧ x = y := by
  obtain ⟨h1, h2⟩ := named_then attributeCodeNames_differ (attributeCodeNames_named a) (attributeCodeNames_named b) h
  exact ⟨by rw [← AttributeCode.ofNat_ctorIdx a, h1, AttributeCode.ofNat_ctorIdx], h2⟩

def blockHeads : List String := [
  "Reserved", "Ir", "Unknown"]

theorem blockHeads_differ : ∃ cs, Literals blockHeads cs ∧ allClash cs = true :=
  ⟨_, by unfold blockHeads; repeat constructor, by decide +kernel⟩

theorem block_begins (b : BlockId) (x : Str) : Begins blockHeads b.ctorIdx (Stderr.blockDebug b ++ x) := by
  cases b with
  | _ => exact ⟨_, _, rfl, List.append_assoc ..⟩

theorem in_tuple {name a b x y : Str} (h : Stderr.debugTuple name a ++ x = Stderr.debugTuple name b ++ y) :
    a ++ (')' :: x) = b ++ (')' :: y) := by
  unfold Stderr.debugTuple at h
  generalize "(".toList = p at h
  rw [List.append_assoc, List.append_assoc, List.append_assoc, List.append_assoc, List.append_assoc, List.append_assoc] at h
  have h := List.append_cancel_left (List.append_cancel_left h)
  exact h

/-- The text of a block id determines it, whatever follows. -/
theorem block_prefix {a b : BlockId} {x y : Str} (h : Stderr.blockDebug a ++ x = Stderr.blockDebug b ++ y) : a = b ∧ x = y := by
  have hk := heads_inj blockHeads_differ (block_begins a x) (block_begins b y) h
  cases a <;> cases b <;> constructors hk
  · rename_i r r'
    obtain ⟨h1, h2⟩ := named_then reservedNames_differ (reservedNames_named r) (reservedNames_named r') (in_tuple h)
    exact ⟨by rw [← ReservedBlockId.ofNat_ctorIdx r, h1, ReservedBlockId.ofNat_ctorIdx], h2⟩
  · rename_i r r'
    obtain ⟨h1, h2⟩ := named_then irNames_differ (irNames_named r) (irNames_named r') (in_tuple h)
    exact ⟨by rw [← IrBlockId.ofNat_ctorIdx r, h1, IrBlockId.ofNat_ctorIdx], h2⟩
  · rename_i v v'
    have h := in_tuple h
    obtain ⟨h1, h2⟩ := decimal_then_same (s := [')']) (by decide) h
    exact ⟨by rw [BitVec.eq_of_toNat_eq h1], h2⟩

/-! ## Records -/

theorem begins_with₃ {l : List String} {i : Nat} {p : String} {x y z : Str} (h : l[i]? = some p) :
    Begins l i (p.toList ++ x ++ y ++ z) :=
  ⟨p, x ++ (y ++ z), h, by rw [List.append_assoc, List.append_assoc]⟩

theorem begins_with₄ {l : List String} {i : Nat} {p : String} {w x y z : Str} (h : l[i]? = some p) :
    Begins l i (p.toList ++ w ++ x ++ y ++ z) :=
  ⟨p, w ++ (x ++ (y ++ z)), h, by rw [List.append_assoc, List.append_assoc, List.append_assoc]⟩

def stringHeads : List String := [
  "impossible string index: ", "impossible character value in string: ", "invalid string encoding: "]

theorem stringHeads_differ : ∃ cs, Literals stringHeads cs ∧ allClash cs = true :=
  ⟨_, by unfold stringHeads; repeat constructor, by decide +kernel⟩

theorem stringText_inj {utf8 utf8' : Str} {a b : RecordStringError} (h : Stderr.stringText utf8 a = Stderr.stringText utf8' b) : a = b := by
  have begins : ∀ utf8 e, Begins stringHeads (RecordStringError.ctorIdx e) (Stderr.stringText utf8 e) := by
    intro utf8 e
    cases e with
    | badIndex => exact begins_with₄ rfl
    | badCharacter =>
      refine ⟨_, "out of range integral type conversion attempted".toList, rfl, ?_⟩
      show "impossible character value in string: out of range integral type conversion attempted".toList = _
      decide +kernel
    | badEncoding => exact begins_with rfl
  have hk := heads_inj stringHeads_differ (begins utf8 a) (begins utf8' b) h
  cases a <;> cases b <;> constructors hk
  obtain ⟨h1, h2⟩ := two_numbers (q := " >= ".toList) (by decide +kernel) h
  rw [h1, h2]

theorem string_inj {utf8 utf8' : Str} {a b : RecordStringError} (h : Stderr.stringCauses utf8 a = Stderr.stringCauses utf8' b) : a = b :=
  stringText_inj (List.cons.inj h).1

def blobHeads : List String := [
  "impossible blob index: ", "impossible byte value in blob: out of range integral type conversion attempted"]

theorem blobHeads_differ : ∃ cs, Literals blobHeads cs ∧ allClash cs = true :=
  ⟨_, by unfold blobHeads; repeat constructor, by decide +kernel⟩

theorem blobText_inj {a b : RecordBlobError} (h : a.text = b.text) : a = b := by
  have begins : ∀ e, Begins blobHeads (RecordBlobError.ctorIdx e) e.text := by
    intro e
    cases e with
    | badIndex => exact begins_with₄ rfl
    | badByte => exact begins_bare rfl
  have hk := heads_inj blobHeads_differ (begins a) (begins b) h
  cases a <;> cases b <;> constructors hk
  obtain ⟨h1, h2⟩ := two_numbers (q := " >= ".toList) (by decide +kernel) h
  rw [h1, h2]

def alignHeads : List String := [
  "supplied shift is too large (", "supplied value is not a power of two: ", "supplied value is not a multiple of 8: "]

theorem alignHeads_differ : ∃ cs, Literals alignHeads cs ∧ allClash cs = true :=
  ⟨_, by unfold alignHeads; repeat constructor, by decide +kernel⟩

theorem alignError_inj {a b : AlignError} (h : a.text = b.text) : a = b := by
  have begins : ∀ e, Begins alignHeads (AlignError.ctorIdx e) e.text := by
    intro e
    cases e with
    | shiftTooBig => exact begins_with₄ rfl
    | notPowerOfTwo => exact begins_with rfl
    | notByteMultiple => exact begins_with rfl
  have hk := heads_inj alignHeads_differ (begins a) (begins b) h
  cases a <;> cases b <;> constructors hk
  · rw [BitVec.eq_of_toNat_eq (two_numbers (q := " > ".toList) (by decide +kernel) h).1]
  · rw [bits_decimal (List.append_cancel_left h)]
  · rw [bits_decimal (List.append_cancel_left h)]

def widthHeads : List String := [
  "bit width for type cannot be zero", "bit width for type is too large ("]

theorem widthHeads_differ : ∃ cs, Literals widthHeads cs ∧ allClash cs = true :=
  ⟨_, by unfold widthHeads; repeat constructor, by decide +kernel⟩

theorem widthError_inj {a b : AlignedTypeWidthError} (h : a.text = b.text) : a = b := by
  have begins : ∀ e, Begins widthHeads (AlignedTypeWidthError.ctorIdx e) e.text := by
    intro e
    cases e with
    | zero => exact begins_bare rfl
    | tooBig => exact begins_with₄ rfl
  have hk := heads_inj widthHeads_differ (begins a) (begins b) h
  cases a <;> cases b <;> constructors hk
  rw [BitVec.eq_of_toNat_eq (two_numbers (q := " > ".toList) (by decide +kernel) h).1]

theorem spaceError_inj {a b : AddressSpaceError} (h : a.text = b.text) : a = b := by
  cases a
  cases b
  rw [BitVec.eq_of_toNat_eq (two_numbers (q := " > ".toList) (by decide +kernel) h).1]

def intHeads : List String := [
  "cannot parse integer from empty string", "invalid digit found in string", "number too large to fit in target type"]

theorem intHeads_differ : ∃ cs, Literals intHeads cs ∧ allClash cs = true :=
  ⟨_, by unfold intHeads; repeat constructor, by decide +kernel⟩

theorem intError_inj {a b : IntErr} (h : a.text = b.text) : a = b := by
  have begins : ∀ e, Begins intHeads (IntErr.ctorIdx e) e.text := by intro e; cases e <;> exact begins_bare rfl
  have hk := heads_inj intHeads_differ (begins a) (begins b) h
  cases a <;> cases b <;> constructors hk

/-- An alignment that a datalayout can name. -/
def SmallAlign (a : Align) : Prop := a.shift.toNat ≤ 60

theorem alignText_inj {a b : Align} (ha : SmallAlign a) (hb : SmallAlign b) (h : a.text = b.text) : a = b := by
  have key : ∀ c : Align, SmallAlign c → c.byteAlign.toNat = 2 ^ c.shift.toNat := by
    intro c hc
    have : 2 ^ c.shift.toNat ≤ 2 ^ 60 := Nat.pow_le_pow_right (by decide) hc
    show ((1 : U64) <<< c.shift.toNat).toNat = _
    rw [BitVec.toNat_shiftLeft, Nat.shiftLeft_eq, show (1 : U64).toNat = 1 from rfl, Nat.one_mul]
    exact Nat.mod_eq_of_lt (by omega)
  have h := decimal_inj h
  rw [key a ha, key b hb] at h
  cases a
  cases b
  exact congrArg _ (BitVec.eq_of_toNat_eq ((Nat.pow_right_inj (by decide : 1 < 2)).1 h))

/-- The alignments that the error holds can be named by a datalayout. -/
def SmallAligns : AlignSpecError → Prop
  | .alignPref p a => SmallAlign p ∧ SmallAlign a
  | .abiAlignTooLarge a => SmallAlign a
  | _ => True

def alignSpecHeads : List String := [
  "impossible bit width for underlying aligned type", "impossible preferred alignment: ",
  "impossible ABI alignment for type: ", "error while parsing alignment spec: ", "error while parsing inner alignment in spec",
  "error while parsing integer in alignment spec", "invalid address space in spec"]

theorem alignSpecHeads_differ : ∃ cs, Literals alignSpecHeads cs ∧ allClash cs = true :=
  ⟨_, by unfold alignSpecHeads; repeat constructor, by decide +kernel⟩

theorem alignSpec_inj {a b : AlignSpecError} (ha : SmallAligns a) (hb : SmallAligns b)
    (h : Stderr.alignSpecCauses a = Stderr.alignSpecCauses b) : a = b := by
  have leads : ∀ e, Leads alignSpecHeads (AlignSpecError.ctorIdx e) (Stderr.alignSpecCauses e) := by
    intro e
    cases e with
    | alignPref | abiAlignTooLarge => exact ⟨_, _, rfl, begins_with₃ rfl⟩
    | parse => exact ⟨_, _, rfl, begins_with rfl⟩
    | _ => exact ⟨_, _, rfl, begins_bare rfl⟩
  have hk := leads_inj alignSpecHeads_differ (leads a) (leads b) h
  cases a <;> cases b <;> constructors hk
  all_goals have h := List.cons.inj h
  · rw [widthError_inj (List.cons.inj h.2).1]
  · obtain ⟨h1, h2⟩ := two_numbers_end (q := " must be >= ".toList) (by decide +kernel) h.1
    rw [alignText_inj ha.1 hb.1 (congrArg decimal h1), alignText_inj ha.2 hb.2 (congrArg decimal h2)]
  · have h1 := (two_numbers_end (q := " > ".toList) (by decide +kernel) h.1).1
    rw [alignText_inj ha hb (congrArg decimal h1)]
  · rw [List.append_cancel_left h.1]
  · rw [alignError_inj (List.cons.inj h.2).1]
  · rw [intError_inj (List.cons.inj h.2).1]
  · rw [spaceError_inj (List.cons.inj h.2).1]

/-- The same for the errors of datalayouts. -/
def SmallLayout : DataLayoutError → Prop
  | .badAlignSpec e => SmallAligns e
  | _ => True

def layoutHeads : List String := [
  "malformed datalayout record: ", "bad alignment value: ", "bad address space", "unknown datalayout specification: ",
  "empty specification in datalayout", "non-ASCII characters in datalayout string", "couldn't parse spec field: ",
  "couldn't parse spec: ", "cou't parse alignment spec: "]

theorem layoutHeads_differ : ∃ cs, Literals layoutHeads cs ∧ allClash cs = true :=
  ⟨_, by unfold layoutHeads; repeat constructor, by decide +kernel⟩

theorem layout_inj {utf8 utf8' : Str} {a b : DataLayoutError} (ha : SmallLayout a) (hb : SmallLayout b)
    (h : Stderr.layoutCauses utf8 a = Stderr.layoutCauses utf8' b) : a = b := by
  have leads : ∀ utf8 e, Leads layoutHeads (DataLayoutError.ctorIdx e) (Stderr.layoutCauses utf8 e) := by
    intro utf8 e
    cases e with
    | badString e =>
      cases e with
      | badIndex | badCharacter => exact ⟨_, _, rfl, begins_with rfl⟩
      | badEncoding =>
        refine ⟨_, _, rfl, _, "invalid string encoding: ".toList ++ utf8, rfl, ?_⟩
        rw [← List.append_assoc]
        exact congrArg (· ++ utf8) (by decide +kernel)
    | badAddressSpace | emptySpec | badEncoding => exact ⟨_, _, rfl, begins_bare rfl⟩
    | _ => exact ⟨_, _, rfl, begins_with rfl⟩
  have hk := leads_inj layoutHeads_differ (leads utf8 a) (leads utf8' b) h
  cases a <;> cases b <;> constructors hk
  all_goals have h := List.cons.inj h
  · rw [string_inj h.2]
  · rw [alignError_inj (List.cons.inj h.2).1]
  · rw [spaceError_inj (List.cons.inj h.2).1]
  · rw [(List.cons.inj (List.append_cancel_left h.1)).1]
  · rw [intError_inj (List.cons.inj h.2).1]
  · rw [List.append_cancel_left h.1]
  · rw [alignSpec_inj ha hb h.2]

def strtabHeads : List String := [
  "malformed string table: missing blob", "invalid string table: ", "requested range in string table is invalid",
  "could not decode range into a UTF-8 string: "]

theorem strtabHeads_differ : ∃ cs, Literals strtabHeads cs ∧ allClash cs = true :=
  ⟨_, by unfold strtabHeads; repeat constructor, by decide +kernel⟩

theorem strtabText_inj {utf8 utf8' : Str} {a b : StrtabError} (h : Stderr.strtabText utf8 a = Stderr.strtabText utf8' b) : a = b := by
  have begins : ∀ utf8 e, Begins strtabHeads (StrtabError.ctorIdx e) (Stderr.strtabText utf8 e) := by
    intro utf8 e
    cases e with
    | missingBlob | badRange => exact begins_bare rfl
    | _ => exact begins_with rfl
  have hk := heads_inj strtabHeads_differ (begins utf8 a) (begins utf8' b) h
  cases a <;> cases b <;> constructors hk
  rw [blobText_inj (List.append_cancel_left h)]

theorem strtab_inj {utf8 utf8' : Str} {a b : StrtabError} (h : Stderr.strtabCauses utf8 a = Stderr.strtabCauses utf8' b) : a = b :=
  strtabText_inj (List.cons.inj h).1

def consistencyHeads : List String := [
  "expected a block with ", "expected exactly one block with ", "expected a record of code ",
  "expected exactly one record of code "]

theorem consistencyHeads_differ : ∃ cs, Literals consistencyHeads cs ∧ allClash cs = true :=
  ⟨_, by unfold consistencyHeads; repeat constructor, by decide +kernel⟩

theorem consistency_inj {a b : ConsistencyError} (h : Stderr.consistencyText a = Stderr.consistencyText b) : a = b := by
  have begins : ∀ e, Begins consistencyHeads (ConsistencyError.ctorIdx e) (Stderr.consistencyText e) := by
    intro e
    cases e <;> exact begins_with rfl
  have hk := heads_inj consistencyHeads_differ (begins a) (begins b) h
  cases a <;> cases b <;> constructors hk
  all_goals have h := List.append_cancel_left h
  · rw [(block_prefix h).1]
  · rw [(block_prefix h).1]
  · rw [BitVec.eq_of_toNat_eq (decimal_end h)]
  · rw [BitVec.eq_of_toNat_eq (decimal_end h)]

def contextHeads : List String := [
  "mapping context requires a version for disambiguation, but none is available",
  "mapping context requires types, but none are available"]

theorem contextHeads_differ : ∃ cs, Literals contextHeads cs ∧ allClash cs = true :=
  ⟨_, by unfold contextHeads; repeat constructor, by decide +kernel⟩

theorem context_inj {a b : MapCtxError} (h : Stderr.contextText a = Stderr.contextText b) : a = b := by
  have begins : ∀ e, Begins contextHeads (MapCtxError.ctorIdx e) (Stderr.contextText e) := by
    intro e
    cases e <;> exact begins_bare rfl
  have hk := heads_inj contextHeads_differ (begins a) (begins b) h
  cases a <;> cases b <;> constructors hk

theorem spaceErrorDebug_inj {a b : AddressSpaceError} (h : Stderr.spaceErrorDebug a = Stderr.spaceErrorDebug b) : a = b := by
  cases a
  cases b
  rw [bits_decimal (tuple_inj h)]

def invalidHeads : List String := [
  "opaque type but no preceding type name", "forward-declared opaque type already has name",
  "bad address space for pointer type: ", "forward-declared struct type already has name and/or type fields",
  "bad address space in type: "]

theorem invalidHeads_differ : ∃ cs, Literals invalidHeads cs ∧ allClash cs = true :=
  ⟨_, by unfold invalidHeads; repeat constructor, by decide +kernel⟩

theorem invalid_inj {a b : InvalidMsg} (h : Stderr.invalidText a = Stderr.invalidText b) : a = b := by
  have begins : ∀ e, Begins invalidHeads (InvalidMsg.ctorIdx e) (Stderr.invalidText e) := by
    intro e
    cases e with
    | pointerSpace | typeSpace => exact begins_with rfl
    | _ => exact begins_bare rfl
  have hk := heads_inj invalidHeads_differ (begins a) (begins b) h
  cases a <;> cases b <;> constructors hk
  · rw [spaceErrorDebug_inj (List.append_cancel_left h)]
  · rw [spaceErrorDebug_inj (List.append_cancel_left h)]

def mapHeads : List String := [
  "error while mapping block: ", "inconsistent block or record state",
  "unsupported: unsupported: old function type codes; please implement!", "invalid: ", "error while extracting string: ",
  "missing context for mapping"]

theorem mapHeads_differ : ∃ cs, Literals mapHeads cs ∧ allClash cs = true :=
  ⟨_, by unfold mapHeads; repeat constructor, by decide +kernel⟩

theorem map_inj {utf8 utf8' : Str} {a b : MapError} (h : Stderr.mapCauses utf8 a = Stderr.mapCauses utf8' b) : a = b := by
  have leads : ∀ utf8 e, Leads mapHeads (MapError.ctorIdx e) (Stderr.mapCauses utf8 e) := by
    intro utf8 e
    cases e with
    | invalid | recordString => exact ⟨_, _, rfl, begins_with rfl⟩
    | _ => exact ⟨_, _, rfl, begins_bare rfl⟩
  have hk := leads_inj mapHeads_differ (leads utf8 a) (leads utf8' b) h
  cases a <;> cases b <;> constructors hk
  all_goals have h := List.cons.inj h
  · rw [consistency_inj (List.cons.inj h.2).1]
  · rw [invalid_inj (List.append_cancel_left h.1)]
  · rw [string_inj h.2]
  · rw [context_inj (List.cons.inj h.2).1]

def comdatHeads : List String := [
  "unsupported COMDAT record format (v1)", "COMDAT record doesn't have enough fields (", "error while accessing COMDAT name: ",
  "unknown or invalid COMDAT selection kind: ", "mapping error in comdat list"]

theorem comdatHeads_differ : ∃ cs, Literals comdatHeads cs ∧ allClash cs = true :=
  ⟨_, by unfold comdatHeads; repeat constructor, by decide +kernel⟩

theorem comdat_inj {utf8 utf8' : Str} {a b : ComdatError} (h : Stderr.comdatCauses utf8 a = Stderr.comdatCauses utf8' b) : a = b := by
  have leads : ∀ utf8 e, Leads comdatHeads (ComdatError.ctorIdx e) (Stderr.comdatCauses utf8 e) := by
    intro utf8 e
    cases e with
    | tooShort => exact ⟨_, _, rfl, begins_with₂ rfl⟩
    | name | selectionKind => exact ⟨_, _, rfl, begins_with rfl⟩
    | _ => exact ⟨_, _, rfl, begins_bare rfl⟩
  have hk := leads_inj comdatHeads_differ (leads utf8 a) (leads utf8' b) h
  cases a <;> cases b <;> constructors hk
  all_goals have h := List.cons.inj h
  · rw [one_number h.1]
  · rw [strtab_inj h.2]
  · rw [noDiscriminant_inj (List.cons.inj h.2).1]
  · rw [map_inj h.2]

def functionHeads : List String := [
  "function record too short: ", "unsupported function record format (v1)", "error while accessing string table",
  "unknown calling convention", "invalid type table index: ", "non-function type for function", "invalid attribute entry ID: ",
  "invalid alignment", "invalid section table index: ", "invalid visibility", "invalid GC table index: ",
  "invalid storage class"]

theorem functionHeads_differ : ∃ cs, Literals functionHeads cs ∧ allClash cs = true :=
  ⟨_, by unfold functionHeads; repeat constructor, by decide +kernel⟩

theorem function_inj {utf8 utf8' : Str} {a b : FunctionRecordError}
    (h : Stderr.functionCauses utf8 a = Stderr.functionCauses utf8' b) : a = b := by
  have leads : ∀ utf8 e, Leads functionHeads (FunctionRecordError.ctorIdx e) (Stderr.functionCauses utf8 e) := by
    intro utf8 e
    cases e with
    | tooShort => exact ⟨_, _, rfl, begins_with₂ rfl⟩
    | typeId | «attribute» | «section» | gc => exact ⟨_, _, rfl, begins_with rfl⟩
    | _ => exact ⟨_, _, rfl, begins_bare rfl⟩
  have hk := leads_inj functionHeads_differ (leads utf8 a) (leads utf8' b) h
  cases a <;> cases b <;> constructors hk
  all_goals have h := List.cons.inj h
  · rw [one_number h.1]
  · rw [strtab_inj h.2]
  · rw [noDiscriminant_inj (List.cons.inj h.2).1]
  · rw [bits_decimal (List.append_cancel_left h.1)]
  · rw [bits_decimal (List.append_cancel_left h.1)]
  · rw [alignError_inj (List.cons.inj h.2).1]
  · rw [decimal_inj (List.append_cancel_left h.1)]
  · rw [noDiscriminant_inj (List.cons.inj h.2).1]
  · rw [decimal_inj (List.append_cancel_left h.1)]
  · rw [noDiscriminant_inj (List.cons.inj h.2).1]

def aliasHeads : List String := [
  "alias record too short: ", "unsupported alias record format (v1)", "error while accessing string table",
  "invalid type table index: ", "invalid visibility", "invalid storage class"]

theorem aliasHeads_differ : ∃ cs, Literals aliasHeads cs ∧ allClash cs = true :=
  ⟨_, by unfold aliasHeads; repeat constructor, by decide +kernel⟩

theorem alias_inj {utf8 utf8' : Str} {a b : AliasError} (h : Stderr.aliasCauses utf8 a = Stderr.aliasCauses utf8' b) : a = b := by
  have leads : ∀ utf8 e, Leads aliasHeads (AliasError.ctorIdx e) (Stderr.aliasCauses utf8 e) := by
    intro utf8 e
    cases e with
    | tooShort => exact ⟨_, _, rfl, begins_with₂ rfl⟩
    | type => exact ⟨_, _, rfl, begins_with rfl⟩
    | _ => exact ⟨_, _, rfl, begins_bare rfl⟩
  have hk := leads_inj aliasHeads_differ (leads utf8 a) (leads utf8' b) h
  cases a <;> cases b <;> constructors hk
  all_goals have h := List.cons.inj h
  · rw [one_number h.1]
  · rw [strtab_inj h.2]
  · rw [bits_decimal (List.append_cancel_left h.1)]
  · rw [noDiscriminant_inj (List.cons.inj h.2).1]
  · rw [noDiscriminant_inj (List.cons.inj h.2).1]

/-! ## Blocks -/

def identificationHeads : List String := [
  "identification block has no producer", "malformed producer string", "identification block has no epoch"]

theorem identificationHeads_differ : ∃ cs, Literals identificationHeads cs ∧ allClash cs = true :=
  ⟨_, by unfold identificationHeads; repeat constructor, by decide +kernel⟩

theorem identification_inj {a b : IdentificationError} (h : Stderr.identificationText a = Stderr.identificationText b) : a = b := by
  have begins : ∀ e, Begins identificationHeads (IdentificationError.ctorIdx e) (Stderr.identificationText e) := by
    intro e
    cases e <;> exact begins_bare rfl
  have hk := heads_inj identificationHeads_differ (begins a) (begins b) h
  cases a <;> cases b <;> constructors hk

def symtabHeads : List String := [
  "malformed symbol table: missing blob", "invalid string table: "]

theorem symtabHeads_differ : ∃ cs, Literals symtabHeads cs ∧ allClash cs = true :=
  ⟨_, by unfold symtabHeads; repeat constructor, by decide +kernel⟩

theorem symtab_inj {a b : SymtabError} (h : Stderr.symtabCauses a = Stderr.symtabCauses b) : a = b := by
  have leads : ∀ e, Leads symtabHeads (SymtabError.ctorIdx e) (Stderr.symtabCauses e) := by
    intro e
    cases e with
    | missingBlob => exact ⟨_, _, rfl, begins_bare rfl⟩
    | invalidBlob => exact ⟨_, _, rfl, begins_with rfl⟩
  have hk := leads_inj symtabHeads_differ (leads a) (leads b) h
  cases a <;> cases b <;> constructors hk
  rw [blobText_inj (List.append_cancel_left (List.cons.inj h).1)]

def typeErrorHeads : List String := [
  "invalid structure element type: ", "specified bit width is invalid (not in [1, 16777215])", "invalid pointee type: ",
  "invalid array element type: ", "invalid vector element type: ", "invalid function return type: ",
  "invalid function parameter type: "]

theorem typeErrorHeads_differ : ∃ cs, Literals typeErrorHeads cs ∧ allClash cs = true :=
  ⟨_, by unfold typeErrorHeads; repeat constructor, by decide +kernel⟩

theorem typeError_inj {plain plain' : Char → Bool} {a b : Ty.Error}
    (h : Stderr.typeErrorText plain a = Stderr.typeErrorText plain' b) : a = b := by
  have begins : ∀ plain e, Begins typeErrorHeads (Ty.Error.ctorIdx e) (Stderr.typeErrorText plain e) := by
    intro plain e
    cases e with
    | integerBadWidth => exact begins_bare rfl
    | _ => exact begins_with rfl
  have hk := heads_inj typeErrorHeads_differ (begins plain a) (begins plain' b) h
  cases a <;> cases b <;> constructors hk
  all_goals rw [C77_type _ _ _ _ (List.append_cancel_left h)]

/-- The number of the first message. -/
def tableKind : TypeTableError → Nat
  | .badSize .. => 0
  | .badIndex _ => 1
  | .unknownTypeCode _ => 2
  | .badTable => 3
  | .map _ => 4
  | .invalidType (.structBadElement _) => 5
  | .invalidType .integerBadWidth => 6
  | .invalidType (.pointerBadPointee _) => 7
  | .invalidType (.arrayBadElement _) => 8
  | .invalidType (.vectorBadElement _) => 9
  | .invalidType (.functionBadReturn _) => 10
  | .invalidType (.functionBadParameter _) => 10

def tableHeads : List String := [
  "invalid type table size (expected ", "invalid type table index: ", "unknown type code",
  "invalid type table structure (broken records)", "mapping error in string table", "invalid structure type",
  "invalid integer type", "invalid pointer type", "invalid array type", "invalid vector type", "invalid function type"]

theorem tableHeads_differ : ∃ cs, Literals tableHeads cs ∧ allClash cs = true :=
  ⟨_, by unfold tableHeads; repeat constructor, by decide +kernel⟩

theorem table_inj {plain plain' : Char → Bool} {utf8 utf8' : Str} {a b : TypeTableError}
    (h : Stderr.tableCauses plain utf8 a = Stderr.tableCauses plain' utf8' b) : a = b := by
  have leads : ∀ plain utf8 e, Leads tableHeads (tableKind e) (Stderr.tableCauses plain utf8 e) := by
    intro plain utf8 e
    cases e with
    | badSize | badIndex => exact ⟨_, _, rfl, begins_with rfl⟩
    | invalidType e => cases e <;> exact ⟨_, _, rfl, begins_bare rfl⟩
    | _ => exact ⟨_, _, rfl, begins_bare rfl⟩
  have hk := leads_inj tableHeads_differ (leads plain utf8 a) (leads plain' utf8' b) h
  cases a with
  | invalidType e =>
    cases b with
    | invalidType e' => rw [typeError_inj (List.cons.inj (List.cons.inj h).2).1]
    | _ => exfalso; cases e <;> cases hk
  | _ =>
    cases b with
    | invalidType e' => exfalso; cases e' <;> cases hk
    | _ =>
      constructors hk
      all_goals have h := List.cons.inj h
      all_goals first
        | rw [map_inj h.2]; done
        | rw [noDiscriminant_inj (List.cons.inj h.2).1]; done
        | rw [decimal_inj (List.append_cancel_left h.1)]; done
        | (have h := decimal_then_same (s := " elements, got ".toList) (by decide +kernel) (List.append_cancel_left h.1)
           rw [h.1, decimal_end h.2])

def malformedHeads : List String := [
  "non-enum attribute ID given", "expected int attribute, but given enum ID", "attribute value too large (invalid alignment)",
  "invalid alignment", "allocasize argument invalid: cannot be (0, 0)", "Unwind table variant error"]

theorem malformedHeads_differ : ∃ cs, Literals malformedHeads cs ∧ allClash cs = true :=
  ⟨_, by unfold malformedHeads; repeat constructor, by decide +kernel⟩

theorem malformed_prefix {a b : MalformedMsg} {x y : Str} (h : Stderr.malformedText a ++ x = Stderr.malformedText b ++ y) :
    a = b ∧ x = y := by
  have begins : ∀ e x, Begins malformedHeads (MalformedMsg.ctorIdx e) (Stderr.malformedText e ++ x) := by
    intro e x
    cases e <;> exact begins_with rfl
  have hk : a = b := by
    rw [← MalformedMsg.ofNat_ctorIdx a, heads_inj malformedHeads_differ (begins a x) (begins b y) h, MalformedMsg.ofNat_ctorIdx]
  subst hk
  exact ⟨rfl, List.append_cancel_left h⟩

def attributeHeads : List String := [
  "unknown attribute code", "unknown attribute kind", "wrong block for code: ", "attribute structure too short",
  "bad attribute string", "unknown attribute ID", "malformed attribute (format doesn't match ID): ",
  "FIXME: unsupported integer attribute: ", "nonexistent attribute group: ", "attribute group record for ",
  "under/overconsumed fields in attribute group record ("]

theorem attributeHeads_differ : ∃ cs, Literals attributeHeads cs ∧ allClash cs = true :=
  ⟨_, by unfold attributeHeads; repeat constructor, by decide +kernel⟩

theorem attribute_inj {a b : AttributeError} (h : Stderr.attributeCauses a = Stderr.attributeCauses b) : a = b := by
  have leads : ∀ e, Leads attributeHeads (AttributeError.ctorIdx e) (Stderr.attributeCauses e) := by
    intro e
    cases e with
    | attributeMalformed | intAttributeUnsupported | wrongBlock | badAttributeGroup => exact ⟨_, _, rfl, begins_with rfl⟩
    | groupTooShort | groupSizeMismatch => exact ⟨_, _, rfl, begins_with₄ rfl⟩
    | _ => exact ⟨_, _, rfl, begins_bare rfl⟩
  have hk := leads_inj attributeHeads_differ (leads a) (leads b) h
  cases a <;> cases b <;> constructors hk
  all_goals have h := List.cons.inj h
  · rw [noDiscriminant_inj (List.cons.inj h.2).1]
  · rw [noDiscriminant_inj (List.cons.inj h.2).1]
  · rw [(attributeCode_then (x := []) (y := []) (congrArg (· ++ [' ']) (List.append_cancel_left h.1))).1]
  · rw [noDiscriminant_inj (List.cons.inj h.2).1]
  · obtain ⟨h1, h2⟩ := malformed_prefix (List.append_cancel_left h.1)
    rw [h1, attributeName_inj (List.append_cancel_left h2)]
  · rw [attributeName_inj (List.append_cancel_left h.1)]
  · rw [bits_decimal (List.append_cancel_left h.1)]
  · rename_i c n c' n' _
    have h1 : "attribute group record for ".toList ++ c.name.toList ++ " too short (".toList ++ decimal n ++ " < 3)".toList =
      "attribute group record for ".toList ++ c'.name.toList ++ " too short (".toList ++ decimal n' ++ " < 3)".toList := h.1
    rw [show " too short (".toList = ' ' :: "too short (".toList by decide +kernel] at h1
    generalize "attribute group record for ".toList = p, "too short (".toList = q, " < 3)".toList = r at h1
    rw [List.append_assoc, List.append_assoc, List.append_assoc, List.append_assoc, List.append_assoc, List.append_assoc] at h1
    obtain ⟨h2, h3⟩ := attributeCode_then (List.append_cancel_left h1)
    rw [h2, decimal_end (List.append_cancel_left h3)]
  · obtain ⟨h1, h2⟩ := two_numbers (q := " fields, ".toList) (by decide +kernel) h.1
    rw [h1, h2]

def binaryHeads : List String := [
  "invalid type for binary op: ", "incompatible type for op: ", "unknown opcode"]

theorem binaryHeads_differ : ∃ cs, Literals binaryHeads cs ∧ allClash cs = true :=
  ⟨_, by unfold binaryHeads; repeat constructor, by decide +kernel⟩

theorem binary_inj {plain plain' : Char → Bool} {a b : BinaryOpError} (h : Stderr.binaryCauses plain a = Stderr.binaryCauses plain' b) :
    a = b := by
  have leads : ∀ plain e, Leads binaryHeads (BinaryOpError.ctorIdx e) (Stderr.binaryCauses plain e) := by
    intro plain e
    cases e with
    | opcode => exact ⟨_, _, rfl, begins_bare rfl⟩
    | _ => exact ⟨_, _, rfl, begins_with rfl⟩
  have hk := leads_inj binaryHeads_differ (leads plain a) (leads plain' b) h
  cases a <;> cases b <;> constructors hk
  all_goals have h := List.cons.inj h
  · rw [C77_type _ _ _ _ (List.append_cancel_left h.1)]
  · rw [C77_type _ _ _ _ (List.append_cancel_left h.1)]
  · rw [noDiscriminant_inj (List.cons.inj h.2).1]

theorem unary_inj {a b : UnaryOpError} (h : Stderr.unaryCauses a = Stderr.unaryCauses b) : a = b := by
  cases a
  cases b
  rw [noDiscriminant_inj (List.cons.inj (List.cons.inj h).2).1]

def instHeads : List String := [
  " expected ", " invalid type table reference: "]

theorem instHeads_differ : ∃ cs, Literals instHeads cs ∧ allClash cs = true :=
  ⟨_, by unfold instHeads; repeat constructor, by decide +kernel⟩

/-- What follows the name of the record. -/
def instTail : InstMsg → Str
  | .fields n k => " expected ".toList ++ (decimal n ++ (" fields, got ".toList ++ decimal k))
  | .type i => " invalid type table reference: ".toList ++ decimal i.toNat

theorem instText_eq (c : FunctionCode) (m : InstMsg) : m.text c = "bad ".toList ++ (c.name.toList ++ (':' :: instTail m)) := by
  cases m with
  | fields n k =>
    show "bad ".toList ++ c.name.toList ++ ": expected ".toList ++ decimal n ++ " fields, got ".toList ++ decimal k = _
    rw [show ": expected ".toList = ':' :: " expected ".toList by decide +kernel]
    rw [List.append_assoc, List.append_assoc, List.append_assoc, List.append_assoc]
    rfl
  | type i =>
    show "bad ".toList ++ c.name.toList ++ ": invalid type table reference: ".toList ++ decimal i.toNat = _
    rw [show ": invalid type table reference: ".toList = ':' :: " invalid type table reference: ".toList by decide +kernel]
    rw [List.append_assoc, List.append_assoc]
    rfl

theorem inst_inj {c c' : FunctionCode} {m m' : InstMsg} (h : m.text c = m'.text c') : c = c' ∧ m = m' := by
  rw [instText_eq, instText_eq] at h
  obtain ⟨h1, h2⟩ := function_then (List.append_cancel_left h)
  refine ⟨h1, ?_⟩
  have begins : ∀ e, Begins instHeads (InstMsg.ctorIdx e) (instTail e) := by
    intro e
    cases e <;> exact begins_with rfl
  have hk := heads_inj instHeads_differ (begins m) (begins m') h2
  cases m <;> cases m' <;> constructors hk
  · have h3 := decimal_then_same (s := " fields, got ".toList) (by decide +kernel) (List.append_cancel_left h2)
    rw [h3.1, decimal_inj h3.2]
  · rw [bits_decimal (List.append_cancel_left h2)]

def bodyHeads : List String := [
  "function does not declare block count or has zero blocks", "unknown function code", "invalid instruction encoding: ",
  "invalid unary opcode", "invalid binary opcode", "generic mapping error"]

theorem bodyHeads_differ : ∃ cs, Literals bodyHeads cs ∧ allClash cs = true :=
  ⟨_, by unfold bodyHeads; repeat constructor, by decide +kernel⟩

theorem body_inj {plain plain' : Char → Bool} {utf8 utf8' : Str} {a b : FunctionBlockError}
    (h : Stderr.bodyCauses plain utf8 a = Stderr.bodyCauses plain' utf8' b) : a = b := by
  have leads : ∀ plain utf8 e, Leads bodyHeads (FunctionBlockError.ctorIdx e) (Stderr.bodyCauses plain utf8 e) := by
    intro plain utf8 e
    cases e with
    | badInst => exact ⟨_, _, rfl, begins_with rfl⟩
    | _ => exact ⟨_, _, rfl, begins_bare rfl⟩
  have hk := leads_inj bodyHeads_differ (leads plain utf8 a) (leads plain' utf8' b) h
  cases a <;> cases b <;> constructors hk
  all_goals have h := List.cons.inj h
  · rw [noDiscriminant_inj (List.cons.inj h.2).1]
  · obtain ⟨h1, h2⟩ := inst_inj (List.append_cancel_left h.1)
    rw [h1, h2]
  · rw [unary_inj h.2]
  · rw [binary_inj h.2]
  · rw [map_inj h.2]

/-- The same for the errors of modules. -/
def SmallModule : ModuleError → Prop
  | .dataLayoutRecord e => SmallLayout e
  | _ => True

def moduleHeads : List String := [
  "bitcode module has no version", "invalid datalayout record", "invalid type table block", "invalid attribute block",
  "invalid COMDAT record", "invalid function record", "invalid function block", "invalid alias record", "generic mapping error"]

theorem moduleHeads_differ : ∃ cs, Literals moduleHeads cs ∧ allClash cs = true :=
  ⟨_, by unfold moduleHeads; repeat constructor, by decide +kernel⟩

theorem module_inj {plain plain' : Char → Bool} {utf8 utf8' : Str} {a b : ModuleError} (ha : SmallModule a) (hb : SmallModule b)
    (h : Stderr.moduleCauses plain utf8 a = Stderr.moduleCauses plain' utf8' b) : a = b := by
  have leads : ∀ plain utf8 e, Leads moduleHeads (ModuleError.ctorIdx e) (Stderr.moduleCauses plain utf8 e) := by
    intro plain utf8 e
    cases e with
    | _ => exact ⟨_, _, rfl, begins_bare rfl⟩
  have hk := leads_inj moduleHeads_differ (leads plain utf8 a) (leads plain' utf8' b) h
  cases a <;> cases b <;> constructors hk
  all_goals have h := List.cons.inj h
  · rw [layout_inj ha hb h.2]
  · rw [table_inj h.2]
  · rw [attribute_inj h.2]
  · rw [comdat_inj h.2]
  · rw [function_inj h.2]
  · rw [body_inj h.2]
  · rw [alias_inj h.2]
  · rw [map_inj h.2]

/-- The same for the errors of mapping. -/
def SmallMap : BlockMapError → Prop
  | .module e => SmallModule e
  | _ => True

def blockMapHeads : List String := [
  "error while mapping identification block", "error while mapping module", "error while mapping string table",
  "error while mapping symbol table"]

theorem blockMapHeads_differ : ∃ cs, Literals blockMapHeads cs ∧ allClash cs = true :=
  ⟨_, by unfold blockMapHeads; repeat constructor, by decide +kernel⟩

theorem blockMap_inj {plain plain' : Char → Bool} {utf8 utf8' : Str} {a b : BlockMapError} (ha : SmallMap a) (hb : SmallMap b)
    (h : Stderr.blockCauses plain utf8 a = Stderr.blockCauses plain' utf8' b) : a = b := by
  have leads : ∀ plain utf8 e, Leads blockMapHeads (BlockMapError.ctorIdx e) (Stderr.blockCauses plain utf8 e) := by
    intro plain utf8 e
    cases e with
    | _ => exact ⟨_, _, rfl, begins_bare rfl⟩
  have hk := leads_inj blockMapHeads_differ (leads plain utf8 a) (leads plain' utf8' b) h
  cases a <;> cases b <;> constructors hk
  all_goals have h := List.cons.inj h
  · rw [identification_inj (List.cons.inj h.2).1]
  · rw [module_inj ha hb h.2]
  · rw [strtab_inj h.2]
  · rw [symtab_inj h.2]

def unrollHeads : List String := [
  "unexpected stream end during unroll", "bitstream has non-blocks at the top-level scope",
  "malformed bitstream: MODULE_BLOCK with no preceding IDENTIFICATION_BLOCK", "malformed bitstream: adjacent MODULE_BLOCKs",
  "unexpected top-level block: ", "missing STRTAB_BLOCK for bitcode module", "missing MODULE_BLOCK for bitcode module"]

theorem unrollHeads_differ : ∃ cs, Literals unrollHeads cs ∧ allClash cs = true :=
  ⟨_, by unfold unrollHeads; repeat constructor, by decide +kernel⟩

theorem unroll_inj {a b : UnrollMsg} (h : Stderr.unrollText a = Stderr.unrollText b) : a = b := by
  have begins : ∀ e, Begins unrollHeads (UnrollMsg.ctorIdx e) (Stderr.unrollText e) := by
    intro e
    cases e with
    | unexpectedTopLevel => exact begins_with rfl
    | _ => exact begins_bare rfl
  have hk := heads_inj unrollHeads_differ (begins a) (begins b) h
  cases a <;> cases b <;> constructors hk
  rw [(block_prefix (x := []) (y := []) (congrArg (· ++ []) (List.append_cancel_left h))).1]

/-! ## The program -/

/-- The same for the errors of the program. -/
def SmallFailure : Stderr.Failure → Prop
  | .mapping (.map e) => SmallMap e
  | _ => True

/-- The number of the first message. -/
def failureKind : Stderr.Failure → Nat
  | .opening e => e.ctorIdx
  | .mapping (.parse _) => 9
  | .mapping (.unroll _) => 10
  | .mapping (.map _) => 11

def failureHeads : List String := [
  "bitstream has been exhausted", "underlying bitcursor error", "couldn't parse bitstream container: ",
  "bad record code for BLOCKINFO block", "bad operand code for DEFINE_ABBREV operand", "error while parsing stream: ",
  "error while parsing abbrev record: ", "unknown abbreviation for ID: ", "error while parsing block scope: ",
  "error while parsing the bitstream", "error while unrolling the bitstream: ", "error while mapping the bitsteam"]

theorem failureHeads_differ : ∃ cs, Literals failureHeads cs ∧ allClash cs = true :=
  ⟨_, by unfold failureHeads; repeat constructor, by decide +kernel⟩

/-- C77. The messages determine the error. -/
theorem C77_messages {plain plain' : Char → Bool} {utf8 utf8' : Str} {a b : Stderr.Failure} (ha : SmallFailure a) (hb : SmallFailure b)
    (h : a.causes plain utf8 = b.causes plain' utf8') : a = b := by
  have leads : ∀ plain utf8 (e : Stderr.Failure), Leads failureHeads (failureKind e) (e.causes plain utf8) := by
    intro plain utf8 e
    cases e with
    | opening e =>
      cases e with
      | exhausted | cursor | badBlockInfoCode | badAbbrevOpEnc => exact ⟨_, _, rfl, begins_bare rfl⟩
      | _ => exact ⟨_, _, rfl, begins_with rfl⟩
    | mapping e =>
      cases e with
      | unroll => exact ⟨_, _, rfl, begins_with rfl⟩
      | _ => exact ⟨_, _, rfl, begins_bare rfl⟩
  have hk := leads_inj failureHeads_differ (leads plain utf8 a) (leads plain' utf8' b) h
  cases a with
  | opening e =>
    cases b with
    | opening e' => rw [bitstream_inj h]
    | mapping e' => exfalso; cases e <;> cases e' <;> cases hk
  | mapping e =>
    cases b with
    | opening e' => exfalso; cases e <;> cases e' <;> cases hk
    | mapping e' =>
      cases e <;> cases e' <;> constructors hk
      all_goals have h := List.cons.inj h
      · rw [bitstream_inj h.2]
      · rw [unroll_inj (List.append_cancel_left h.1)]
      · rw [blockMap_inj ha hb h.2]

end Verif.Props
