import Verif.Props.MapCauses

/-! Messages without control characters. -/

namespace Verif.Props
open Verif.Spec

/-- No control character is in the text, as a test. -/
def clean (s : Str) : Bool := s.all fun c => decide (32 ≤ c.toNat) && (decide (c.toNat < 127) || decide (160 ≤ c.toNat))

theorem clean_of {s : Str} (h : clean s = true) : NoControl s := by
  intro c hc hn
  have := List.all_eq_true.1 h c hc
  simp only [Bool.and_eq_true, Bool.or_eq_true, decide_eq_true_eq] at this
  unfold Control at hn
  omega

theorem clean_literal {c : List Char} (h : clean c = true) : NoControl (String.ofList c).toList := by
  rw [String.toList_ofList]
  exact clean_of h

theorem clean_append {a b : Str} (ha : NoControl a) (hb : NoControl b) : NoControl (a ++ b) := by
  intro c hc
  rcases List.mem_append.1 hc with h | h
  · exact ha c h
  · exact hb c h

theorem clean_nil : NoControl [] := fun _ h => nomatch h

theorem clean_decimal (n : Nat) : NoControl (decimal n) := by
  intro c hc hn
  have := decimal_digit hc
  unfold Control at hn
  omega

/-- Texts made of literals, numbers and what is known. -/
macro "clean_text" : tactic => `(tactic| repeat first
  | (with_reducible apply clean_append)
  | (with_reducible assumption)
  | (with_reducible exact clean_decimal _)
  | (with_reducible refine clean_literal ?_); decide +kernel)

/-- Every message is without control characters. -/
def AllClean (ms : List Str) : Prop := ∀ m ∈ ms, NoControl m

theorem allClean_cons {m : Str} {ms : List Str} (h : NoControl m) (hs : AllClean ms) : AllClean (m :: ms) := by
  intro x hx
  rcases List.mem_cons.1 hx with rfl | hx
  · exact h
  · exact hs x hx

theorem allClean_nil : AllClean [] := fun _ h => nomatch h

theorem clean_cursorName (e : CErr) : NoControl (Stderr.cursorName e) := by
  cases e <;> dsimp only [-String.reduceToList, Stderr.cursorName] <;> clean_text

theorem clean_cursorText (e : CErr) : NoControl (Stderr.cursorText e) := by
  cases e <;> dsimp only [-String.reduceToList, Stderr.cursorText] <;> clean_text

theorem clean_ioDebug (e : Cursor.IoErr) : NoControl (Stderr.ioDebug e) := by
  cases e <;> dsimp only [-String.reduceToList, Stderr.ioDebug] <;> clean_text

theorem clean_encodingName (e : AbbrevOpEnc) : NoControl (Stderr.encodingName e) := by
  cases e <;> dsimp only [-String.reduceToList, Stderr.encodingName] <;> clean_text

theorem clean_reservedName (e : ReservedBlockId) : NoControl (Stderr.reservedName e) := by
  cases e <;> dsimp only [-String.reduceToList, Stderr.reservedName] <;> clean_text

theorem clean_irName (e : IrBlockId) : NoControl (Stderr.irName e) := by
  cases e <;> dsimp only [-String.reduceToList, Stderr.irName] <;> clean_text

theorem clean_attributeName (e : AttributeId) : NoControl (Stderr.attributeName e) := by
  cases e <;> dsimp only [-String.reduceToList, Stderr.attributeName] <;> clean_text

theorem clean_primName (e : Prim) : NoControl (Stderr.primName e) := by
  cases e <;> dsimp only [-String.reduceToList, Stderr.primName] <;> clean_text

theorem clean_functionName (e : FunctionCode) : NoControl e.name.toList := by
  cases e <;> dsimp only [-String.reduceToList, FunctionCode.name] <;> clean_text

theorem clean_attributeCode (e : AttributeCode) : NoControl e.name.toList := by
  cases e <;> dsimp only [-String.reduceToList, AttributeCode.name] <;> clean_text

theorem clean_tuple {name v : Str} (hn : NoControl name) (hv : NoControl v) : NoControl (Stderr.debugTuple name v) := by
  unfold Stderr.debugTuple
  clean_text

theorem clean_commas {vs : List Str} (h : AllClean vs) : NoControl (Stderr.commas vs) := by
  match vs with
  | [] => exact clean_nil
  | [v] => exact h v List.mem_cons_self
  | v :: w :: vs =>
    have h1 := h v List.mem_cons_self
    have h2 := clean_commas (vs := w :: vs) fun x hx => h x (List.mem_cons_of_mem _ hx)
    show NoControl (v ++ (", ".toList ++ Stderr.commas (w :: vs)))
    clean_text

theorem clean_struct {name : Str} {fs : List (Str × Str)} (hn : NoControl name) (hf : ∀ f ∈ fs, NoControl f.1 ∧ NoControl f.2) :
    NoControl (Stderr.debugStruct name fs) := by
  have h : NoControl (Stderr.commas (fs.map fun f => f.1 ++ (": ".toList ++ f.2))) := by
    apply clean_commas
    intro m hm
    obtain ⟨f, hfm, rfl⟩ := List.mem_map.1 hm
    obtain ⟨h1, h2⟩ := hf f hfm
    clean_text
  unfold Stderr.debugStruct
  clean_text

theorem clean_list {vs : List Str} (h : AllClean vs) : NoControl (Stderr.debugList vs) := by
  have := clean_commas h
  unfold Stderr.debugList
  clean_text

theorem clean_bool (b : Bool) : NoControl (Stderr.debugBool b) := by
  cases b
  · show NoControl "false".toList
    clean_text
  · show NoControl "true".toList
    clean_text

theorem clean_hex (n : Nat) (h : n < 16) : ¬ Control (Print.hexChar n) := by
  have : ∀ n < 16, clean [Print.hexChar n] = true := by decide +kernel
  exact clean_of (this n h) _ List.mem_cons_self

theorem clean_hexDigits (k n : Nat) : NoControl (Print.hexDigits k n) := by
  induction k generalizing n with
  | zero => exact clean_nil
  | succ k ih =>
    unfold Print.hexDigits
    split
    · rename_i h
      intro c hc
      rw [List.mem_singleton.1 hc]
      exact clean_hex n h
    · refine clean_append (ih _) ?_
      intro c hc
      rw [List.mem_singleton.1 hc]
      exact clean_hex _ (Nat.mod_lt _ (by decide))

/-- The characters that `{:?}` leaves as they are, if they are not control characters. -/
def PlainClean (plain : Char → Bool) : Prop := ∀ c, plain c = true → ¬ Control c

theorem clean_escape {plain : Char → Bool} (hp : PlainClean plain) (c : Char) : NoControl (Print.escape plain c) := by
  unfold Print.escape
  split
  · exact clean_of (by decide)
  split
  · exact clean_of (by decide)
  split
  · exact clean_of (by decide)
  split
  · exact clean_of (by decide)
  split
  · exact clean_of (by decide)
  split
  · exact clean_of (by decide)
  split
  · rename_i h
    intro d hd
    rw [List.mem_singleton.1 hd]
    exact hp c h
  · exact clean_append (clean_append (clean_of (by decide)) (clean_hexDigits _ _)) (clean_of (by decide))

theorem clean_quote {plain : Char → Bool} (hp : PlainClean plain) (s : Str) : NoControl (Print.quote plain s) := by
  unfold Print.quote
  refine clean_append (a := '"' :: _) ?_ (clean_of (by decide))
  refine clean_append (a := ['"']) (clean_of (by decide)) ?_
  intro c hc
  obtain ⟨d, _, hd⟩ := List.mem_flatMap.1 hc
  exact clean_escape hp d c hd

theorem clean_name {plain : Char → Bool} (hp : PlainClean plain) (n : Option Str) : NoControl (Stderr.debugName plain n) := by
  cases n with
  | none =>
    show NoControl "None".toList
    clean_text
  | some s => exact clean_tuple (by clean_text) (clean_quote hp s)

theorem clean_space (a : AddressSpace) : NoControl (Stderr.spaceDebug a) := clean_tuple (by clean_text) (clean_decimal _)

theorem clean_spaceError (e : AddressSpaceError) : NoControl (Stderr.spaceErrorDebug e) := by
  cases e
  exact clean_tuple (by clean_text) (clean_decimal _)

theorem clean_pair {a b : Str} (ha : NoControl a) (hb : NoControl b) : NoControl ((a, b) : Str × Str).1 ∧ NoControl ((a, b) : Str × Str).2 := ⟨ha, hb⟩

theorem forall_one {p : Str × Str → Prop} {a : Str × Str} (ha : p a) : ∀ f ∈ [a], p f := by
  intro f hf; rw [List.mem_singleton.1 hf]; exact ha

theorem forall_more {p : Str × Str → Prop} {a : Str × Str} {l : List (Str × Str)} (ha : p a) (hl : ∀ f ∈ l, p f) : ∀ f ∈ a :: l, p f := by
  intro f hf
  rcases List.mem_cons.1 hf with rfl | hf
  · exact ha
  · exact hl f hf

mutual
theorem clean_type {plain : Char → Bool} (hp : PlainClean plain) : ∀ t : Ty, NoControl (Stderr.typeDebug plain t)
  | .prim p => clean_primName p
  | .integer w => clean_tuple (by clean_text) (clean_struct (by clean_text) (forall_one (clean_pair (by clean_text) (clean_decimal _))))
  | .function r ps v => clean_tuple (by clean_text) (clean_struct (by clean_text)
      (forall_more (clean_pair (by clean_text) (clean_type hp r)) (forall_more (clean_pair (by clean_text) (clean_list (clean_types hp ps)))
        (forall_one (clean_pair (by clean_text) (clean_bool v))))))
  | .pointer t a => clean_tuple (by clean_text) (clean_struct (by clean_text)
      (forall_more (clean_pair (by clean_text) (clean_type hp t)) (forall_one (clean_pair (by clean_text) (clean_space a)))))
  | .opaquePointer a => clean_tuple (by clean_text) (clean_space a)
  | .struct n fs p => clean_tuple (by clean_text) (clean_struct (by clean_text)
      (forall_more (clean_pair (by clean_text) (clean_name hp n)) (forall_more (clean_pair (by clean_text) (clean_list (clean_types hp fs)))
        (forall_one (clean_pair (by clean_text) (clean_bool p))))))
  | .array n t => clean_tuple (by clean_text) (clean_struct (by clean_text)
      (forall_more (clean_pair (by clean_text) (clean_decimal _)) (forall_one (clean_pair (by clean_text) (clean_type hp t)))))
  | .fixedVector n t => clean_tuple (by clean_text) (clean_struct (by clean_text)
      (forall_more (clean_pair (by clean_text) (clean_decimal _)) (forall_one (clean_pair (by clean_text) (clean_type hp t)))))
  | .scalableVector n t => clean_tuple (by clean_text) (clean_struct (by clean_text)
      (forall_more (clean_pair (by clean_text) (clean_decimal _)) (forall_one (clean_pair (by clean_text) (clean_type hp t)))))
theorem clean_types {plain : Char → Bool} (hp : PlainClean plain) : ∀ ts : List Ty, AllClean (Stderr.typesDebug plain ts)
  | [] => allClean_nil
  | t :: ts => allClean_cons (clean_type hp t) (clean_types hp ts)
end

theorem clean_block (b : BlockId) : NoControl (Stderr.blockDebug b) := by
  cases b with
  | reserved r => exact clean_tuple (by clean_text) (clean_reservedName r)
  | ir i => exact clean_tuple (by clean_text) (clean_irName i)
  | unknown v => exact clean_tuple (by clean_text) (clean_decimal _)

theorem clean_noDiscriminant (name : String) (v : U64) (h : NoControl name.toList) : NoControl (Stderr.noDiscriminant name v) := by
  unfold Stderr.noDiscriminant
  clean_text

/-! ## The bitstream -/

theorem clean_container (e : ContainerMsg) : NoControl (Stderr.containerText e) := by
  have := clean_cursorName
  cases e <;> dsimp only [-String.reduceToList, Stderr.containerText] <;> clean_text
  exact this _

theorem clean_stream (e : StreamMsg) : NoControl (Stderr.streamText e) := by
  have := clean_ioDebug
  cases e <;> dsimp only [-String.reduceToList, Stderr.streamText] <;> clean_text
  exact this _

theorem clean_abbrev (e : AbbrevMsg) : NoControl (Stderr.abbrevText e) := by
  have := clean_encodingName
  cases e <;> dsimp only [-String.reduceToList, Stderr.abbrevText] <;> clean_text
  exact this _

theorem clean_scope (e : ScopeMsg) : NoControl (Stderr.scopeText e) := by
  cases e <;> dsimp only [-String.reduceToList, Stderr.scopeText] <;> clean_text


/-- Lists of texts made of literals, numbers and what is known. -/
macro "clean_with" "[" ts:term,* "]" : tactic => `(tactic| repeat first
  | (with_reducible exact allClean_nil)
  | (with_reducible refine allClean_cons ?_ ?_)
  | (with_reducible apply clean_append)
  | (with_reducible assumption)
  | (with_reducible exact clean_decimal _)
  $[| (with_reducible exact $ts)]*
  | (with_reducible refine clean_literal ?_); decide +kernel)

theorem clean_bitstream (e : BErr) : AllClean (Stderr.bitstreamCauses e) := by
  cases e <;> dsimp only [-String.reduceToList, Stderr.bitstreamCauses] <;>
    clean_with [clean_cursorText _, clean_container _, clean_stream _, clean_abbrev _, clean_scope _,
      clean_noDiscriminant _ _ (by clean_text)]

/-! ## Records -/

theorem clean_intText : NoControl Stderr.intText := by
  unfold Stderr.intText
  clean_text

theorem clean_stringText {utf8 : Str} (hu : NoControl utf8) (e : RecordStringError) : NoControl (Stderr.stringText utf8 e) := by
  cases e <;> dsimp only [-String.reduceToList, Stderr.stringText, RecordStringError.text, Option.getD] <;> clean_text

theorem clean_string {utf8 : Str} (hu : NoControl utf8) (e : RecordStringError) : AllClean (Stderr.stringCauses utf8 e) := by
  refine allClean_cons (clean_stringText hu e) ?_
  cases e <;> clean_with [clean_intText]

theorem clean_blobText (e : RecordBlobError) : NoControl e.text := by
  cases e <;> dsimp only [-String.reduceToList, RecordBlobError.text] <;> clean_text

theorem clean_blob (e : RecordBlobError) : AllClean (Stderr.blobCauses e) := by
  refine allClean_cons (clean_blobText e) ?_
  cases e <;> clean_with [clean_intText]

theorem clean_alignError (e : AlignError) : NoControl e.text := by
  cases e <;> dsimp only [-String.reduceToList, AlignError.text] <;> clean_text

theorem clean_widthError (e : AlignedTypeWidthError) : NoControl e.text := by
  cases e <;> dsimp only [-String.reduceToList, AlignedTypeWidthError.text] <;> clean_text

theorem clean_spaceErrorText (e : AddressSpaceError) : NoControl e.text := by
  cases e <;> dsimp only [-String.reduceToList, AddressSpaceError.text] <;> clean_text

theorem clean_intError (e : IntErr) : NoControl e.text := by
  cases e <;> dsimp only [-String.reduceToList, IntErr.text] <;> clean_text

theorem clean_strtabText {utf8 : Str} (hu : NoControl utf8) (e : StrtabError) : NoControl (Stderr.strtabText utf8 e) := by
  cases e <;> dsimp only [-String.reduceToList, Stderr.strtabText] <;> clean_with [clean_blobText _]

theorem clean_strtab {utf8 : Str} (hu : NoControl utf8) (e : StrtabError) : AllClean (Stderr.strtabCauses utf8 e) := by
  refine allClean_cons (clean_strtabText hu e) ?_
  cases e <;> clean_with [clean_blob _]

theorem clean_consistency (e : ConsistencyError) : NoControl (Stderr.consistencyText e) := by
  cases e <;> dsimp only [-String.reduceToList, Stderr.consistencyText] <;> clean_with [clean_block _]

theorem clean_context (e : MapCtxError) : NoControl (Stderr.contextText e) := by
  cases e <;> dsimp only [-String.reduceToList, Stderr.contextText] <;> clean_text

theorem clean_invalid (e : InvalidMsg) : NoControl (Stderr.invalidText e) := by
  cases e <;> dsimp only [-String.reduceToList, Stderr.invalidText] <;> clean_with [clean_spaceError _]

theorem clean_map {utf8 : Str} (hu : NoControl utf8) (e : MapError) : AllClean (Stderr.mapCauses utf8 e) := by
  cases e <;> dsimp only [-String.reduceToList, Stderr.mapCauses] <;>
    clean_with [clean_consistency _, clean_invalid _, clean_context _, clean_string hu _, clean_stringText hu _]

theorem clean_comdat {utf8 : Str} (hu : NoControl utf8) (e : ComdatError) : AllClean (Stderr.comdatCauses utf8 e) := by
  cases e <;> dsimp only [-String.reduceToList, Stderr.comdatCauses, ComdatError.text, Option.getD] <;>
    clean_with [clean_strtab hu _, clean_strtabText hu _, clean_map hu _, clean_noDiscriminant _ _ (by clean_text)]

theorem clean_function {utf8 : Str} (hu : NoControl utf8) (e : FunctionRecordError) : AllClean (Stderr.functionCauses utf8 e) := by
  cases e <;> dsimp only [-String.reduceToList, Stderr.functionCauses, FunctionRecordError.text] <;>
    clean_with [clean_strtab hu _, clean_alignError _, clean_noDiscriminant _ _ (by clean_text)]

theorem clean_alias {utf8 : Str} (hu : NoControl utf8) (e : AliasError) : AllClean (Stderr.aliasCauses utf8 e) := by
  cases e <;> dsimp only [-String.reduceToList, Stderr.aliasCauses, AliasError.text] <;>
    clean_with [clean_strtab hu _, clean_noDiscriminant _ _ (by clean_text)]

/-! ## Blocks -/

theorem clean_identification (e : IdentificationError) : NoControl (Stderr.identificationText e) := by
  cases e <;> dsimp only [-String.reduceToList, Stderr.identificationText] <;> clean_text

theorem clean_symtab (e : SymtabError) : AllClean (Stderr.symtabCauses e) := by
  cases e <;> dsimp only [-String.reduceToList, Stderr.symtabCauses] <;> clean_with [clean_blob _, clean_blobText _]

theorem clean_typeError {plain : Char → Bool} (hp : PlainClean plain) (e : Ty.Error) : NoControl (Stderr.typeErrorText plain e) := by
  cases e <;> dsimp only [-String.reduceToList, Stderr.typeErrorText] <;> clean_with [clean_type hp _]

theorem clean_invalidType (e : Ty.Error) : NoControl (Stderr.invalidTypeText e) := by
  cases e <;> dsimp only [-String.reduceToList, Stderr.invalidTypeText] <;> clean_text

theorem clean_table {plain : Char → Bool} {utf8 : Str} (hp : PlainClean plain) (hu : NoControl utf8) (e : TypeTableError) :
    AllClean (Stderr.tableCauses plain utf8 e) := by
  cases e <;> dsimp only [-String.reduceToList, Stderr.tableCauses] <;>
    clean_with [clean_map hu _, clean_typeError hp _, clean_invalidType _, clean_noDiscriminant _ _ (by clean_text)]

theorem clean_malformed (e : MalformedMsg) : NoControl (Stderr.malformedText e) := by
  cases e <;> dsimp only [-String.reduceToList, Stderr.malformedText] <;> clean_text

theorem clean_attribute (e : AttributeError) : AllClean (Stderr.attributeCauses e) := by
  cases e <;> dsimp only [-String.reduceToList, Stderr.attributeCauses, Stderr.attributeText, AttributeError.text, Option.getD] <;>
    clean_with [clean_malformed _, clean_attributeName _, clean_attributeCode _, clean_noDiscriminant _ _ (by clean_text)]

theorem clean_unary (e : UnaryOpError) : AllClean (Stderr.unaryCauses e) := by
  cases e <;> dsimp only [-String.reduceToList, Stderr.unaryCauses] <;> clean_with [clean_noDiscriminant _ _ (by clean_text)]

theorem clean_binary {plain : Char → Bool} (hp : PlainClean plain) (e : BinaryOpError) : AllClean (Stderr.binaryCauses plain e) := by
  cases e <;> dsimp only [-String.reduceToList, Stderr.binaryCauses] <;>
    clean_with [clean_type hp _, clean_noDiscriminant _ _ (by clean_text)]

theorem clean_inst (c : FunctionCode) (m : InstMsg) : NoControl (m.text c) := by
  cases m <;> dsimp only [-String.reduceToList, InstMsg.text] <;> clean_with [clean_functionName _]

theorem clean_body {plain : Char → Bool} {utf8 : Str} (hp : PlainClean plain) (hu : NoControl utf8) (e : FunctionBlockError) :
    AllClean (Stderr.bodyCauses plain utf8 e) := by
  cases e <;> dsimp only [-String.reduceToList, Stderr.bodyCauses, FunctionBlockError.text] <;>
    clean_with [clean_inst _ _, clean_unary _, clean_binary hp _, clean_map hu _, clean_noDiscriminant _ _ (by clean_text)]

theorem clean_unroll (m : UnrollMsg) : NoControl (Stderr.unrollText m) := by
  cases m <;> dsimp only [-String.reduceToList, Stderr.unrollText] <;> clean_with [clean_block _]

/-- All errors but those of datalayouts. -/
theorem clean_module {plain : Char → Bool} {utf8 : Str} (hp : PlainClean plain) (hu : NoControl utf8) (e : ModuleError)
    (he : ∀ d, e ≠ .dataLayoutRecord d) : AllClean (Stderr.moduleCauses plain utf8 e) := by
  cases e with
  | dataLayoutRecord d => exact absurd rfl (he d)
  | _ =>
    dsimp only [-String.reduceToList, Stderr.moduleCauses]
    clean_with [clean_table hp hu _, clean_attribute _, clean_comdat hu _, clean_function hu _, clean_body hp hu _, clean_alias hu _,
      clean_map hu _]

theorem clean_blockMap {plain : Char → Bool} {utf8 : Str} (hp : PlainClean plain) (hu : NoControl utf8) (e : BlockMapError)
    (he : ∀ d, e ≠ .module (.dataLayoutRecord d)) : AllClean (Stderr.blockCauses plain utf8 e) := by
  cases e with
  | «module» e =>
    exact allClean_cons (by clean_text) (clean_module hp hu e fun d h => he d (congrArg _ h))
  | _ =>
    dsimp only [-String.reduceToList, Stderr.blockCauses]
    clean_with [clean_identification _, clean_strtab hu _, clean_symtab _]

theorem clean_failure {plain : Char → Bool} {utf8 : Str} (hp : PlainClean plain) (hu : NoControl utf8) (e : Stderr.Failure)
    (he : ∀ d, e ≠ .mapping (.map (.module (.dataLayoutRecord d)))) : AllClean (e.causes plain utf8) := by
  cases e with
  | opening e => exact clean_bitstream e
  | mapping e =>
    cases e with
    | parse e => exact allClean_cons (by clean_text) (clean_bitstream e)
    | unroll m =>
      have := clean_unroll m
      exact allClean_cons (by clean_text) allClean_nil
    | map e => exact allClean_cons (by clean_text) (clean_blockMap hp hu e fun d h => he d (by rw [h]))

end Verif.Props
