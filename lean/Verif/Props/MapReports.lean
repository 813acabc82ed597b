import Verif.Mapper.MapReportSpec
import Verif.Props.Reports
import Verif.Props.TypeRange
import Verif.Props.Written
import Verif.Props.StopCases

/-!
# C74: what mapping a file can report

A list of all errors and panics that mapping a file can end in: there are no others, and each of them happens.
-/

namespace Verif
open Spec

/-! ## Checks that find nothing else -/

/-- A check finds the given errors and stops only. -/
def Only {ε : Type} (c : Check ε) (E : ε → Prop) (S : Stop → Prop) : Prop := (∀ e, c (.error e) → E e) ∧ ∀ s, c (.stop s) → S s

section
variable {ε δ α : Type} {E : ε → Prop} {S : Stop → Prop}

theorem Only.first {cs : List (Check ε)} (h : ∀ c ∈ cs, Only c E S) : Only (First cs) E S := by
  have key : ∀ {cs : List (Check ε)} {b : Bad ε}, First cs b → ∃ c ∈ cs, c b := by
    intro cs b h
    induction h with
    | here h => exact ⟨_, by simp, h⟩
    | later _ _ ih => obtain ⟨c, hc, h⟩ := ih; exact ⟨c, by simp [hc], h⟩
  refine ⟨fun e he => ?_, fun s hs => ?_⟩
  · obtain ⟨c, hc, h'⟩ := key he; exact (h c hc).1 e h'
  · obtain ⟨c, hc, h'⟩ := key hs; exact (h c hc).2 s h'

theorem only_nil : ∀ c ∈ ([] : List (Check ε)), Only c E S := by simp

theorem only_cons {c : Check ε} {cs : List (Check ε)} (h : Only c E S) (hs : ∀ x ∈ cs, Only x E S) :
    ∀ x ∈ c :: cs, Only x E S := by
  intro x hx
  rcases List.mem_cons.1 hx with rfl | hx
  · exact h
  · exact hs x hx

theorem Only.all {c : α → Check ε} {l : List α} (h : ∀ a ∈ l, Only (c a) E S) : Only (All c l) E S :=
  .first fun x hx => by obtain ⟨a, ha, rfl⟩ := List.mem_map.1 hx; exact h a ha

theorem Only.under {D : δ → Prop} {c : Check δ} {g : δ → ε} (h : Only c D S) (hg : ∀ e, D e → E (g e)) : Only (under g c) E S := by
  refine ⟨?_, ?_⟩
  · rintro e ⟨x, hx, he⟩
    cases x with
    | error d => cases he; exact hg d (h.1 d hx)
    | stop s => cases he
  · rintro s ⟨x, hx, he⟩
    cases x with
    | error d => cases he
    | stop s' => cases he; exact h.2 _ hx

theorem only_fails {p : Prop} {e : ε} (h : p → E e) : Only (fails p e) E S :=
  ⟨fun _ ⟨hp, he⟩ => by cases he; exact h hp, fun _ ⟨_, he⟩ => by cases he⟩

theorem only_halts {p : Prop} {s : Stop} (h : p → S s) : Only (halts p s : Check ε) E S :=
  ⟨fun _ ⟨_, he⟩ => (by cases he), fun _ ⟨hp, he⟩ => by cases he; exact h hp⟩

theorem only_ex {c : α → Check ε} {p : α → Prop} (h : ∀ a, p a → Only (c a) E S) : Only (fun b => ∃ a, p a ∧ c a b) E S :=
  ⟨fun e ⟨a, ha, hc⟩ => (h a ha).1 e hc, fun s ⟨a, ha, hc⟩ => (h a ha).2 s hc⟩

end

/-! ## No others -/

theorem emptyText_stops {pf : Profile} {r : BRecord} {s : Stop} (h : EmptyText pf r s) : FileStops pf s := by
  obtain ⟨h, -, rfl⟩ := h
  exact .text h

theorem text_only (pf : Profile) (r : BRecord) : Only (TextBad pf r) TextError (FileStops pf) := by
  refine ⟨fun e h => ?_, fun s h => emptyText_stops h⟩
  cases e with
  | badIndex i n => obtain ⟨rfl, rfl, -⟩ := h; exact .one
  | badCharacter => exact .character
  | badEncoding => exact .encoding

theorem blob_only (pf : Profile) (r : BRecord) : Only (BlobBad pf r) ContentError (FileStops pf) := by
  refine ⟨fun e h => ?_, fun s h => emptyText_stops h⟩
  cases e with
  | badIndex i n => obtain ⟨rfl, rfl, -⟩ := h; exact .one
  | badByte => exact .byte

/-- Room for everything. -/
abbrev noLimit : Nat → Prop := fun _ => True

theorem layout_only (pf : Profile) (r : BRecord) : Only (LayoutBad pf r) (LayoutError noLimit) (FileStops pf) := by
  refine .first (only_cons ((text_only pf r).under fun e h => .text h) (only_cons ⟨?_, ?_⟩ only_nil))
  · rintro e ⟨s, e', ⟨hb, h1, -⟩, h, he⟩
    cases he
    by_cases h2 : 2 ≤ (utf8 s).length
    · exact .spec h2 trivial h
    · have hl : (utf8 s).length = 0 := by
        unfold AreBytes at hb
        rw [hb, List.length_map] at h1
        omega
      have hs : s = [] := Classical.not_not.1 fun h => utf8_ne_nil h (List.length_eq_zero_iff.1 hl)
      subst hs
      rw [← Props.C59_rejects] at h
      have he : e = .emptySpec := by
        have h0 : DataLayout.fromStr [] = .err .emptySpec := by decide +kernel
        rw [h0] at h
        cases h; rfl
      subst he
      refine .spec (s := ['e', '-']) (by decide) trivial ?_
      rw [← Props.C59_rejects]
      decide +kernel
  · rintro s ⟨_, _, _, _, he⟩
    cases he

/-- References have 64 bits. -/
def RefsOk (d : TyDecl) : Prop := ∀ j ∈ d.refs, j < 2 ^ 64

theorem adds_refs {r : BRecord} {d : TyDecl} (h : Adds r d) : RefsOk d := by
  have all : ∀ l : List U64, ∀ j ∈ l.map (·.toNat), j < 2 ^ 64 := by
    intro l j hj
    obtain ⟨x, -, rfl⟩ := List.mem_map.1 hj
    exact x.isLt
  cases h with
  | wide => intro j hj; simp [TyDecl.refs] at hj
  | says h =>
    intro j hj
    cases h with
    | function => rcases List.mem_cons.1 hj with rfl | hj
                  · exact BitVec.isLt _
                  · exact all _ j hj
    | structAnon => exact all _ j hj
    | _ => simp only [TyDecl.refs, List.mem_cons, List.not_mem_nil, or_false] at hj
           try first | exact hj.elim | (subst hj; exact BitVec.isLt _)

theorem builds_refs {pf : Profile} {ds out : List TyDecl} {nm nm' : Str} {rs : List BRecord} (h : Builds pf ds nm rs out nm')
    (hds : ∀ d ∈ ds, RefsOk d) : ∀ d ∈ out, RefsOk d := by
  have snoc : ∀ {ds : List TyDecl} {d : TyDecl}, (∀ d ∈ ds, RefsOk d) → RefsOk d → ∀ x ∈ ds ++ [d], RefsOk x := by
    intro ds d h hd x hx
    rcases List.mem_append.1 hx with hx | hx
    · exact h x hx
    · rw [List.mem_singleton.1 hx]
      exact hd
  have all : ∀ (l : List U64) (nm : Option Str) (p : Bool), RefsOk (.struct nm (l.map (·.toNat)) p) := by
    intro l _ _ j hj
    obtain ⟨x, -, rfl⟩ := List.mem_map.1 hj
    exact x.isLt
  induction h with
  | nil => exact hds
  | count _ _ ih => exact ih hds
  | single h _ ih => exact ih (snoc hds (adds_refs h))
  | name h1 h2 _ ih => exact ih hds
  | named _ _ _ _ ih => exact ih (snoc hds (all _ _ _))
  | namedOver _ _ _ ih => exact ih (snoc (fun d hd => hds d (by simp [hd])) (all _ _ _))
  | opaqueStruct _ _ _ _ ih => exact ih (snoc hds (fun j hj => by simp [TyDecl.refs] at hj))
  | opaqueOver _ _ _ ih =>
    exact ih (snoc (fun d hd => hds d (by simp [hd])) (fun j hj => hds _ (List.mem_append.2 (.inr (List.mem_singleton.2 rfl))) j hj))

theorem valid_component {t u : Ty} (h : Valid t) (hu : u ∈ components t) : Valid u := by
  cases h with
  | prim | integer | opaquePointer => simp [components] at hu
  | function hr _ hp _ =>
    rcases List.mem_cons.1 hu with rfl | hu
    · exact hr
    · exact hp _ hu
  | struct hf _ => exact hf _ hu
  | pointer h _ | array h _ | fixedVector h _ | scalableVector h _ => rw [List.mem_singleton.1 hu]; exact h

/-- Every type that an entry stands for is in some table, even if not all entries are fine. -/
theorem denotes_canBe {ds : List TyDecl} (hds : ∀ d ∈ ds, DeclOk d) (hfew : ds.length * 56 < 2 ^ 63) {i : Nat} {t : Ty}
    (h : Denotes ds i t) (hv : Valid t) : TypeCanBe noLimit t := by
  classical
  let f : Nat → Option Ty := fun k => if h : Sound ds k then some h.choose else none
  have hf : ∀ k u, f k = some u → Denotes ds k u ∧ Valid u := by
    intro k u hu
    by_cases hk : Sound ds k
    · simp only [f, dif_pos hk, Option.some.injEq] at hu
      rw [← hu]
      exact hk.choose_spec
    · simp only [f, dif_neg hk] at hu
      cases hu
  let ts := (List.range ds.length).filterMap f
  have hmem : ∀ k u, Denotes ds k u → Valid u → u ∈ ts := by
    intro k u hu hv
    have hk : Sound ds k := ⟨u, hu, hv⟩
    obtain ⟨d, hd⟩ := hu.entry
    refine List.mem_filterMap.2 ⟨k, List.mem_range.2 (List.getElem?_eq_some_iff.1 hd).1, ?_⟩
    simp only [f, dif_pos hk]
    exact congrArg some (hk.choose_spec.1.unique hu)
  have each : ∀ u ∈ ts, ∃ k, Denotes ds k u ∧ Valid u := by
    intro u hu
    obtain ⟨k, -, hk⟩ := List.mem_filterMap.1 hu
    exact ⟨k, hf k u hk⟩
  refine ⟨ts, ⟨?_, fun u hu => ?_, fun u hu w hw => ?_, fun u hu => ?_, fun u hu => ?_⟩, hmem i t h hv, trivial⟩
  · have : ts.length ≤ ds.length := by
      have := List.length_filterMap_le f (List.range ds.length)
      simpa [ts] using this
    omega
  · exact (each u hu).choose_spec.2
  · obtain ⟨k, hd, hv⟩ := each u hu
    obtain ⟨d, hk⟩ := hd.entry
    obtain ⟨j, -, hj⟩ := (hd.partsOf hk).mem hw
    exact hmem j w hj (valid_component hv hw)
  · obtain ⟨k, hd, -⟩ := each u hu
    exact (denotes_ok hds hd).1
  · obtain ⟨k, hd, -⟩ := each u hu
    exact (denotes_ok hds hd).2

theorem rejected_listed {ds : List TyDecl} (hds : ∀ d ∈ ds, DeclOk d) (hrefs : ∀ d ∈ ds, RefsOk d) (hfew : ds.length * 56 < 2 ^ 63)
    {i : Nat} {e : TypeTableError} (h : Rejected ds i e) (hi : i < 2 ^ 64) (hne : ds ≠ []) : TableError noLimit e := by
  induction h with
  | index h =>
    have := List.length_pos_iff.2 hne
    exact .index _ (by omega) hi
  | within hd hr _ _ ih => exact ih (hrefs _ (List.mem_of_getElem? hd) _ (by rw [hr]; simp))
  | entry hd hs h =>
    have can : ∀ {k : Nat} {t : Ty}, Denotes ds k t → Sound ds k → TypeCanBe noLimit t := by
      rintro k t h ⟨t', ht', hv⟩
      rw [h.unique ht']
      exact denotes_canBe hds hfew ht' hv
    cases h with
    | width => exact .width
    | returns h hn => exact .returns (can h (hs _ (by simp [TyDecl.refs]))) hn
    | parameter _ _ _ h hn => exact .parameter (can h (hs _ (by simp [TyDecl.refs]))) hn
    | pointee h hn => exact .pointee (can h (hs _ (by simp [TyDecl.refs]))) hn
    | member _ h hn => exact .member (can h (hs _ (by simp [TyDecl.refs]))) hn
    | element h hn => exact .element (can h (hs _ (by simp [TyDecl.refs]))) hn
    | lane h hn => exact .lane (can h (hs _ (by simp [TyDecl.refs]))) hn

theorem types_only (pf : Profile) (rs : List BRecord) : Only (TypesBad pf rs) (TableError noLimit) (FileStops pf) := by
  refine ⟨fun e h => ?_, fun s h => ?_⟩
  · cases h with
    | noCount => exact .short
    | record _ _ _ _ h =>
      cases h with
      | code h =>
        refine .code _ (h.imp (fun h => BitVec.eq_of_toNat_eq h) id)
      | short => exact .short
      | oldFunction => exact .oldFunction
      | pointerSpace _ _ h => exact .pointerSpace _ h
      | typeSpace _ _ h => exact .typeSpace _ h
      | unnamed => exact .unnamed
      | namedAfter => exact .namedTwice
      | opaqueAfter => exact .opaqueTwice
      | name _ h => exact .name ((text_only pf _).1 _ h)
    | count _ hc _ hn => exact .count _ _ (Ne.symm hn) hc trivial
    | entry hd hi _ h =>
      obtain ⟨n, nm, -, hc, hb, hl⟩ := hd
      refine rejected_listed (builds_ok hb (by decide) (by simp)) (builds_refs hb (by simp)) (by omega) h (by omega) ?_
      rintro rfl
      cases hi
  · cases h with
    | capacity => exact .capacity
    | name _ _ _ _ _ h => exact emptyText_stops h
    | circle => exact .hang

theorem group_only (pf : Profile) (r : BRecord) : Only (GroupBad r) (AttributesError noLimit) (FileStops pf) := by
  refine ⟨fun e h => ?_, fun s ⟨_, h⟩ => h ▸ .key⟩
  cases h with
  | code h => exact .code _ h
  | old => exact .wrongBlock _
  | list => exact .wrongBlock _
  | empty _ h => exact .short _ h
  | «attribute» _ _ _ h =>
    cases h with
    | kind h => exact .kind _ h
    | cutNumber => exact .cut
    | cutValue => exact .cut
    | number _ h => exact .number _ h
    | needsValue h h' => exact .noValue _ _ h h'
    | badValue h h' => exact .badValue _ _ _ _ h (BitVec.isLt _) h'
    | unsupported h h1 h2 => exact .unsupported _ _ h h1 h2
    | badKey => exact .text
    | badString => exact .text
  | cut _ _ h hc =>
    refine .size _ ?_ trivial
    have hpos : ∀ {s : Str}, CString s → 1 ≤ (strFields s).length := fun {s} hs => by
      have := List.length_pos_iff.2 (utf8_ne_nil hs.1)
      rw [strFields, List.length_map]; exact this
    rw [h]
    cases hc with
    | str hs => have := hpos hs; simp; omega
    | strKeyValue hk hv => have := hpos hk; simp; omega

theorem list_only (pf : Profile) (g : AttributeGroups) (r : BRecord) :
    Only (ListBad g r) (AttributesError noLimit) (FileStops pf) :=
  .first <| only_cons (only_fails fun h => .code _ h) <| only_cons (only_halts fun _ => .unimplemented) <|
    only_cons (only_fails fun _ => .wrongBlock _) <| only_cons (.all fun _ _ => only_fails fun _ => .group _) only_nil

theorem name_only (pf : Profile) (bytes : List U8) (fs : List U64) : Only (NameBad pf bytes fs) NameError (FileStops pf) :=
  .first <| only_cons (only_fails fun _ => .range) <| only_cons (only_halts fun _ => .name) <|
    only_cons (only_fails fun _ => .range) <| only_cons (only_fails fun _ => .text) only_nil

theorem comdat_only (pf : Profile) (version : U64) (bytes : List U8) (fs : List U64) :
    Only (ComdatBad pf version bytes fs) (ComdatsError noLimit) (FileStops pf) :=
  .first <| only_cons (only_fails fun _ => .version) <| only_cons (only_fails fun h => .length _ h trivial) <|
    only_cons ((name_only pf bytes fs).under fun _ h => .name h) <| only_cons (only_fails fun h => .kind _ h) only_nil

theorem function_only (pf : Profile) (ctx : MapCtx) (fs : List U64) : Only (FunctionBad pf ctx fs) FunctionsError (FileStops pf) := by
  have hlt : ∀ i, field fs i < 2 ^ 64 := fun i => BitVec.isLt _
  have halign : ((value fs 7).setWidth 8 - 1 : U8).toNat = (field fs 7 % 256 + 255) % 256 := by
    rw [BitVec.toNat_sub, BitVec.toNat_setWidth]
    show (2 ^ 8 - 1 + field fs 7 % 2 ^ 8) % 2 ^ 8 = _
    congr 1
    omega
  refine .first <| only_cons (only_fails fun _ => .version) <| only_cons (only_fails fun h => .length _ h) <|
    only_cons ((name_only pf _ fs).under fun _ h => .name h) <| only_cons (only_fails fun h => .typeId _) <|
    only_cons (only_fails fun h => .type) <| only_cons (only_fails fun h => .callingConvention _ h) <|
    only_cons (only_fails fun h => .attribute _ ?_) <| only_cons (only_fails fun h => .alignment _ ?_ ?_) <|
    only_cons (only_fails fun h => .section _ ?_) <| only_cons (only_fails fun h => .visibility _ h) <|
    only_cons (only_fails fun h => .gc _ ?_) <| only_cons (only_fails fun h => .storageClass _ h) only_nil
  · rintro h0
    have : field fs 6 = 0 := by unfold field; unfold value at h0; rw [h0]; rfl
    omega
  · rw [halign]; omega
  · rw [halign]; omega
  · have := hlt 8; omega
  · have := hlt 10; omega

theorem alias_only (pf : Profile) (ctx : MapCtx) (fs : List U64) : Only (AliasBad pf ctx fs) AliasesError (FileStops pf) :=
  .first <| only_cons (only_fails fun _ => .version) <| only_cons (only_fails fun h => .length _ h) <|
    only_cons ((name_only pf _ fs).under fun _ h => .name h) <| only_cons (only_fails fun _ => .type _) <|
    only_cons (only_fails fun h => .visibility _ h) <| only_cons (only_fails fun h => .storageClass _ h) only_nil

theorem body_only (pf : Profile) {types : List Ty} (ht : TypesCanBe types) (rs : List BRecord) :
    Only (BodyBad types rs) (BodiesError noLimit) (FileStops pf) := by
  refine .first <| only_cons (E := BodiesError noLimit) (.under (.first <| only_cons (E := fun e => BodiesError noLimit (.map (.inconsistent e)))
      (only_fails fun _ => .noCount) <| only_cons (only_fails fun _ => .counts) only_nil) fun e h => h) <|
    only_cons (.all fun r _ => only_fails fun _ => .emptyCount) <|
    only_cons (.all fun r _ => only_halts fun _ => .capacity) <|
    only_cons (.all fun r _ => .first ?_) <| only_cons (only_halts fun _ => .unimplemented) only_nil
  have naming : ∀ {p : FunctionCode → Prop} {m : FunctionCode → InstMsg},
      (∀ c, (r.code.toNat, c) ∈ functionCodeTable → p c → BodiesError noLimit (.badInst c (m c))) →
      Only (Naming r.code fun c => fails (p c) (.badInst c (m c))) (BodiesError noLimit) (FileStops pf) :=
    fun h => only_ex fun c hc => only_fails fun hp => h c hc hp
  refine only_cons (only_fails fun h => .code _ h) <| only_cons (only_halts fun _ => .unimplemented) <|
    only_cons (naming fun c hc h => .fields _ c _ hc h.1 h.2 trivial) <|
    only_cons (naming fun c hc h => .unaryFields c _ (by rw [h.1] at hc; exact hc) h.2 trivial) <|
    only_cons (naming fun c hc h => .type _ c _ hc h.1) <|
    only_cons (only_fails fun h => .unary _ fun h0 => h.2 ?_) <|
    only_cons (only_fails fun h => .binary _ h.2) <| only_cons ⟨?_, ?_⟩ only_nil
  · unfold field; unfold value at h0; rw [h0]; rfl
  · rintro e ⟨-, ty, hty, he⟩
    cases he
    exact .operand ⟨types, ht, List.mem_of_getElem? hty, trivial⟩
  · rintro s ⟨-, ty, -, he⟩
    cases he

theorem module_only (pf : Profile) (strtab : Strtab) (t : Forest) :
    Only (ModuleBad pf strtab t) (ModulesError noLimit) (FileStops pf) := by
  have more : ∀ code : U64, code.toNat ∈ [1, 2, 3, 4] →
      Only (under (fun e => .map (.inconsistent e)) (AtMostOneRecord t.records code)) (ModulesError noLimit) (FileStops pf) :=
    fun code h => .under (only_fails fun _ => rfl) (D := (· = .tooManyRecords code)) fun e he => by subst he; exact .records code h
  have blocks : ∀ id : U64, id.toNat ∈ [9, 10, 14, 17] →
      Only (under (fun e => .map (.inconsistent e)) (AtMostOneBlock t id)) (ModulesError noLimit) (FileStops pf) :=
    fun id h => .under (only_fails fun _ => rfl) (D := (· = .tooManyBlocks (.ofU64 id))) fun e he => by subst he; exact .blocks id h
  have one : ∀ id : U64, id.toNat ∈ [9, 10, 14, 17] → ModulesError noLimit (.map (.inconsistent (.missingBlock (.ofU64 id)))) →
      Only (under (fun e => .map (.inconsistent e)) (OneBlock t id)) (ModulesError noLimit) (FileStops pf) :=
    fun id h h' => .under (D := fun e => ModulesError noLimit (.map (.inconsistent e)))
      (.first (only_cons (only_fails fun _ => h') (only_cons (only_fails fun _ => .blocks id h) only_nil))) fun _ h => h
  have text : ∀ code, Only (All (fun r => under (fun e => .map (.recordString e)) (TextBad pf r)) (withCode t.records code))
      (ModulesError noLimit) (FileStops pf) :=
    fun code => .all fun r _ => (text_only pf r).under fun _ h => .text h
  refine .first <| only_cons ?_ <| only_cons (.all fun r _ => only_fails fun _ => .emptyVersion) <|
    only_cons (more 3 (by decide)) <| only_cons (.all fun r _ => (layout_only pf r).under fun _ h => .layout h) <|
    only_cons (text 5) <| only_cons (text 11) <| only_cons (one 17 (by decide) .noTypes) <|
    only_cons (.all fun c _ => (types_only pf _).under fun _ h => .types h) <| only_cons (one 14 (by decide) .noSymbols) <|
    only_cons (blocks 10 (by decide)) <|
    only_cons (.all fun c _ => .under (.all fun r _ => group_only pf r) fun _ h => .attributes h) <|
    only_cons (blocks 9 (by decide)) <|
    only_cons (only_ex fun g _ => .all fun c _ => .under (.all fun r _ => list_only pf g r) fun _ h => .attributes h) <|
    only_cons ⟨?_, ?_⟩ <| only_cons (more 2 (by decide)) <| only_cons (text 2) <| only_cons (more 4 (by decide)) <|
    only_cons (text 4) <| only_cons (text 6) <|
    only_cons (only_ex fun ctx _ => .all fun r _ => (function_only pf ctx _).under fun _ h => .function h) <|
    only_cons (only_ex fun ctx hctx => .all fun c _ => (body_only pf ?_ _).under fun _ h => .body h) <|
    only_cons (only_ex fun ctx _ => .all fun r _ => (alias_only pf ctx _).under fun _ h => .alias h) only_nil
  · exact .under (D := fun e => ModulesError noLimit (.map (.inconsistent e)))
      (.first (only_cons (only_fails fun _ => .noVersion) (only_cons (only_fails fun _ => .records 1 (by decide)) only_nil)))
      fun _ h => h
  · rintro e ⟨r, version, rest, -, -, h⟩
    exact (Only.all fun r _ => (comdat_only pf version _ _).under fun _ h => .comdat h).1 e h
  · rintro s ⟨r, version, rest, -, -, h⟩
    exact (Only.all fun r _ => (comdat_only pf version _ _).under (E := ModulesError noLimit) fun _ h => .comdat h).2 s h
  · obtain ⟨c, -, h⟩ := hctx.types
    exact typesSay_canBe h

theorem parts_only (pf : Profile) (p : Parts (BBlock × Forest)) : Only (PartsBad pf p) (FileError noLimit) (FileStops pf) := by
  refine .first <| only_cons (only_fails fun _ => .noStrtab) <|
    only_cons (only_ex fun c _ => .under (D := fun e => FileError noLimit (.map (.strtab e))) ?_ fun _ h => h) <|
    only_cons (.under (D := fun _ => True) ?_ fun e _ => .identification e) <|
    only_cons (only_fails fun _ => .noModule) <| only_cons ⟨?_, ?_⟩ <|
    only_cons (only_ex fun c _ => .under (D := fun e => FileError noLimit (.map (.symtab e))) ?_ fun _ h => h) only_nil
  · exact .first <| only_cons (only_fails fun _ => .strtabMissing) <|
      only_cons (only_ex fun r _ => (blob_only pf r).under fun _ h => .strtab h) only_nil
  · exact .first <| only_cons (only_fails fun _ => trivial) <|
      only_cons (only_ex fun r _ => (text_only pf r).under fun _ _ => trivial) <|
      only_cons (only_fails fun _ => trivial) <| only_cons (only_fails fun _ => trivial) only_nil
  · rintro e ⟨c, bytes, d, -, -, -, h⟩
    exact ((module_only pf _ _).under fun _ h => .inModule h).1 e h
  · rintro s ⟨c, bytes, d, -, -, -, h⟩
    exact ((module_only pf _ _).under (E := FileError noLimit) fun _ h => .inModule h).2 s h
  · exact .first <| only_cons (only_fails fun _ => .symtabMissing) <|
      only_cons (only_ex fun r _ => (blob_only pf r).under fun _ h => .symtab h) only_nil

theorem file_only (pf : Profile) (bytes : List U8) : Only (FileBad pf bytes) (FileError noLimit) (FileStops pf) := by
  have tops_id : ∀ {tops stillOpen : List (BBlock × Forest)} {r : Bitstream.Next}, Begins pf bytes tops stillOpen r →
      ∀ c ∈ tops, c.1.blockId ≠ 0 := by
    rintro tops stillOpen r ⟨w, b, b₁, b₂, es, h, hes, hit, -, -⟩ c hc
    have hm : StreamEntry.subBlock c.1 ∈ es := by
      rw [hes]
      refine List.mem_append.2 (.inl ?_)
      unfold completeEntries
      exact List.mem_flatMap.2 ⟨c, hc, by simp⟩
    obtain ⟨b', hb', he⟩ := iterate_mem (pf := pf) (b := b) es.length (.opened (.auto h)) (x := .item (.subBlock c.1))
      (by rw [hit]; exact List.mem_map.2 ⟨_, hm, rfl⟩)
    exact (Props.C27_blockinfo_hidden pf hb').1 _ he
  have key : ∀ {tops stillOpen : List (BBlock × Forest)} {r : Bitstream.Next}, Begins pf bytes tops stillOpen r →
      Only (First [TopsBad tops, EndBad r, fails (stillOpen ≠ []) (.unroll .unexpectedEnd), All (PartsBad pf) (parts tops)])
        (FileError noLimit) (FileStops pf) := by
    intro tops stillOpen r hb
    refine .first <| only_cons (.all fun i _ => only_ex fun c hc => .first <| only_cons (only_fails fun h => .unexpected _ ?_) <|
      only_cons (only_fails fun _ => .unidentified) <| only_cons (only_fails fun _ => .adjacent) only_nil) <|
      only_cons ⟨?_, ?_⟩ <| only_cons (only_fails fun _ => .truncated) <| only_cons (.all fun p _ => parts_only pf p) only_nil
    · have h0 := tops_id hb c (List.mem_of_getElem? hc)
      rw [List.mem_cons, not_or]
      exact ⟨fun h => h0 (BitVec.eq_of_toNat_eq h), h⟩
    · rintro e (⟨e', he, h⟩ | ⟨p, -, h⟩)
      · cases h
        obtain ⟨w, b, b₁, b₂, es, h, -, hit, hn, -⟩ := hb
        have hr : Reach pf b₁ := by have := Props.iterate_reach (pf := pf) (b := b) (.opened (.auto h)) es.length; rw [hit] at this; exact this
        exact .reading (next_tells hr.pinv (by rw [hn, he]))
      · cases h
    · rintro s (⟨e', -, h⟩ | ⟨p, he, h⟩)
      · cases h
      · cases h
        obtain ⟨w, b, b₁, b₂, es, h, -, hit, hn, -⟩ := hb
        have hr : Reach pf b₁ := by have := Props.iterate_reach (pf := pf) (b := b) (.opened (.auto h)) es.length; rw [hit] at this; exact this
        rcases Props.C23_panic_sites_partial pf hr p (by rw [hn, he]) with ⟨rfl, h⟩ | ⟨rfl, h⟩ | rfl | rfl | rfl
        · exact .number h
        · exact .array h
        · exact .capacity
        · exact .setBid
        · exact .noCode
  refine ⟨?_, ?_⟩
  · rintro e (⟨e', h, he⟩ | ⟨tops, P, r, hb, h⟩)
    · cases he
      exact .opening ((C73_open pf e').2.1 ⟨bytes, h⟩)
    · exact (key hb).1 e h
  · rintro s (⟨e', h, he⟩ | ⟨tops, P, r, hb, h⟩)
    · cases he
    · exact (key hb).2 s h

end Verif
