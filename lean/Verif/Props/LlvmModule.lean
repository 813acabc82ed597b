import Verif.Mapper.LlvmModuleSpec
import Verif.Props.LlvmAlias
import Verif.Props.LlvmAttributes
import Verif.Props.LlvmLayoutFile
import Verif.Props.LlvmTypesFile

/-! C97: whole modules as LLVM writes them. -/

namespace Verif
open Spec

/-! ## Records by their fields -/

theorem each_fields {α β : Type} {P : List U64 → β → Prop} {F : α → List U64} {rs : List BRecord} {xs : List α}
    (h : rs.map (·.fields) = xs.map F) : (∃ m, Each (fun r b => P r.fields b) rs m) ↔ ∀ x ∈ xs, ∃ b, P (F x) b := by
  rw [each_some]
  have h1 : (∀ r ∈ rs, ∃ b, P r.fields b) ↔ ∀ y ∈ rs.map (·.fields), ∃ b, P y b := by simp
  rw [h1, h]
  simp

/-- The text that a record with the fields of a text holds. -/
theorem holds_text {pf : Profile} {r : BRecord} {s : List U8} (h : r.fields = textFields s) (x : Str) :
    Holds pf r x ↔ utf8 x = s ∧ s.length ≠ 1 ∧ (s = [] → pf = .release) := by
  unfold Holds
  rw [h, ← areBytes_iff, (areBytes_iff (textFields s) s).2 rfl, textFields, List.length_map, List.map_eq_nil_iff, Option.some.injEq,
    eq_comm (a := s) (b := utf8 x)]

theorem holds_long {pf : Profile} {r : BRecord} {s : List U8} (h : r.fields = textFields s) (hs : s ≠ []) :
    (∃ x, Holds pf r x) ↔ IsLongText s := by
  have hp := List.length_pos_iff.2 hs
  constructor
  · rintro ⟨x, hx⟩
    obtain ⟨h1, h2, -⟩ := (holds_text h x).1 hx
    exact ⟨by omega, x, h1⟩
  · rintro ⟨h1, x, hx⟩
    exact ⟨x, (holds_text h x).2 ⟨hx, by omega, fun h0 => absurd h0 hs⟩⟩

theorem each_texts {pf : Profile} {rs : List BRecord} {ss : List (List U8)} (h : rs.map (·.fields) = ss.map textFields)
    (hs : ∀ s ∈ ss, s ≠ []) : (∃ m, Each (Holds pf) rs m) ↔ ∀ s ∈ ss, IsLongText s := by
  refine (each_fields (P := fun fs b => Holds pf ⟨none, 0, fs⟩ b) h).trans ⟨fun H s hm => ?_, fun H s hm => ?_⟩
  · exact (holds_long rfl (hs s hm)).1 (H s hm)
  · exact (holds_long rfl (hs s hm)).2 (H s hm)

theorem optional_text {β : Type} {P : BRecord → β → Prop} {missing : β} {rs : List BRecord} {s : List U8}
    (h : rs.map (·.fields) = unlessEmpty s) (b : β) :
    Optionally P missing rs b ↔ (s = [] ∧ b = missing) ∨ (s ≠ [] ∧ ∃ r, rs = [r] ∧ r.fields = textFields s ∧ P r b) := by
  unfold unlessEmpty at h
  by_cases hs : s = []
  · rw [if_pos hs, List.map_eq_nil_iff] at h
    subst h
    constructor
    · intro h; cases h; exact .inl ⟨hs, rfl⟩
    · rintro (⟨-, rfl⟩ | ⟨h, -⟩)
      · exact .absent
      · exact absurd hs h
  · rw [if_neg hs] at h
    obtain ⟨r, rfl, hf⟩ := List.map_eq_singleton_iff.1 h
    constructor
    · intro h'; cases h' with | present h' => exact .inr ⟨hs, r, rfl, hf, h'⟩
    · rintro (⟨h, -⟩ | ⟨-, r', h1, -, h2⟩)
      · exact absurd h hs
      · cases h1; exact .present h2

/-- A datalayout with specs has a text. -/
theorem llvmText_nil {specs : List LlvmSpec} (h : llvmText specs = []) : specs = [] := by
  cases specs with
  | nil => rfl
  | cons s ss =>
    exfalso
    have h1 : s.text = [] := by
      cases ss with
      | nil => simpa [llvmText] using h
      | cons t ts =>
        simp only [llvmText, List.map_cons, List.intercalate_cons_cons, List.append_eq_nil_iff] at h
        exact h.1.1
    unfold LlvmSpec.text at h1
    split at h1 <;> cases h1

theorem utf8_nil {s : Str} (h : utf8 s = []) : s = [] := by
  cases s with
  | nil => rfl
  | cons c s =>
    exfalso
    simp only [utf8, List.flatMap_cons, List.append_eq_nil_iff] at h
    have h := h.1
    unfold utf8Char at h
    split at h
    · cases h
    · split at h
      · cases h
      · split at h <;> cases h

/-! ## The parts of a module -/

/-- The types that the block of types gives. -/
theorem types_read (pf : Profile) {M : LlvmModule} {text : List U8} (ha : M.Allowed text) {rs : List BRecord} (h : DeclaresTypes rs M.types)
    (ts : TypeTable) : TypesSay pf rs ts ↔ ts = M.types ∧ ∀ t ∈ M.types, ¬ PointerVector t := by
  obtain ⟨ds, r, rest, h1, h2, h3, h4, h5, h6⟩ := h
  have hn : (BitVec.ofNat 64 M.types.length).toNat = M.types.length := by
    rw [BitVec.toNat_ofNat]; exact Nat.mod_eq_of_lt (by have := ha.typeCount; omega)
  have key := C90_tables_partial pf (.mk (.ir .type) rs []) (BitVec.ofNat 64 M.types.length) ds ⟨r, rest, h1, h2⟩
    (by rw [hn]; exact ha.typeCount) h3 h4 (by rw [hn]; exact h5) (fun i hi => by
      have hlt : i < M.types.length := by omega
      exact ⟨M.types[i], h6 i _ (List.getElem?_eq_getElem hlt), ha.types _ (List.getElem_mem _)⟩)
  have mem : ∀ i t, Denotes ds i t → t ∈ M.types := fun i t hd => by
    have hlt : i < M.types.length := by rw [← h5]; exact denotes_lt hd
    rw [hd.unique (h6 i _ (List.getElem?_eq_getElem hlt))]
    exact List.getElem_mem _
  have eqs : ∀ us : TypeTable, us.length = ds.length → (∀ i t, us[i]? = some t → Denotes ds i t) → us = M.types := by
    intro us g1 g2
    refine List.ext_getElem (by omega) fun i g3 g4 => ?_
    exact (g2 i _ (List.getElem?_eq_getElem g3)).unique (h6 i _ (List.getElem?_eq_getElem g4))
  have hx := C40_exact pf (.mk (.ir .type) rs []) ts
  constructor
  · intro hs
    have hok := hx.2 hs
    have hp : ∀ t ∈ M.types, ¬ PointerVector t := fun t hm hp => by
      obtain ⟨i, hi⟩ := List.mem_iff_getElem?.1 hm
      obtain ⟨a, he⟩ := key.2 ⟨i, t, h6 i t hi, hp⟩
      rw [hok] at he
      cases he
    obtain ⟨us, g1, g2, g3⟩ := key.1 fun i t hd => hp t (mem i t hd)
    rw [hok] at g1
    cases g1
    exact ⟨eqs ts g2 g3, hp⟩
  · rintro ⟨rfl, hp⟩
    obtain ⟨us, g1, g2, g3⟩ := key.1 fun i t hd => hp t (mem i t hd)
    rw [eqs us g2 g3] at g1
    exact hx.1 g1

/-- A function of the module is one that LLVM allows with its tables. -/
theorem Spec.LlvmModule.MayHave.allowed {M : LlvmModule} {text : List U8} {f : LlvmFunction} {offset : Nat} (h : M.MayHave text f offset)
    {ctx : MapCtx} (h1 : ctx.version = 2) (h2 : ctx.strtab.bytes = text) (h3 : ctx.typeTable = M.types)
    (h4 : ctx.attributes.length = M.lists.length) (h5 : ctx.sectionTable.length = M.sections.length) (h6 : ctx.gcTable.length = M.gcs.length) :
    f.Allowed offset ctx where
  version := by rw [h1]; decide
  name := by rw [h2]; exact h.name
  type := by rw [h3]; exact h.type
  callingConvention := h.callingConvention
  attributes := by rw [h4]; exact h.attributes
  align := h.align
  «section» := by rw [h5]; exact h.section
  gc := by rw [h6]; exact h.gc
  small := h.small

/-- The groups that the block of groups gives. -/
theorem groups_read {M : LlvmModule} {text : List U8} (ha : M.Allowed text) {t : Forest}
    (h : (M.groups = [] ∧ t.withId 10 = []) ∨ ∃ c, t.withId 10 = [c] ∧ c.2.records = M.groups.map LlvmGroup.toRecord) :
    ((∃ g, Optionally (fun c g => GroupsSay c.2.records g) [] (t.withId 10) g) ↔ ∀ g ∈ M.groups, ∀ a ∈ g.attrs, a.Readable) ∧
    ∀ g, Optionally (fun c g => GroupsSay c.2.records g) [] (t.withId 10) g → ∀ id ∈ M.groups.map (·.id), ∃ x, (id, x) ∈ g := by
  rcases h with ⟨h1, h2⟩ | ⟨c, h1, h2⟩
  · rw [h1, h2]
    exact ⟨⟨fun _ g hg => (by cases hg), fun _ => ⟨[], .absent⟩⟩, fun g _ id hid => (by cases hid)⟩
  · rw [h1]
    have hb : (UBlock.mk (.ir .paramAttrGroup) c.2.records []).records = M.groups.map LlvmGroup.toRecord := h2
    obtain ⟨k1, -⟩ := C95_groups_partial _ M.groups ha.groups ha.groupIds hb
    have say (g : AttributeGroups) := C43_exact (.mk (.ir .paramAttrGroup) c.2.records []) g
    refine ⟨?_, fun g hg id hid => ?_⟩
    · rw [← k1]
      exact ⟨fun ⟨g, hg⟩ => ⟨g, by cases hg with | present hg => exact (say g).2 hg⟩, fun ⟨g, hg⟩ => ⟨g, .present ((say g).1 hg)⟩⟩
    · cases hg with
      | present hg =>
        obtain ⟨gs', g1, -, g3⟩ := hg
        rw [h2, attrGroups_iff ha.groups] at g1
        obtain ⟨y, hy, rfl⟩ := List.mem_map.1 hid
        obtain ⟨y', hw⟩ := each_some.1 ⟨gs', g1⟩ y hy
        exact ⟨⟨_, _⟩, (g3 _ _).2 ((lastGroup_iff ha.groups ha.groupIds g1 y.id _).2 ⟨y, hy, rfl, rfl, hw.2.2⟩)⟩

/-- The lists can always be read, if the groups can. -/
theorem lists_read {M : LlvmModule} {text : List U8} (ha : M.Allowed text) {t : Forest} {g : AttributeGroups}
    (h : (M.lists = [] ∧ t.withId 9 = []) ∨
      ∃ c, t.withId 9 = [c] ∧ c.2.records = M.lists.map fun l => ⟨none, 2, l.map (·.setWidth 64)⟩)
    (hg : ∀ id ∈ M.groups.map (·.id), ∃ x, (id, x) ∈ g) :
    (∃ as, Optionally (fun c as => ListsSay g c.2.records as) [] (t.withId 9) as) ∧
    ∀ as, Optionally (fun c as => ListsSay g c.2.records as) [] (t.withId 9) as → as.length = M.lists.length := by
  rcases h with ⟨h1, h2⟩ | ⟨c, h1, h2⟩
  · rw [h1, h2]
    exact ⟨⟨[], .absent⟩, fun as h => (by cases h; rfl)⟩
  · rw [h1]
    refine ⟨?_, fun as h => ?_⟩
    · obtain ⟨as, k1, k2⟩ : ∃ as : List AttributeEntry, Each (fun (l : List U32) e => Each (fun id x => (id, x) ∈ g) l e) M.lists as :=
        each_some.2 fun l hl => each_some.2 fun id hid => hg id (ha.lists l hl id hid)
      refine ⟨as, .present ⟨by rw [h2, List.length_map, k1], fun i r e e1 e2 => ?_⟩⟩
      rw [h2, List.getElem?_map, Option.map_eq_some_iff] at e1
      obtain ⟨l, e1, rfl⟩ := e1
      obtain ⟨k3, k4⟩ := k2 i l e e1 e2
      refine ⟨rfl, by rw [List.length_map, k3], fun j f x e3 e4 => ?_⟩
      rw [List.getElem?_map, Option.map_eq_some_iff] at e3
      obtain ⟨id, e3, rfl⟩ := e3
      refine ⟨id, ?_, k4 j id x e3 e4⟩
      rw [BitVec.toNat_setWidth]
      have := id.isLt
      omega
    · cases h with
      | present h => rw [h.1, h2, List.length_map]

/-- The layout that the record of the datalayout gives. -/
theorem layout_read (pf : Profile) {specs : List LlvmSpec} (ha : ∀ s ∈ specs, s.Allowed) {rs : List BRecord}
    (h : rs.map (·.fields) = unlessEmpty (utf8 (llvmText specs))) :
    (∃ d, Optionally (fun r d => ∃ s, Holds pf r s ∧ LayoutSays s d) .default rs d) ↔
      (∀ s ∈ specs, s.Usual) ∧ (llvmText specs).length ≠ 1 := by
  have hl := llvmText_length ha
  simp only [optional_text h]
  by_cases hne : specs = []
  · subst hne
    exact ⟨fun _ => ⟨fun s hs => (by cases hs), by decide⟩, fun _ => ⟨_, .inl ⟨rfl, rfl⟩⟩⟩
  have hu : utf8 (llvmText specs) ≠ [] := fun h0 => hne (llvmText_nil (utf8_nil h0))
  constructor
  · rintro ⟨d, ⟨h0, -⟩ | ⟨-, r, -, h1, s, h2, h3⟩⟩
    · exact absurd h0 hu
    · obtain ⟨h4, h5, -⟩ := (holds_text h1 s).1 h2
      have e : s = llvmText specs := by
        have e1 := (holds_iff pf r s).2 h2
        have e2 := (holds_iff pf r (llvmText specs)).2 ⟨h1, h2.2⟩
        rw [e1] at e2
        cases e2
        rfl
      rw [e] at h3
      exact ⟨(Props.C93_parses_partial specs hne ha).1.1 ⟨d, (Props.C59_accepts _ _).2 h3⟩, by omega⟩
  · rintro ⟨h1, h2⟩
    obtain ⟨d, hd⟩ := (Props.C93_parses_partial specs hne ha).1.2 h1
    rw [unlessEmpty, if_neg hu] at h
    obtain ⟨r, rfl, hf⟩ := List.map_eq_singleton_iff.1 h
    exact ⟨d, .inr ⟨hu, r, rfl, hf, _, (holds_text hf _).2 ⟨rfl, by omega, fun h0 => absurd h0 hu⟩, (Props.C59_accepts _ _).1 hd⟩⟩

/-- What an optional text gives. -/
theorem optional_long {β : Type} {pf : Profile} {Q : Str → β → Prop} {missing : β} {rs : List BRecord} {s : List U8}
    (h : rs.map (·.fields) = unlessEmpty s) (hQ : ∀ x, ∃ b, Q x b) :
    ((∃ b, Optionally (fun r b => ∃ x, Holds pf r x ∧ Q x b) missing rs b) ↔ s = [] ∨ IsLongText s) ∧
    ∀ b, Optionally (fun r b => ∃ x, Holds pf r x ∧ Q x b) missing rs b →
      (s = [] ∧ b = missing) ∨ ∃ x, utf8 x = s ∧ s ≠ [] ∧ Q x b := by
  simp only [optional_text h]
  refine ⟨⟨?_, ?_⟩, ?_⟩
  · rintro ⟨b, ⟨h0, -⟩ | ⟨h0, r, -, h1, x, h2, -⟩⟩
    · exact .inl h0
    · exact .inr ((holds_long h1 h0).1 ⟨x, h2⟩)
  · rintro (h0 | h0)
    · exact ⟨_, .inl ⟨h0, rfl⟩⟩
    · have hs : s ≠ [] := fun e => by
        have := h0.1
        rw [e] at this
        exact absurd this (by decide)
      rw [unlessEmpty, if_neg hs] at h
      obtain ⟨r, rfl, hf⟩ := List.map_eq_singleton_iff.1 h
      obtain ⟨x, hx⟩ := (holds_long (pf := pf) hf hs).2 h0
      obtain ⟨b, hb⟩ := hQ x
      exact ⟨b, .inr ⟨hs, r, rfl, hf, x, hx, hb⟩⟩
  · rintro b (⟨h0, h1⟩ | ⟨h0, r, -, h1, x, h2, h3⟩)
    · exact .inl ⟨h0, h1⟩
    · exact .inr ⟨x, ((holds_text h1 x).1 h2).1, h0, h3⟩

/-! ## Modules -/

/-- What the block of a module that LLVM writes says: something if and only if the module is readable. -/
theorem module_read (pf : Profile) (target : Str) {M : LlvmModule} {text : List U8} (ha : M.Allowed text) {t : Forest} (hw : M.WrittenAs t) :
    ((∃ m ctx fs as, ModuleSays pf target ⟨text⟩ t m ctx fs as) ↔ M.Readable) ∧
    ∀ m ctx fs as, ModuleSays pf target ⟨text⟩ t m ctx fs as → M.ReportedAs target m := by
  obtain ⟨cty, hty1, hty2⟩ := hw.types
  have hfun : ∀ {ctx : MapCtx}, ctx.version = 2 → ctx.strtab = ⟨text⟩ → ctx.typeTable = M.types → ctx.attributes.length = M.lists.length →
      ctx.sectionTable.length = M.sections.length → ctx.gcTable.length = M.gcs.length →
      ((∃ fs, Each (fun r f => FunctionSays ctx r.fields f) (withCode t.records 8) fs) ↔
        ∀ f ∈ M.functions, IsText f.1.name ∧ ∃ cc, (f.1.callingConvention, cc) ∈ callingConventionTable) := by
    intro ctx h1 h2 h3 h4 h5 h6
    refine (each_fields (P := fun fs b => FunctionSays ctx fs b) hw.functions).trans (forall_congr' fun f => forall_congr' fun hf => ?_)
    have ht : ctx.strtab.bytes.length < 2 ^ 64 := by rw [h2]; exact ha.small
    have key := (C94_functions_partial pf ctx ht f.1 f.2 ((ha.functions f hf).allowed h1 (by rw [h2]) h3 h4 h5 h6)).1
    simp only [C49_function pf _ ctx ht] at key
    refine Iff.trans ?_ (key.trans ?_)
    · exact Iff.rfl
    · exact ⟨fun h => ⟨⟨h.1, h.2.1⟩, h.2.2⟩, fun h => ⟨h.1.1, h.1.2, h.2⟩⟩
  have hali : ∀ {ctx : MapCtx}, ctx.version = 2 → ctx.strtab = ⟨text⟩ → ctx.typeTable = M.types →
      ((∃ as, Each (fun r a => AliasSays ctx r.fields a) (withCode t.records 14) as) ↔
        ∀ a ∈ M.aliases, a.1.linkage = .external ∧ IsText a.1.name) := by
    intro ctx h1 h2 h3
    refine (each_fields (P := fun fs b => AliasSays ctx fs b) hw.aliases).trans (forall_congr' fun a => forall_congr' fun hm => ?_)
    have ht : ctx.strtab.bytes.length < 2 ^ 64 := by rw [h2]; exact ha.small
    obtain ⟨g1, g2, g3, g4⟩ := ha.aliases a hm
    have key := (C96_aliases_partial pf ctx ht a.1 a.2
      ⟨by rw [h1]; decide, by rw [h2]; exact g1, by rw [h3]; exact g2, g3, g4⟩).1
    simp only [C49_alias pf _ ctx ht] at key
    exact key
  have hcom : (∃ cs, Each (fun r c => ComdatSays 2 text r.fields c) (withCode t.records 12) cs) ↔
      ∀ c ∈ M.comdats, c.1.kind ≠ .sameSize ∧ IsText c.1.name := by
    refine (each_fields (P := fun fs b => ComdatSays 2 text fs b) hw.comdats).trans (forall_congr' fun c => forall_congr' fun hm => ?_)
    have say (d : Comdat) := says_comdat (version := 2) (by decide) (ha.comdats c hm) d
    refine ⟨fun ⟨d, hd⟩ => ?_, fun ⟨h1, h2, s, h3⟩ => ?_⟩
    · obtain ⟨⟨g1, g2⟩, g3⟩ := (say d).1 hd
      refine ⟨fun h0 => ?_, g2, _, g1⟩
      rw [h0] at g3
      cases g3
    · have : ∃ k, reportedKind c.1.kind = some k := by
        generalize c.1.kind = k at h1
        cases k <;> first | exact ⟨_, rfl⟩ | exact absurd rfl h1
      obtain ⟨k, hk⟩ := this
      exact ⟨⟨k, s⟩, (say _).2 ⟨⟨h3, h2⟩, hk⟩⟩
  obtain ⟨rv, hv1, hv2⟩ := List.map_eq_singleton_iff.1 hw.version
  have hlib : withCode t.records 6 = [] := List.map_eq_nil_iff.1 hw.libraries
  have htri := optional_long (pf := pf) (Q := fun x b => x = b) (missing := target) hw.triple (fun x => ⟨x, rfl⟩)
  have htri' : (fun (r : BRecord) (b : Str) => ∃ x, Holds pf r x ∧ x = b) = Holds pf := by
    funext r b
    exact propext ⟨fun ⟨x, h, e⟩ => e ▸ h, fun h => ⟨b, h, rfl⟩⟩
  rw [htri'] at htri
  have hasm := optional_long (pf := pf) (Q := Lines) (missing := []) hw.asm (fun x => ⟨_, (lines_iff x _).1 rfl⟩)
  have hsec := each_texts (pf := pf) hw.sections ha.sections
  have hgcs := each_texts (pf := pf) hw.gcs ha.gcs
  have hgro := groups_read ha hw.groups
  refine ⟨⟨?_, fun hr => ?_⟩, ?_⟩
  · rintro ⟨m, ctx, fs, as, h⟩
    have k := h.tables
    have e1 : ctx.version = 2 := by
      obtain ⟨r, rest, h1, h2⟩ := k.version
      rw [hv1] at h1
      cases h1
      rw [hv2] at h2
      exact (List.cons.inj h2).1.symm
    obtain ⟨c, g1, g2⟩ := k.types
    rw [hty1] at g1
    cases g1
    obtain ⟨e3, hp⟩ := (types_read pf ha hty2 _).1 g2
    have e4 := (lists_read ha hw.lists (hgro.2 _ k.groups)).2 _ k.attributes
    have e5 : ctx.sectionTable.length = M.sections.length := by
      rw [k.sections.1, ← List.length_map (f := BRecord.fields), show (withCode t.records 5).map _ = _ from hw.sections, List.length_map]
    have e6 : ctx.gcTable.length = M.gcs.length := by
      rw [k.gcs.1, ← List.length_map (f := BRecord.fields), show (withCode t.records 11).map _ = _ from hw.gcs, List.length_map]
    have b1 := (hfun e1 k.strtab e3 e4 e5 e6).1 ⟨fs, h.functions⟩
    have b2 : ∀ f ∈ M.functions, f.1.isDeclaration = true := by
      have := hw.bodies
      rw [h.noBodies] at this
      have := List.length_eq_zero_iff.1 this.symm
      rw [List.filter_eq_nil_iff] at this
      intro f hf
      have := this f hf
      simpa using this
    refine ⟨htri.1.1 ⟨_, h.triple⟩, (layout_read pf ha.layout hw.layout).1 ⟨_, k.datalayout⟩, hasm.1.1 ⟨_, h.asm⟩, hsec.1 ⟨_, k.sections⟩,
      hgcs.1 ⟨_, k.gcs⟩, hp, hgro.1.1 ⟨_, k.groups⟩, hcom.1 ⟨ctx.comdats, ?_⟩, fun f hf => ⟨b2 f hf, b1 f hf⟩, (hali e1 k.strtab e3).1 ⟨as, h.aliases⟩⟩
    have := k.comdats
    rw [e1, k.strtab] at this
    exact this
  · obtain ⟨tri, h1⟩ := htri.1.2 hr.triple
    obtain ⟨d, h2⟩ := (layout_read pf ha.layout hw.layout).2 hr.layout
    obtain ⟨asm, h3⟩ := hasm.1.2 hr.asm
    obtain ⟨secs, h4⟩ := hsec.2 hr.sections
    obtain ⟨gcs, h5⟩ := hgcs.2 hr.gcs
    obtain ⟨ag, h6⟩ := hgro.1.2 hr.groups
    have hl := lists_read ha hw.lists (hgro.2 _ h6)
    obtain ⟨al, h7⟩ := hl.1
    obtain ⟨cs, h8⟩ := hcom.2 hr.comdats
    have e5 : secs.length = M.sections.length := by
      rw [h4.1, ← List.length_map (f := BRecord.fields), show (withCode t.records 5).map _ = _ from hw.sections, List.length_map]
    have e6 : gcs.length = M.gcs.length := by
      rw [h5.1, ← List.length_map (f := BRecord.fields), show (withCode t.records 11).map _ = _ from hw.gcs, List.length_map]
    let ctx : MapCtx := ⟨2, d, secs, gcs, ⟨text⟩, ag, al, M.types, cs⟩
    obtain ⟨fs, h9⟩ := (hfun (ctx := ctx) rfl rfl rfl (hl.2 _ h7) e5 e6).2 fun f hf => (hr.functions f hf).2
    obtain ⟨as, h10⟩ := (hali (ctx := ctx) rfl rfl rfl).2 hr.aliases
    refine ⟨⟨tri, asm, []⟩, ctx, fs, as, ⟨⟨⟨rv, [], hv1, hv2⟩, h2, h4, h5, rfl, ⟨cty, hty1, (types_read pf ha hty2 _).2 ⟨rfl, hr.types⟩⟩,
      hw.symbols, h6, h7, h8⟩, h1, h3, ?_, h9, ?_, h10⟩⟩
    · rw [hlib]; exact each_nil_left.2 rfl
    · have hb := hw.bodies
      have : (M.functions.filter fun f => !f.1.isDeclaration) = [] := by
        rw [List.filter_eq_nil_iff]
        intro f hf
        rw [(hr.functions f hf).1]
        decide
      rw [this] at hb
      exact List.length_eq_zero_iff.1 hb
  · intro m ctx fs as h
    refine ⟨?_, hasm.2 _ h.asm, ?_⟩
    · rcases htri.2 _ h.triple with ⟨g1, g2⟩ | ⟨x, g1, g2, g3⟩
      · exact .inl ⟨g1, g2⟩
      · exact .inr ⟨g2, by rw [← g3]; exact g1⟩
    · have := h.deplibs
      rw [hlib] at this
      exact each_nil_left.1 this

/-! ## Files -/

theorem bytes_say {pf : Profile} {c : BBlock × Forest} {id : U64} {bytes : List U8} (h : IsBytes c id bytes) (bs : List U8) :
    TableSays pf c.2.records bs ↔ bs = bytes ∧ bytes.length ≠ 1 ∧ (bytes = [] → pf = .release) := by
  obtain ⟨r, h1, h2⟩ := List.map_eq_singleton_iff.1 h.2
  have hc : r.code = 1 := congrArg Prod.fst h2
  have hf : r.fields = textFields bytes := congrArg Prod.snd h2
  have hb : ∀ bs, HoldsBytes pf r bs ↔ bs = bytes ∧ bytes.length ≠ 1 ∧ (bytes = [] → pf = .release) := fun bs => by
    unfold HoldsBytes
    rw [hf, ← areBytes_iff, (areBytes_iff (textFields bytes) bytes).2 rfl, textFields, List.length_map, List.map_eq_nil_iff, Option.some.injEq,
      eq_comm (a := bytes) (b := bs)]
  rw [h1]
  constructor
  · rintro ⟨r', ⟨pre, post, e1, -, -⟩, h3⟩
    have : r' = r := by
      have : r' ∈ [r] := by rw [e1]; simp
      simpa using this
    rw [this] at h3
    exact (hb bs).1 h3
  · intro h3
    exact ⟨r, ⟨[], [], rfl, hc, by simp⟩, (hb bs).2 h3⟩

theorem producer_says {pf : Profile} {i : BBlock × Forest} {producer : Str} {epoch : U64} (h : IsIdentification i producer epoch)
    (hl : 2 ≤ (utf8 producer).length) (x : Identification) :
    IdentificationSays pf i.2.records x ↔ x.producer = producer ∧ x.epoch = epoch := by
  obtain ⟨-, h⟩ := h
  obtain ⟨r, rs, hr, e1, h⟩ := List.map_eq_cons_iff.1 h
  obtain ⟨r', hr', e2⟩ := List.map_eq_singleton_iff.1 h
  rw [hr, hr']
  simp only [Prod.mk.injEq] at e1 e2
  obtain ⟨h1, h2⟩ := e1
  obtain ⟨h3, h4⟩ := e2
  have first : ∀ y, FirstWith 1 [r, r'] y ↔ y = r := fun y => by
    constructor
    · rintro ⟨pre, post, e1, e2, e3⟩
      match pre, e1 with
      | [], e1 => exact (List.cons.inj e1).1.symm
      | a :: pre, e1 => exact absurd ((List.cons.inj e1).1 ▸ h1) (e3 a (by simp))
    · rintro rfl
      exact ⟨[], _, rfl, h1, by simp⟩
  have second : ∀ y, FirstWith 2 [r, r'] y ↔ y = r' := fun y => by
    constructor
    · rintro ⟨pre, post, e1, e2, e3⟩
      have : y ∈ [r, r'] := by rw [e1]; simp
      rcases List.mem_cons.1 this with rfl | this
      · rw [h1] at e2; exact absurd e2 (by decide)
      · simpa using this
    · rintro rfl
      refine ⟨[r], [], rfl, h3, fun x hx => ?_⟩
      rw [List.mem_singleton.1 hx, h1]
      decide
  have hold : Holds pf r x.producer ↔ x.producer = producer := by
    constructor
    · intro h
      have e1 := (holds_iff pf r x.producer).2 h
      have e2 := (holds_iff pf r producer).2 ⟨h2, h.2⟩
      rw [e1] at e2
      cases e2
      rfl
    · intro e
      rw [e, holds_text h2]
      exact ⟨rfl, by omega, fun h0 => by rw [h0] at hl; exact absurd hl (by decide)⟩
  constructor
  · rintro ⟨⟨y, e1, e2⟩, z, fs, e3, e4⟩
    rw [(first y).1 e1] at e2
    rw [(second z).1 e3, h4] at e4
    exact ⟨hold.1 e2, (List.cons.inj e4).1.symm⟩
  · rintro ⟨e1, e2⟩
    exact ⟨⟨r, (first r).2 rfl, hold.2 e1⟩, r', [], (second r').2 rfl, by rw [h4, e2]⟩

/-- How the blocks of the file are grouped. -/
theorem file_parts {M : LlvmModule} {text : List U8} {producer : Str} {epoch : U64} {tops : List (BBlock × Forest)}
    (h : M.FileOf text producer epoch tops) : InOrder tops ∧ ∃ i c s y, parts tops = [⟨i, some c, some s, y⟩] ∧
      IsIdentification i producer epoch ∧ M.WrittenAs c.2 ∧ IsBytes s 23 text ∧
      ∀ b, y = some b → ∃ symbols, IsBytes b 25 symbols ∧ 2 ≤ symbols.length := by
  cases h with
  | @plain i c s h1 h2 h3 h4 =>
    refine ⟨?_, i, c, s, none, ?_, h1, h3, h4, fun b hb => (by cases hb)⟩
    · intro pre d post h
      match pre, h with
      | [], h => rw [← (List.cons.inj h).1, h1.1]; exact .inl (by simp)
      | [a], h =>
        simp only [List.cons_append, List.nil_append, List.cons.injEq] at h
        obtain ⟨rfl, rfl, -⟩ := h
        exact .inr ⟨h2, [], _, [], rfl, h1.1, by simp⟩
      | [a, a'], h =>
        simp only [List.cons_append, List.nil_append, List.cons.injEq] at h
        obtain ⟨rfl, rfl, rfl, -⟩ := h
        rw [h4.1]
        exact .inl (by simp)
      | a :: a' :: a'' :: pre, h => simp at h
    · simp [parts, h1.1, h2, h4.1]
  | @withSymbols i c y s symbols h1 h2 h3 h4 h5 h6 =>
    refine ⟨?_, i, c, s, some y, ?_, h1, h3, h6, fun b hb => (by cases hb; exact ⟨symbols, h4, h5⟩)⟩
    · intro pre d post h
      match pre, h with
      | [], h => rw [← (List.cons.inj h).1, h1.1]; exact .inl (by simp)
      | [a], h =>
        simp only [List.cons_append, List.nil_append, List.cons.injEq] at h
        obtain ⟨rfl, rfl, -⟩ := h
        exact .inr ⟨h2, [], _, [], rfl, h1.1, by simp⟩
      | [a, a'], h =>
        simp only [List.cons_append, List.nil_append, List.cons.injEq] at h
        obtain ⟨rfl, rfl, rfl, -⟩ := h
        rw [h4.1]
        exact .inl (by simp)
      | [a, a', a''], h =>
        simp only [List.cons_append, List.nil_append, List.cons.injEq] at h
        obtain ⟨rfl, rfl, rfl, rfl, -⟩ := h
        rw [h6.1]
        exact .inl (by simp)
      | a :: a' :: a'' :: a''' :: pre, h => simp at h
    · simp [parts, h1.1, h2, h4.1, h6.1]

/-- What the file says. -/
theorem file_read (pf : Profile) (target : Str) {tops : List (BBlock × Forest)} {M : LlvmModule} {text : List U8} {producer : Str} {epoch : U64}
    (hM : M.Allowed text) (hp : 2 ≤ (utf8 producer).length) (hF : M.FileOf text producer epoch tops) :
    ((∃ f, FileSays pf target tops f) ↔ M.Readable ∧ text.length ≠ 1 ∧ (text = [] → pf = .release)) ∧
    ∀ f, FileSays pf target tops f → ∃ m, f.modules = [m] ∧ m.identification = ⟨producer, epoch⟩ ∧ m.strtab.bytes = text ∧
      M.ReportedAs target m.module := by
  obtain ⟨ho, i, c, s, y, hparts, h1, h2, h3, h4⟩ := file_parts hF
  have iff (f : Bitcode) : FileSays pf target tops f ↔ ∃ m, f.modules = [m] ∧ PartsSay pf target ⟨i, some c, some s, y⟩ m := by
    constructor
    · rintro ⟨-, he⟩
      rw [hparts] at he
      obtain ⟨m, ms, e1, e2, e3⟩ := each_cons_left.1 he
      rw [each_nil_left.1 e3] at e1
      exact ⟨m, e1, e2⟩
    · rintro ⟨m, e1, e2⟩
      refine ⟨ho, ?_⟩
      rw [hparts, e1]
      exact each_cons.2 ⟨e2, each_nil_left.2 rfl⟩
  obtain ⟨k1, k2⟩ := module_read pf target hM h2
  constructor
  · constructor
    · rintro ⟨f, hf⟩
      obtain ⟨m, -, hm⟩ := (iff f).1 hf
      obtain ⟨s', e1, e2⟩ := hm.strtab
      cases e1
      obtain ⟨e3, e4⟩ := (bytes_say h3 _).1 e2
      obtain ⟨c', ctx, fs, as, e5, e6⟩ := hm.module
      cases e5
      rw [show m.strtab = ⟨text⟩ by rw [← e3]] at e6
      exact ⟨k1.1 ⟨_, _, _, _, e6⟩, e4⟩
    · rintro ⟨hr, ht⟩
      obtain ⟨m, ctx, fs, as, hm⟩ := k1.2 hr
      have hsym : ∃ o : Option Symtab, (y = none ∧ o = none) ∨ ∃ c s, y = some c ∧ o = some s ∧ TableSays pf c.2.records s.bytes := by
        cases y with
        | none => exact ⟨none, .inl ⟨rfl, rfl⟩⟩
        | some d =>
          obtain ⟨symbols, g1, g2⟩ := h4 d rfl
          refine ⟨some ⟨symbols⟩, .inr ⟨d, _, rfl, rfl, (bytes_say g1 _).2 ⟨rfl, by omega, fun h0 => ?_⟩⟩⟩
          rw [h0] at g2
          exact absurd g2 (by decide)
      obtain ⟨o, ho⟩ := hsym
      exact ⟨⟨[{ identification := ⟨producer, epoch⟩, module := m, strtab := ⟨text⟩, symtab := o }]⟩, (iff _).2 ⟨_, rfl,
        (producer_says h1 hp _).2 ⟨rfl, rfl⟩, ⟨s, rfl, (bytes_say h3 _).2 ⟨rfl, ht⟩⟩, ⟨c, ctx, fs, as, rfl, hm⟩, ho⟩⟩
  · intro f hf
    obtain ⟨m, e, hm⟩ := (iff f).1 hf
    obtain ⟨s', e1, e2⟩ := hm.strtab
    cases e1
    obtain ⟨e3, e4⟩ := (bytes_say h3 _).1 e2
    obtain ⟨c', ctx, fs, as, e5, e6⟩ := hm.module
    cases e5
    rw [show m.strtab = ⟨text⟩ by rw [← e3]] at e6
    obtain ⟨g1, g2⟩ := (producer_says h1 hp _).1 hm.identification
    exact ⟨m, e, by rw [← g1, ← g2], e3, k2 _ _ _ _ e6⟩

/-- C97, as far as it holds. A file with a module that LLVM allows, as LLVM writes it, maps if and only if the module is `Readable`, and its string table
does not have just one byte, nor none in a debug build. Then there is one module in the result; it has the identification and the string table that were
written, and its triple and its assembly are those of the module. Missing: the modules that are not `Readable`, see
`C97_refuted`, and those with types that are not on a list of types, see `C97_types`. -/
theorem C97_files_partial (pf : Profile) (target : Str) (bytes : List U8) (hlen : bytes.length ≤ 2 ^ 61) {w : Option BitcodeWrapper}
    {b : Bitstream} (hb : Bitstream.from pf bytes = .ok (w, b)) {tops : List (BBlock × Forest)} (hd : Delivers pf b (completeEntries tops))
    {M : LlvmModule} {text : List U8} {producer : Str} {epoch : U64} (hM : M.Allowed text) (hp : 2 ≤ (utf8 producer).length)
    (hF : M.FileOf text producer epoch tops) :
    ((∃ f, Bitcode.tryFrom pf target bytes = .ok f) ↔ M.Readable ∧ text.length ≠ 1 ∧ (text = [] → pf = .release)) ∧
    ∀ f, Bitcode.tryFrom pf target bytes = .ok f → ∃ m, f.modules = [m] ∧ m.identification = ⟨producer, epoch⟩ ∧ m.strtab.bytes = text ∧
      M.ReportedAs target m.module := by
  have iff (f : Bitcode) : Bitcode.tryFrom pf target bytes = .ok f ↔ FileSays pf target tops f := by
    rw [C51_bytes pf target bytes hlen f]
    constructor
    · rintro ⟨w', b', tops', hb', hd', he⟩
      rw [hb] at hb'; cases hb'
      have := (entries_unique (T := tops) (T' := tops') (P := []) (P' := []) (by rw [delivers_unique hd hd'])).1
      subst this
      exact he
    · intro he
      exact ⟨w, b, tops, hb, hd, he⟩
  simp only [iff]
  exact file_read pf target hM hp hF

/-- C97 for files that are written: the contents decide, however they are encoded. -/
theorem C97_written_partial (pf : Profile) (target : Str) {magic : U32} {its : Items} {bytes : List U8} {es : List Entry}
    (h : streamBytes magic its = some (bytes, es)) (hm : magic ≠ 0x0B17C0DE) (hlen : bytes.length ≤ 2 ^ 61)
    {M : LlvmModule} {text : List U8} {producer : Str} {epoch : U64} (hM : M.Allowed text) (hp : 2 ≤ (utf8 producer).length)
    (hF : M.FileOf text producer epoch (its.tree false).tops) :
    ((∃ f, Bitcode.tryFrom pf target bytes = .ok f) ↔ M.Readable ∧ text.length ≠ 1 ∧ (text = [] → pf = .release)) ∧
    ∀ f, Bitcode.tryFrom pf target bytes = .ok f → ∃ m, f.modules = [m] ∧ m.identification = ⟨producer, epoch⟩ ∧ m.strtab.bytes = text ∧
      M.ReportedAs target m.module := by
  simp only [C69_maps pf target h hm hlen]
  exact file_read pf target hM hp hF

/-- C97 fails for every module that defines a function: LLVM writes a block for the body, and a file with such a block does not map. -/
theorem C97_definitions (pf : Profile) (target : Str) {magic : U32} {its : Items} {bytes : List U8} {es : List Entry}
    (h : streamBytes magic its = some (bytes, es)) (hm : magic ≠ 0x0B17C0DE) (hlen : bytes.length ≤ 2 ^ 61)
    {M : LlvmModule} {text : List U8} {producer : Str} {epoch : U64} (hM : M.Allowed text) (hp : 2 ≤ (utf8 producer).length)
    (hF : M.FileOf text producer epoch (its.tree false).tops) {f : LlvmFunction × Nat} (hf : f ∈ M.functions) (hd : f.1.isDeclaration = false)
    (x : Bitcode) : Bitcode.tryFrom pf target bytes ≠ .ok x := by
  intro hx
  have h1 := ((C97_written_partial pf target h hm hlen hM hp hF).1.1 ⟨x, hx⟩).1
  have h2 := (h1.functions f hf).1
  rw [hd] at h2
  cases h2

end Verif
