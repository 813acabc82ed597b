import Verif.Mapper.LlvmAttrSpec
import Verif.Props.Attributes
import Verif.Props.Costs

/-! C95: attribute groups as LLVM writes them. -/

namespace Verif
open Spec

theorem asInt_exists (id v : U64) : (∃ a, AsInt a id.toNat v.toNat) ↔ (LlvmAttr.int id v).Readable := by
  simp only [LlvmAttr.Readable, List.mem_cons, List.not_mem_nil, or_false]
  generalize hi : id.toNat = i
  constructor
  · rintro ⟨a, h⟩
    generalize hn : v.toNat = n at h
    cases h <;> first | omega | (right; right; left; exact ⟨rfl, by omega⟩)
  · have hv := v.isLt
    have al : v.toNat ≤ 64 → v.toNat = 0 ∨ ∃ a : Align, a.shift.toNat ≤ 63 ∧ v.toNat = a.shift.toNat + 1 := by
      intro h
      by_cases h0 : v.toNat = 0
      · exact .inl h0
      · refine .inr ⟨⟨BitVec.ofNat 8 (v.toNat - 1)⟩, ?_, ?_⟩ <;> simp only [BitVec.toNat_ofNat] <;> omega
    rintro (⟨h1, h2⟩ | ⟨h1, h2⟩ | ⟨h1, h2⟩ | h)
    · rcases h1 with h1 | h1 <;> subst h1 <;> rcases al h2 with h0 | ⟨a, h0, h3⟩
      · rw [h0]; exact ⟨_, .alignNone⟩
      · rw [h3]; exact ⟨_, .align h0⟩
      · rw [h0]; exact ⟨_, .stackAlignNone⟩
      · rw [h3]; exact ⟨_, .stackAlign h0⟩
    · subst h1
      have : v.toNat = 0 ∨ v.toNat = 1 ∨ v.toNat = 2 := by omega
      rcases this with h | h | h <;> rw [h]
      · exact ⟨_, .uwTableNone⟩
      · exact ⟨_, .uwTableSync⟩
      · exact ⟨_, .uwTableAsync⟩
    · subst h1
      have he : (BitVec.ofNat 32 (v.toNat / 2 ^ 32)).toNat = v.toNat / 2 ^ 32 := by simp only [BitVec.toNat_ofNat]; omega
      have hn : (BitVec.ofNat 32 (v.toNat % 2 ^ 32)).toNat = v.toNat % 2 ^ 32 := by simp only [BitVec.toNat_ofNat]; omega
      by_cases h3 : v.toNat % 2 ^ 32 = 2 ^ 32 - 1
      · have : v.toNat = (BitVec.ofNat 32 (v.toNat / 2 ^ 32)).toNat * 2 ^ 32 + (2 ^ 32 - 1) := by rw [he]; omega
        rw [this]; exact ⟨_, .allocSizeOne _⟩
      · have : v.toNat = (BitVec.ofNat 32 (v.toNat / 2 ^ 32)).toNat * 2 ^ 32 + (BitVec.ofNat 32 (v.toNat % 2 ^ 32)).toNat := by
          rw [he, hn]; omega
        rw [this]; exact ⟨_, .allocSize _ _ (by rw [hn]; exact h3) (by rw [he, hn]; omega)⟩
    · rcases h with h | h | h | h | h <;> subst h
      · exact ⟨_, .dereferenceable v⟩
      · exact ⟨_, .dereferenceableOrNull v⟩
      · have he : (BitVec.ofNat 32 (v.toNat / 2 ^ 32)).toNat = v.toNat / 2 ^ 32 := by simp only [BitVec.toNat_ofNat]; omega
        have hn : (BitVec.ofNat 32 (v.toNat % 2 ^ 32)).toNat = v.toNat % 2 ^ 32 := by simp only [BitVec.toNat_ofNat]; omega
        by_cases h3 : v.toNat % 2 ^ 32 = 0
        · have : v.toNat = (BitVec.ofNat 32 (v.toNat / 2 ^ 32)).toNat * 2 ^ 32 := by rw [he]; omega
          rw [this]; exact ⟨_, .vScaleRangeOne _⟩
        · have : v.toNat = (BitVec.ofNat 32 (v.toNat / 2 ^ 32)).toNat * 2 ^ 32 + (BitVec.ofNat 32 (v.toNat % 2 ^ 32)).toNat := by
            rw [he, hn]; omega
          rw [this]; exact ⟨_, .vScaleRange _ _ (by rw [hn]; exact h3)⟩
      · exact ⟨_, .allocKind v⟩
      · exact ⟨_, .memory v⟩

theorem sameAttr_exists {a : LlvmAttr} (ha : a.Allowed) : (∃ x, SameAttr a x) ↔ a.Readable := by
  constructor
  · rintro ⟨x, h⟩
    cases a <;> cases x <;> first | exact h.elim | skip
    · exact ⟨_, h⟩
    · exact (asInt_exists _ _).1 ⟨_, h⟩
    · exact ⟨h.1, _, h.2⟩
    · exact ⟨⟨h.1, _, h.2.1⟩, ha.2.2, _, h.2.2⟩
  · intro h
    cases a with
    | enum id => obtain ⟨a, h⟩ := h; exact ⟨.enum a, h⟩
    | int id v => obtain ⟨a, h⟩ := (asInt_exists id v).2 h; exact ⟨.int a, h⟩
    | str k => obtain ⟨h1, s, h2⟩ := h; exact ⟨.str s, h1, h2⟩
    | keyValue k v => obtain ⟨⟨h1, s, h2⟩, -, t, h3⟩ := h; exact ⟨.strKeyValue s t, h1, h2, h3⟩
    | type _ _ => exact h.elim

/-- Strings end at their NUL. -/
theorem nul_split {p q : List U8} {r r' : List U64} (hp : (0 : U8) ∉ p) (hq : (0 : U8) ∉ q)
    (h : p.map (BitVec.setWidth 64) ++ 0 :: r = q.map (BitVec.setWidth 64) ++ 0 :: r') : p = q ∧ r = r' := by
  have inj : ∀ x y : U8, x.setWidth 64 = y.setWidth 64 → x = y := fun x y e => by
    have := congrArg BitVec.toNat e
    simp only [BitVec.toNat_setWidth] at this
    apply BitVec.eq_of_toNat_eq
    have := x.isLt; have := y.isLt
    omega
  induction p generalizing q with
  | nil =>
    cases q with
    | nil => simp only [List.map_nil, List.nil_append, List.cons.injEq] at h; exact ⟨rfl, h.2⟩
    | cons y q =>
      simp only [List.map_nil, List.nil_append, List.map_cons, List.cons_append, List.cons.injEq] at h
      exact absurd (inj 0 y h.1) (fun e => hq (by simp [e]))
  | cons x p ih =>
    cases q with
    | nil =>
      simp only [List.map_nil, List.nil_append, List.map_cons, List.cons_append, List.cons.injEq] at h
      exact absurd (inj x 0 h.1) (fun e => hp (by simp [e]))
    | cons y q =>
      simp only [List.map_cons, List.cons_append, List.cons.injEq] at h
      obtain ⟨rfl, rfl⟩ := ih (fun h => hp (.tail _ h)) (fun h => hq (.tail _ h)) h.2
      exact ⟨by rw [inj x y h.1], rfl⟩

/-- Fields that begin with an attribute as LLVM writes it begin with that attribute. -/
theorem written_same {a : LlvmAttr} (ha : a.Allowed) {x : Attribute} {fs r r' : List U64} (hx : AttrWritten x fs)
    (h : fs ++ r = a.fields ++ r') : SameAttr a x ∧ r = r' := by
  cases hx with
  | enum h1 =>
    cases a with
    | enum id => simp only [LlvmAttr.fields, List.cons_append, List.nil_append, List.cons.injEq] at h; exact ⟨h.2.1 ▸ h1, h.2.2⟩
    | type id t => cases t <;> simp [LlvmAttr.fields] at h
    | _ => simp [LlvmAttr.fields] at h
  | int h1 =>
    cases a with
    | int id v =>
      simp only [LlvmAttr.fields, List.cons_append, List.nil_append, List.cons.injEq] at h
      obtain ⟨-, rfl, rfl, rfl⟩ := h
      exact ⟨h1, rfl⟩
    | type id t => cases t <;> simp [LlvmAttr.fields] at h
    | _ => simp [LlvmAttr.fields] at h
  | str h1 =>
    cases a with
    | str k =>
      simp only [LlvmAttr.fields, llvmString, strFields, List.cons_append, List.nil_append, List.append_assoc, List.cons.injEq, true_and] at h
      obtain ⟨rfl, rfl⟩ := nul_split h1.2 ha h
      exact ⟨⟨utf8_ne_nil h1.1, rfl⟩, rfl⟩
    | type id t => cases t <;> simp [LlvmAttr.fields] at h
    | _ => simp [LlvmAttr.fields] at h
  | strKeyValue h1 h2 =>
    cases a with
    | keyValue k v =>
      simp only [LlvmAttr.fields, llvmString, strFields, List.cons_append, List.nil_append, List.append_assoc, List.cons.injEq, true_and] at h
      obtain ⟨rfl, h3⟩ := nul_split h1.2 ha.1 h
      obtain ⟨rfl, rfl⟩ := nul_split h2.2 ha.2.1 h3
      exact ⟨⟨utf8_ne_nil h1.1, rfl, rfl⟩, rfl⟩
    | type id t => cases t <;> simp [LlvmAttr.fields] at h
    | _ => simp [LlvmAttr.fields] at h

theorem same_written {a : LlvmAttr} (ha : a.Allowed) {x : Attribute} (h : SameAttr a x) : AttrWritten x a.fields := by
  have ne {k : Str} {s : List U8} (h : utf8 k = s) (hs : s ≠ []) : k ≠ [] := by rintro rfl; exact hs h.symm
  cases a <;> cases x <;> first | exact h.elim | skip
  · exact .enum h
  · exact .int h
  · obtain ⟨h1, rfl⟩ := h
    exact .str ⟨ne rfl h1, ha⟩
  · obtain ⟨h1, rfl, rfl⟩ := h
    simp only [LlvmAttr.fields, llvmString, List.append_assoc, List.cons_append, List.nil_append]
    exact .strKeyValue ⟨ne rfl h1, ha.1⟩ ⟨ne rfl ha.2.2, ha.2.1⟩

theorem fields_ne_nil (a : LlvmAttr) : 0 < a.fields.length := by
  cases a with
  | type id t => cases t <;> simp [LlvmAttr.fields]
  | _ => simp [LlvmAttr.fields]

theorem attrs_same {attrs : List LlvmAttr} (ha : ∀ a ∈ attrs, a.Allowed) {l : List (Attribute × List U64)} (hl : AllAttrs l)
    (h : l.flatMap (·.2) = attrs.flatMap LlvmAttr.fields) : Each SameAttr attrs (l.map (·.1)) := by
  induction attrs generalizing l with
  | nil =>
    cases l with
    | nil => exact each_nil_left.2 rfl
    | cons x l =>
      have := (hl x (by simp)).length_pos
      have h := congrArg List.length h
      simp only [List.flatMap_cons, List.length_append, List.flatMap_nil, List.length_nil] at h
      omega
  | cons a attrs ih =>
    cases l with
    | nil =>
      have := fields_ne_nil a
      have h := congrArg List.length h
      simp only [List.flatMap_cons, List.length_append, List.flatMap_nil, List.length_nil] at h
      omega
    | cons x l =>
      simp only [List.flatMap_cons] at h
      obtain ⟨h1, h2⟩ := written_same (ha a (by simp)) (hl x (by simp)) h
      exact each_cons.2 ⟨h1, ih (fun a h => ha a (by simp [h])) (fun y h => hl y (by simp [h])) h2⟩

theorem same_attrs {attrs : List LlvmAttr} (ha : ∀ a ∈ attrs, a.Allowed) {xs : List Attribute} (h : Each SameAttr attrs xs) :
    ∃ l, AllAttrs l ∧ l.map (·.1) = xs ∧ l.flatMap (·.2) = attrs.flatMap LlvmAttr.fields := by
  induction attrs generalizing xs with
  | nil => rw [each_nil_left] at h; subst h; exact ⟨[], (by intro x hx; cases hx), rfl, rfl⟩
  | cons a attrs ih =>
    obtain ⟨x, xs, rfl, h1, h2⟩ := each_cons_left.1 h
    obtain ⟨l, g1, g2, g3⟩ := ih (fun a h => ha a (by simp [h])) h2
    refine ⟨(x, a.fields) :: l, ?_, by simp [g2], by simp [g3]⟩
    intro y hy
    rcases List.mem_cons.1 hy with rfl | hy
    · exact same_written (ha a (by simp)) h1
    · exact g1 y hy

/-- The record of a group as LLVM writes it is that of the same group. -/
theorem isAttrGroup_iff {g : LlvmGroup} (hg : g.Allowed) (id param : U64) (xs : List Attribute) :
    IsAttrGroup g.toRecord id param xs ↔ id = g.id.setWidth 64 ∧ param = g.param.setWidth 64 ∧ Each SameAttr g.attrs xs := by
  constructor
  · rintro ⟨-, l, h1, rfl, -, h2⟩
    simp only [LlvmGroup.toRecord, List.cons.injEq] at h2
    exact ⟨h2.1.symm, h2.2.1.symm, attrs_same hg.2 h1 h2.2.2.symm⟩
  · rintro ⟨rfl, rfl, h⟩
    obtain ⟨l, h1, h2, h3⟩ := same_attrs hg.2 h
    refine ⟨rfl, l, h1, h2, ?_, by rw [h3]; rfl⟩
    rintro rfl
    exact hg.1 (List.length_eq_zero_iff.1 h.1.symm)

theorem each_some {α β : Type} {P : α → β → Prop} {l : List α} : (∃ m, Each P l m) ↔ ∀ a ∈ l, ∃ b, P a b := by
  induction l with
  | nil => exact ⟨fun _ a h => (by cases h), fun _ => ⟨[], each_nil_left.2 rfl⟩⟩
  | cons a l ih =>
    constructor
    · rintro ⟨m, h⟩
      obtain ⟨b, m, rfl, h1, h2⟩ := each_cons_left.1 h
      intro a' h'
      rcases List.mem_cons.1 h' with rfl | h'
      · exact ⟨b, h1⟩
      · exact ih.1 ⟨m, h2⟩ a' h'
    · intro h
      obtain ⟨b, hb⟩ := h a (by simp)
      obtain ⟨m, hm⟩ := ih.2 fun a h' => h a (by simp [h'])
      exact ⟨b :: m, each_cons.2 ⟨hb, hm⟩⟩

theorem attrs_exists {g : LlvmGroup} (hg : g.Allowed) : (∃ xs, Each SameAttr g.attrs xs) ↔ ∀ a ∈ g.attrs, a.Readable := by
  rw [each_some]
  exact ⟨fun h a ha => (sameAttr_exists (hg.2 a ha)).1 (h a ha), fun h a ha => (sameAttr_exists (hg.2 a ha)).2 (h a ha)⟩

/-- The groups that the records define, before they are put into the table. -/
def Written (g : LlvmGroup) (g' : U64 × U64 × List Attribute) : Prop :=
  g'.1 = g.id.setWidth 64 ∧ g'.2.1 = g.param.setWidth 64 ∧ Each SameAttr g.attrs g'.2.2

theorem attrGroups_iff {gs : List LlvmGroup} (hg : ∀ g ∈ gs, g.Allowed) (gs' : List (U64 × U64 × List Attribute)) :
    AttrGroups (gs.map LlvmGroup.toRecord) gs' ↔ Each Written gs gs' := by
  unfold AttrGroups Each
  rw [List.length_map]
  constructor
  · rintro ⟨h1, h2⟩
    refine ⟨h1.symm, fun i g g' e e' => ?_⟩
    exact (isAttrGroup_iff (hg g (List.mem_of_getElem? e)) _ _ _).1 (h2 i _ g' (by rw [List.getElem?_map, e]; rfl) e')
  · rintro ⟨h1, h2⟩
    refine ⟨h1.symm, fun i r g' e e' => ?_⟩
    rw [List.getElem?_map, Option.map_eq_some_iff] at e
    obtain ⟨g, e, rfl⟩ := e
    exact (isAttrGroup_iff (hg g (List.mem_of_getElem? e)) _ _ _).2 (h2 i g g' e e')

theorem lastGroup_iff {gs : List LlvmGroup} (hg : ∀ g ∈ gs, g.Allowed) (hn : (gs.map (·.id)).Nodup)
    {gs' : List (U64 × U64 × List Attribute)} (h : Each Written gs gs') (id : U32) (x : AttributeGroup) :
    lastGroup gs' id = some x ↔ ∃ g ∈ gs, g.id = id ∧ SameGroup g x := by
  have id32 : ∀ g g', Written g g' → g'.1.toNat % 2 ^ 32 = g.id.toNat := fun g g' h => by
    rw [h.1, BitVec.toNat_setWidth]
    have := g.id.isLt
    omega
  have param32 : ∀ g g', Written g g' → g'.2.1.toNat % 2 ^ 32 = g.param.toNat := fun g g' h => by
    rw [h.2.1, BitVec.toNat_setWidth]
    have := g.param.isLt
    omega
  have of : ∀ g' ∈ gs', ∃ g i, gs[i]? = some g ∧ gs'[i]? = some g' ∧ Written g g' := fun g' hg' => by
    obtain ⟨i, hi⟩ := List.mem_iff_getElem?.1 hg'
    have hlt : i < gs.length := by have := (List.getElem?_eq_some_iff.1 hi).1; have := h.1; omega
    exact ⟨gs[i], i, List.getElem?_eq_getElem hlt, hi, h.2 i _ _ (List.getElem?_eq_getElem hlt) hi⟩
  unfold lastGroup
  rw [Option.map_eq_some_iff]
  constructor
  · rintro ⟨g', h1, rfl⟩
    have h2 := List.find?_some h1
    obtain ⟨g, i, e1, e2, hw⟩ := of g' (List.mem_reverse.1 (List.mem_of_find?_eq_some h1))
    rw [decide_eq_true_eq, id32 g g' hw] at h2
    exact ⟨g, List.mem_of_getElem? e1, BitVec.eq_of_toNat_eq h2, by rw [param32 g g' hw], hw.2.2⟩
  · rintro ⟨g, hm, rfl, hd, hs⟩
    obtain ⟨i, hi⟩ := List.mem_iff_getElem?.1 hm
    have hlt : i < gs'.length := by have := (List.getElem?_eq_some_iff.1 hi).1; have := h.1; omega
    have hw := h.2 i g _ hi (List.getElem?_eq_getElem hlt)
    obtain ⟨g'', h1⟩ : ∃ g'', gs'.reverse.find? (fun g' => decide (g'.1.toNat % 2 ^ 32 = g.id.toNat)) = some g'' := by
      rw [← Option.isSome_iff_exists, List.find?_isSome]
      exact ⟨gs'[i], by simp, by simp only [decide_eq_true_eq]; exact id32 g _ hw⟩
    refine ⟨g'', h1, ?_⟩
    obtain ⟨g2, j, e1, e2, hw2⟩ := of g'' (List.mem_reverse.1 (List.mem_of_find?_eq_some h1))
    have h2 := List.find?_some h1
    rw [decide_eq_true_eq, id32 g2 g'' hw2] at h2
    have hij : i = j := by
      refine (List.getElem?_inj ?_ hn).1 ?_
      · rw [List.length_map]; exact (List.getElem?_eq_some_iff.1 hi).1
      · rw [List.getElem?_map, List.getElem?_map, hi, e1]
        simp only [Option.map_some, Option.some.injEq]
        exact (BitVec.eq_of_toNat_eq h2).symm
    subst hij
    rw [hi] at e1; cases e1
    have u := C43_unique g.toRecord _ _ _ _ _ _ ((isAttrGroup_iff (hg g hm) _ _ _).2 ⟨rfl, rfl, hw2.2.2⟩)
      ((isAttrGroup_iff (hg g hm) _ _ _).2 ⟨rfl, rfl, hs⟩)
    cases x with | mk d as =>
    simp only at hd
    rw [hd, param32 g g'' hw2, u.2.2]

/-- C95. A block of groups with different numbers, as LLVM writes them, maps if and only if all attributes are `Readable`; and then the table has
exactly those groups, each under its number, for what it belongs to and with its attributes, in order. Missing: the attributes that are not
`Readable`, see `C95_groups_refuted`. -/
theorem C95_groups_partial (b : UBlock) (gs : List LlvmGroup) (hg : ∀ g ∈ gs, g.Allowed) (hn : (gs.map (·.id)).Nodup)
    (hb : b.records = gs.map LlvmGroup.toRecord) :
    ((∃ t, AttributeGroups.tryFrom b = .ok t) ↔ ∀ g ∈ gs, ∀ a ∈ g.attrs, a.Readable) ∧
      ∀ t, AttributeGroups.tryFrom b = .ok t → ∀ id x, t.get id = some x ↔ ∃ g ∈ gs, g.id = id ∧ SameGroup g x := by
  refine ⟨⟨?_, fun h => ?_⟩, fun t ht id x => ?_⟩
  · rintro ⟨t, ht⟩
    obtain ⟨gs', h1, -⟩ := (C43_exact b t).1 ht
    rw [hb, attrGroups_iff hg] at h1
    intro g hm
    obtain ⟨g', hw⟩ := each_some.1 ⟨gs', h1⟩ g hm
    exact (attrs_exists (hg g hm)).1 ⟨_, hw.2.2⟩
  · obtain ⟨gs', h1⟩ : ∃ gs', Each Written gs gs' := each_some.2 fun g hm => by
      obtain ⟨xs, h1⟩ := (attrs_exists (hg g hm)).2 (h g hm)
      exact ⟨(_, _, xs), rfl, rfl, h1⟩
    rw [← attrGroups_iff hg, ← hb] at h1
    obtain ⟨t, h2, -⟩ := foldl_groups (g0 := []) .nil h1
    exact ⟨t, h2⟩
  · obtain ⟨gs', h1, h2, h3⟩ := (C43_exact b t).1 ht
    rw [get_iff h2, h3]
    rw [hb, attrGroups_iff hg] at h1
    exact lastGroup_iff hg hn h1 id x

/-- C95 is false of the code: a block does not map if a group in it has an attribute with a type, or `align` or `alignstack` of more than 64 bytes. -/
theorem C95_groups_refuted (b : UBlock) (gs : List LlvmGroup) (hg : ∀ g ∈ gs, g.Allowed) (hn : (gs.map (·.id)).Nodup)
    (hb : b.records = gs.map LlvmGroup.toRecord) {g : LlvmGroup} {a : LlvmAttr} (hm : g ∈ gs) (ha : a ∈ g.attrs)
    (hu : (∃ id t, a = .type id t) ∨ ∃ bytes id v, 64 < bytes ∧ (Packs (.align bytes) id.toNat v.toNat ∨
      Packs (.alignStack bytes) id.toNat v.toNat) ∧ a = .int id v) (t : AttributeGroups) : AttributeGroups.tryFrom b ≠ .ok t := by
  intro h
  have hr := (C95_groups_partial b gs hg hn hb).1.1 ⟨t, h⟩ g hm a ha
  rcases hu with ⟨id, t, rfl⟩ | ⟨bytes, id, v, h1, h2, rfl⟩
  · exact hr
  · simp only [LlvmAttr.Readable, List.mem_cons, List.not_mem_nil, or_false] at hr
    generalize id.toNat = i, v.toNat = n at h2 hr
    rcases h2 with h2 | h2 <;> cases h2 <;> omega

/-- `noundef "frame-pointer"="all" dereferenceable(24)` for the first parameter, and `"k" nounwind` for the function. -/
def exGroups : List LlvmGroup :=
  [⟨1, 1, [.enum 68, .keyValue (utf8 "frame-pointer".toList) (utf8 "all".toList), .int 41 24]⟩,
    ⟨2, 0xffffffff, [.str (utf8 "k".toList), .enum 18]⟩]

theorem exGroups_allowed : (∀ g ∈ exGroups, g.Allowed) ∧ (exGroups.map (·.id)).Nodup := by
  refine ⟨?_, by decide +kernel⟩
  intro g hg
  simp only [exGroups, List.mem_cons, List.not_mem_nil, or_false] at hg
  rcases hg with rfl | rfl
  · refine ⟨by simp, fun a ha => ?_⟩
    simp only [List.mem_cons, List.not_mem_nil, or_false] at ha
    rcases ha with rfl | rfl | rfl
    · trivial
    · exact ⟨by decide +kernel, by decide +kernel, by decide +kernel⟩
    · trivial
  · refine ⟨by simp, fun a ha => ?_⟩
    simp only [List.mem_cons, List.not_mem_nil, or_false] at ha
    rcases ha with rfl | rfl
    · exact (by decide +kernel : (0 : U8) ∉ utf8 "k".toList)
    · trivial

theorem exGroups_readable : ∀ g ∈ exGroups, ∀ a ∈ g.attrs, a.Readable := by
  intro g hg a ha
  simp only [exGroups, List.mem_cons, List.not_mem_nil, or_false] at hg
  rcases hg with rfl | rfl <;> simp only [List.mem_cons, List.not_mem_nil, or_false] at ha
  · rcases ha with rfl | rfl | rfl
    · exact ⟨.noUndef, by decide +kernel⟩
    · exact ⟨⟨by decide +kernel, _, rfl⟩, by decide +kernel, _, rfl⟩
    · exact .inr (.inr (.inr (by decide)))
  · rcases ha with rfl | rfl
    · exact ⟨by decide +kernel, _, rfl⟩
    · exact ⟨.noUnwind, by decide +kernel⟩

example : AttributeGroups.tryFrom (.mk (.ir .paramAttrGroup) (exGroups.map LlvmGroup.toRecord) []) = .ok
    [(1, ⟨.parameter 1, [.enum .noUndef, .strKeyValue "frame-pointer".toList "all".toList, .int (.dereferenceable 24)]⟩),
      (2, ⟨.function, [.str ['k'], .enum .noUnwind]⟩)] := by decide +kernel

/-- `sret(T)` for the first parameter, and `align 128`: groups that LLVM allows and that do not map. -/
example : ∀ a ∈ [LlvmAttr.type 29 (some 0), .int 1 128], (∀ g ∈ [(⟨1, 1, [a]⟩ : LlvmGroup)], g.Allowed) ∧
    ∀ t, AttributeGroups.tryFrom (.mk (.ir .paramAttrGroup) [(⟨1, 1, [a]⟩ : LlvmGroup).toRecord] []) ≠ .ok t := by
  intro a ha
  have hg : ∀ g ∈ [(⟨1, 1, [a]⟩ : LlvmGroup)], g.Allowed := by
    intro g hg
    rw [List.mem_singleton.1 hg]
    refine ⟨by simp, fun a' h => ?_⟩
    rw [List.mem_singleton.1 h]
    simp only [List.mem_cons, List.not_mem_nil, or_false] at ha
    rcases ha with rfl | rfl <;> trivial
  refine ⟨hg, C95_groups_refuted _ [⟨1, 1, [a]⟩] hg (by simp) rfl (.head _) (.head _) ?_⟩
  simp only [List.mem_cons, List.not_mem_nil, or_false] at ha
  rcases ha with rfl | rfl
  · exact .inl ⟨_, _, rfl⟩
  · exact .inr ⟨128, 1, 128, by decide, .inl (.align (k := 7) (by decide)), rfl⟩

/-! ## Files -/

theorem groups_readable {rs : List BRecord} {t : AttributeGroups} (h : GroupsSay rs t) {r : BRecord} (hr : r ∈ rs) {g : LlvmGroup}
    (hg : g.Allowed) (hf : r.fields = g.toRecord.fields) : ∀ a ∈ g.attrs, a.Readable := by
  obtain ⟨gs', ⟨hl, h1⟩, -⟩ := h
  obtain ⟨i, hi⟩ := List.mem_iff_getElem?.1 hr
  have hlt : i < gs'.length := by have := (List.getElem?_eq_some_iff.1 hi).1; omega
  obtain ⟨-, l, g1, g2, g3, g4⟩ := h1 i r _ hi (List.getElem?_eq_getElem hlt)
  rw [hf] at g4
  exact (attrs_exists hg).1 ⟨_, ((isAttrGroup_iff hg _ _ _).1 ⟨rfl, l, g1, g2, g3, g4⟩).2.2⟩

theorem says_readable {pf : Profile} {target : Str} {tops : List (BBlock × Forest)} {m : Bitcode} (h : FileSays pf target tops m)
    {p : Parts (BBlock × Forest)} {c d : BBlock × Forest} {r : BRecord} {g : LlvmGroup} (hp : p ∈ parts tops) (hc : p.module = some c)
    (hd : d ∈ c.2.withId 10) (hr : r ∈ d.2.records) (hg : g.Allowed) (hf : r.fields = g.toRecord.fields) : ∀ a ∈ g.attrs, a.Readable := by
  obtain ⟨k, hk⟩ := List.mem_iff_getElem?.1 hp
  obtain ⟨hl, he⟩ := h.2
  have hlt : k < m.modules.length := by have := (List.getElem?_eq_some_iff.1 hk).1; omega
  obtain ⟨c', ctx, fs, as, hc', hm⟩ := (he k p _ hk (List.getElem?_eq_getElem hlt)).module
  rw [hc] at hc'; cases hc'
  have ho := hm.tables.groups
  generalize c.2.withId 10 = l at ho hd
  generalize ctx.attributeGroups = t at ho
  cases ho with
  | absent => cases hd
  | present h' =>
    rw [List.mem_singleton] at hd
    subst hd
    exact groups_readable h' hr hg hf

/-- C95, files. A file does not map if a module in it has a group that LLVM allows with an attribute that is not `Readable`, such as one with a
type. -/
theorem C95_files (pf : Profile) (target : Str) (bytes : List U8) (hlen : bytes.length ≤ 2 ^ 61) {w : Option BitcodeWrapper}
    {b : Bitstream} (hb : Bitstream.from pf bytes = .ok (w, b)) {tops : List (BBlock × Forest)}
    (hd : Delivers pf b (completeEntries tops)) {p : Parts (BBlock × Forest)} {c d : BBlock × Forest} {r : BRecord} {g : LlvmGroup}
    {a : LlvmAttr} (hp : p ∈ parts tops) (hc : p.module = some c) (hd10 : d ∈ c.2.withId 10) (hr : r ∈ d.2.records) (hg : g.Allowed)
    (hf : r.fields = g.toRecord.fields) (ha : a ∈ g.attrs) (hu : ¬ a.Readable) (m : Bitcode) : Bitcode.tryFrom pf target bytes ≠ .ok m := by
  intro h
  obtain ⟨w', b', tops', hb', hd', hs⟩ := (C51_bytes pf target bytes hlen m).1 h
  rw [hb] at hb'; cases hb'
  have := (entries_unique (T := tops) (T' := tops') (P := []) (P' := []) (by rw [delivers_unique hd hd'])).1
  subst this
  exact hu (says_readable hs hp hc hd10 hr hg hf a ha)

/-- A module with attribute groups and nothing else. -/
def groupsModule (gs : List LlvmGroup) : Tree :=
  .record 1 [2] (.block 10 (recTree (gs.map LlvmGroup.toRecord)) (.block 17 (.record 1 [0] .nil) (.block 14 .nil .nil)))

/-- A file with one such module. -/
def groupsFile (gs : List LlvmGroup) : Tree :=
  .block 13 (.record 1 [76, 76] (.record 2 [0] .nil)) (.block 8 (groupsModule gs) (.block 23 (.record 1 [97, 97] .nil) .nil))

/-- How many fields the groups have. -/
def groupsFields (gs : List LlvmGroup) : Nat := (gs.map fun g => g.toRecord.fields.length + 3).sum

theorem groupsFile_fine (gs : List LlvmGroup) : (groupsFile gs).OnlyBlocks ∧ (groupsFile gs).NoInfo ∧
    (groupsFile gs).weight = groupsFields gs + 40 := by
  refine ⟨by simp [groupsFile, Tree.OnlyBlocks], by simp [groupsFile, groupsModule, Tree.NoInfo, recTree_noInfo], ?_⟩
  simp only [groupsFile, groupsModule, Tree.weight, List.length_cons, List.length_nil, recTree_weight, List.map_map, groupsFields]
  simp only [Function.comp_def]
  omega

theorem groupsModule_says {pf : Profile} (target : Str) (strtab : Strtab) {gs : List LlvmGroup} {t : AttributeGroups}
    (h : GroupsSay (gs.map LlvmGroup.toRecord) t) :
    ModuleSays pf target strtab (groupsModule gs).forest ⟨target, [], []⟩ { hxCtx [] with strtab, attributeGroups := t } [] [] where
  tables := {
    version := ⟨⟨none, 1, [2]⟩, [], rfl, rfl⟩
    datalayout := .absent
    sections := each_nil_left.2 rfl
    gcs := each_nil_left.2 rfl
    strtab := rfl
    types := ⟨(⟨17, 0⟩, .record ⟨none, 1, [0]⟩ .nil), rfl,
      (C40_exact pf (.mk (.ir .type) [⟨none, 1, [0]⟩] []) []).1 (by cases pf <;> decide +kernel)⟩
    symbols := ⟨_, rfl⟩
    groups := by
      refine Optionally.present (a := ((⟨10, 0⟩, (recTree (gs.map LlvmGroup.toRecord)).forest) : BBlock × Forest)) (b := t) ?_
      rw [recTree_forest]
      · exact h
      · intro r hr
        obtain ⟨g, -, rfl⟩ := List.mem_map.1 hr
        rfl
    attributes := .absent
    comdats := each_nil_left.2 rfl }
  triple := .absent
  asm := .absent
  deplibs := each_nil_left.2 rfl
  functions := each_nil_left.2 rfl
  noBodies := rfl
  aliases := each_nil_left.2 rfl

theorem groupsFile_order (gs : List LlvmGroup) : InOrder (groupsFile gs).tops := by
  intro pre c post h
  simp only [groupsFile, Tree.tops, Tree.forest, Forest.blocks] at h
  match pre, h with
  | [], h => simp only [List.nil_append, List.cons.injEq] at h; rw [← h.1]; exact .inl (by simp)
  | [a], h =>
    simp only [List.cons_append, List.nil_append, List.cons.injEq] at h
    obtain ⟨rfl, rfl, -⟩ := h
    exact .inr ⟨rfl, [], _, [], rfl, rfl, by simp⟩
  | [a, a'], h =>
    simp only [List.cons_append, List.nil_append, List.cons.injEq] at h
    obtain ⟨rfl, rfl, rfl, -⟩ := h
    exact .inl (by simp)
  | a :: a' :: a'' :: pre, h =>
    simp at h

/-- C95, files: whatever groups LLVM allows, the file with one module that has them maps if and only if all attributes are `Readable`. -/
theorem C95_files_refuted (pf : Profile) (target : Str) (gs : List LlvmGroup) (hg : ∀ g ∈ gs, g.Allowed) (hn : (gs.map (·.id)).Nodup)
    (hl : groupsFields gs ≤ 2 ^ 29) :
    ∃ bytes es, streamBytes 0xdec04342 (groupsFile gs).items = some (bytes, es) ∧
      ((∃ m, Bitcode.tryFrom pf target bytes = .ok m) ↔ ∀ g ∈ gs, ∀ a ∈ g.attrs, a.Readable) := by
  obtain ⟨f1, f2, f3⟩ := groupsFile_fine gs
  obtain ⟨bytes, es, h1, h2, h3⟩ := C69_writes 0xdec04342 _ f1 f2 (by omega)
  have hf : (recTree (gs.map LlvmGroup.toRecord)).forest.records = gs.map LlvmGroup.toRecord := recTree_forest fun r hr => by
    obtain ⟨g, -, rfl⟩ := List.mem_map.1 hr
    rfl
  refine ⟨bytes, es, h1, ?_, ?_⟩
  · rintro ⟨m, h⟩ g hm
    rw [C69_maps pf target h1 (by decide) (by omega), h2] at h
    refine says_readable h (p := _) (c := (⟨8, 0⟩, (groupsModule gs).forest))
      (d := (⟨10, 0⟩, (recTree (gs.map LlvmGroup.toRecord)).forest)) (r := g.toRecord) (.head _) rfl (.head _) ?_ (hg g hm) rfl
    rw [hf]
    exact List.mem_map_of_mem hm
  · intro hu
    obtain ⟨t, ht⟩ := (C95_groups_partial (.mk (.ir .paramAttrGroup) (gs.map LlvmGroup.toRecord) []) gs hg hn rfl).1.2 hu
    refine ⟨⟨[sharedModule target [97, 97]]⟩, (C69_maps pf target h1 (by decide) (by omega) _).2 ?_⟩
    rw [h2]
    refine ⟨groupsFile_order _, ?_⟩
    have g1 : parts (groupsFile gs).tops =
        [{ identification := (⟨13, 0⟩, .record ⟨none, 1, [76, 76]⟩ (.record ⟨none, 2, [0]⟩ .nil))
           module := some (⟨8, 0⟩, (groupsModule gs).forest)
           strtab := some (⟨23, 0⟩, .record ⟨none, 1, [97, 97]⟩ .nil)
           symtab := none }] := rfl
    rw [g1, each_cons]
    exact ⟨⟨⟨⟨⟨none, 1, [76, 76]⟩, ⟨[], _, rfl, rfl, by simp⟩, rfl, by simp, by simp⟩,
        ⟨⟨none, 2, [0]⟩, [], ⟨[_], [], rfl, rfl, by simp⟩, rfl⟩⟩,
      ⟨_, rfl, ⟨none, 1, [97, 97]⟩, ⟨[], [], rfl, rfl, by simp⟩, rfl, by simp, fun h => by cases h⟩,
      ⟨_, _, [], [], rfl, groupsModule_says target ⟨[97, 97]⟩ ((C43_exact _ _).1 ht)⟩,
      .inl ⟨rfl, rfl⟩⟩, each_nil_left.2 rfl⟩

/-- The file with `exGroups` maps; that with `sret(T)` does not. -/
example (pf : Profile) (target : Str) :
    (∃ bytes es m, streamBytes 0xdec04342 (groupsFile exGroups).items = some (bytes, es) ∧ Bitcode.tryFrom pf target bytes = .ok m) ∧
    ∃ bytes es, streamBytes 0xdec04342 (groupsFile [⟨1, 1, [.type 29 (some 0)]⟩]).items = some (bytes, es) ∧
      ∀ m, Bitcode.tryFrom pf target bytes ≠ .ok m := by
  refine ⟨?_, ?_⟩
  · obtain ⟨bytes, es, h1, h2⟩ := C95_files_refuted pf target exGroups exGroups_allowed.1 exGroups_allowed.2 (by decide +kernel)
    obtain ⟨m, hm⟩ := h2.2 exGroups_readable
    exact ⟨bytes, es, m, h1, hm⟩
  · obtain ⟨bytes, es, h1, h2⟩ := C95_files_refuted pf target [⟨1, 1, [.type 29 (some 0)]⟩] (fun g hg => by
      rw [List.mem_singleton.1 hg]
      exact ⟨by simp, fun a ha => by rw [List.mem_singleton.1 ha]; trivial⟩) (by simp) (by decide +kernel)
    exact ⟨bytes, es, h1, fun m hm => h2.1 ⟨m, hm⟩ _ (.head _) _ (.head _)⟩

/-- A file with `sret(T)` meets the hypotheses of `C95_files`. -/
example : ∃ bytes w b tops p c d r g a, bytes.length ≤ 2 ^ 61 ∧ Bitstream.from .debug bytes = .ok (w, b) ∧
    Delivers .debug b (completeEntries tops) ∧ p ∈ parts tops ∧ p.module = some c ∧ d ∈ c.2.withId 10 ∧ r ∈ d.2.records ∧
    LlvmGroup.Allowed g ∧ r.fields = g.toRecord.fields ∧ a ∈ g.attrs ∧ ¬ a.Readable := by
  have key : (streamBytes 0xdec04342 (groupsFile [⟨1, 1, [.type 29 (some 0)]⟩]).items).map
      (fun x => (x.1.length, x.2.map Entry.toStream)) = some (92, completeEntries
        [(⟨13, 8⟩, .record ⟨none, 1, [76, 76]⟩ (.record ⟨none, 2, [0]⟩ .nil)),
          (⟨8, 48⟩, .record ⟨none, 1, [2]⟩ (.block ⟨10, 8⟩ (.record ⟨none, 3, [1, 1, 6, 29, 0]⟩ .nil) (.block ⟨17, 4⟩
            (.record ⟨none, 1, [0]⟩ .nil) (.block ⟨14, 4⟩ .nil .nil)))),
          (⟨23, 8⟩, .record ⟨none, 1, [97, 97]⟩ .nil)]) := by
    decide +kernel
  obtain ⟨⟨bytes, es⟩, h1, h2⟩ := Option.map_eq_some_iff.1 key
  simp only [Prod.mk.injEq] at h2
  obtain ⟨b, hb, -, hd⟩ := Props.C18_stream_roundtrip_from .debug h1 (by decide)
  rw [h2.2] at hd
  exact ⟨bytes, none, b, _, _, _, _, ⟨none, 3, [1, 1, 6, 29, 0]⟩, ⟨1, 1, [.type 29 (some 0)]⟩, .type 29 (some 0),
    by rw [h2.1]; decide, hb, hd, List.mem_cons_self, rfl, .head _, .head _,
    ⟨by simp, fun a ha => by rw [List.mem_singleton.1 ha]; trivial⟩, by decide +kernel, .head _, fun h => h⟩

end Verif
