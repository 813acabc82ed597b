import Verif.Mapper.TypeRecords

/-! What a type block maps to, exactly: C40 without conditions on the records. -/

namespace Verif

open Spec

theorem Spec.Adds.step (pf : Profile) (s : TypeTableState) {r : BRecord} {d : TyDecl} (h : Adds r d) :
    ∃ p, typeStep pf s r = .ok (s.add p) ∧ p.toDecl = d := by
  cases h with
  | says h => exact typeStep_says pf s h
  | @wide w rest hc hf =>
    refine ⟨.integer (w.setWidth 32), ?_, by simp [PType.toDecl]⟩
    unfold typeStep
    rw [typeCode_eq hc (c := .integer) (by decide), Out.ofOption_some, Out.ok_bind]
    simp [typeField_zero hf]

theorem last_struct {l : List PType} {n : Option Str} {fs : List Nat} {q : Bool} {ds : List TyDecl}
    (h : l.map PType.toDecl = ds ++ [.struct n fs q]) :
    ∃ l' gs, l = l' ++ [.struct n gs q] ∧ l'.map PType.toDecl = ds ∧ gs.map (·.toNat) = fs := by
  rcases List.eq_nil_or_concat l with rfl | ⟨l', p, rfl⟩
  · simp at h
  · rw [List.concat_eq_append, List.map_append] at h
    obtain ⟨h1, h2⟩ := List.append_inj' h rfl
    simp only [List.map_cons, List.map_nil, List.cons.injEq, and_true] at h2
    cases p <;> simp only [PType.toDecl, TyDecl.struct.injEq, reduceCtorEq] at h2
    obtain ⟨rfl, h2, rfl⟩ := h2
    exact ⟨l', _, List.concat_eq_append, h1, h2⟩

theorem no_struct {l : List PType} (h : ∀ d, (l.map PType.toDecl).getLast? = some d → ¬ d.IsStruct) :
    ∀ n fs q, l.getLast? ≠ some (.struct n fs q) := fun n fs q hl =>
  h _ (by rw [List.getLast?_map, hl]; rfl) (toDecl_isStruct.2 ⟨n, fs, q, rfl⟩)

theorem foldl_builds (pf : Profile) {ds out : List TyDecl} {nm nm' : Str} {rs : List BRecord} (h : Builds pf ds nm rs out nm')
    (pre : List PType) (hp : pre.map PType.toDecl = ds) :
    ∃ s, rs.foldlM (typeStep pf) { inner := pre, lastName := nm } = .ok s ∧ s.inner.map PType.toDecl = out ∧
      s.lastName = nm' := by
  induction h generalizing pre with
  | nil => exact ⟨_, rfl, hp, rfl⟩
  | count hc _ ih =>
    rw [List.foldlM_cons, typeStep_numEntry pf _ hc, Out.ok_bind]
    exact ih pre hp
  | single ha _ ih =>
    obtain ⟨p, h1, h2⟩ := ha.step pf { inner := pre, lastName := _ }
    rw [List.foldlM_cons, h1, Out.ok_bind]
    exact ih _ (by simp [hp, h2])
  | name hc hs _ ih =>
    rw [List.foldlM_cons]
    unfold typeStep
    rw [typeCode_eq hc (c := .structName) (by decide), Out.ofOption_some, Out.ok_bind]
    dsimp only
    rw [(string_zero_iff ..).2 hs]
    exact ih pre hp
  | named hc hf hl _ ih =>
    subst hp
    rw [List.foldlM_cons, typeStep_named pf _ hc hf (no_struct hl), Out.ok_bind]
    exact ih _ (by simp [TypeTableState.add, PType.toDecl])
  | namedOver hc hf _ ih =>
    obtain ⟨l, gs, rfl, rfl, hg⟩ := last_struct hp
    have : gs = [] := by simpa using hg
    subst this
    rw [List.foldlM_cons]
    unfold typeStep
    rw [typeCode_eq hc (c := .structNamed) (by decide), Out.ofOption_some, Out.ok_bind]
    dsimp only
    unfold stepStructNamed
    rw [typeField_zero hf, Out.ok_bind]
    simp only [List.getLast?_concat, Option.isSome_none, Bool.false_eq_true, ne_eq, not_true_eq_false, or_self, if_false,
      TypeTableState.setLast, List.dropLast_concat, Out.ok_bind, typeRefs, hf, List.drop_succ_cons, List.drop_zero]
    exact ih _ (by simp [PType.toDecl])
  | opaqueStruct hc hn hl _ ih =>
    subst hp
    rw [List.foldlM_cons, typeStep_opaque pf _ hc hn (no_struct hl), Out.ok_bind]
    exact ih _ (by simp [TypeTableState.add, PType.toDecl])
  | opaqueOver hc hn _ ih =>
    obtain ⟨l, gs, rfl, rfl, rfl⟩ := last_struct hp
    rw [List.foldlM_cons]
    unfold typeStep
    rw [typeCode_eq hc (c := .opaque) (by decide), Out.ofOption_some, Out.ok_bind]
    dsimp only
    unfold stepOpaque
    rw [if_neg hn]
    simp only [List.getLast?_concat, TypeTableState.setLast, List.dropLast_concat, Out.ok_bind]
    exact ih _ (by simp [PType.toDecl])

theorem decide_gt_zero (a : U64) : decide (0#64 < a) = !decide (a = 0#64) := by
  have := gt_zero_iff a
  by_cases h : a = 0 <;> simp_all

theorem getLast_not_struct {l : List PType} (h : ∀ n fs q, l.getLast? ≠ some (.struct n fs q)) (d : TyDecl)
    (hd : (l.map PType.toDecl).getLast? = some d) : ¬ d.IsStruct := getLast_map_toDecl h d hd

theorem builds_of_step (pf : Profile) {s s' : TypeTableState} {r : BRecord} {rs : List BRecord} {out : List TyDecl} {nm : Str}
    (h : typeStep pf s r = .ok s') (hb : Builds pf (s'.inner.map PType.toDecl) s'.lastName rs out nm) :
    Builds pf (s.inner.map PType.toDecl) s.lastName (r :: rs) out nm := by
  unfold typeStep at h
  rw [Out.bind_eq_ok] at h
  obtain ⟨c, hc, h⟩ := h
  have hc : (tryFromPrimitive r.code : Option TypeCode) = some c := by
    cases hx : (tryFromPrimitive r.code : Option TypeCode) <;> rw [hx] at hc <;> simp at hc; rw [hc]
  have hcode : r.code = c.code := (tryFromPrimitive_iff.1 hc).symm
  have add : ∀ (p : PType), Adds r p.toDecl → s' = s.add p →
      Builds pf (s.inner.map PType.toDecl) s.lastName (r :: rs) out nm := by
    rintro p hp rfl
    refine .single hp ?_
    simpa [TypeTableState.add] using hb
  cases c <;> dsimp only at h
  case numEntry => cases h; exact .count hcode hb
  case structName =>
    simp only [Out.bind_eq_ok, Out.mapErr_eq_ok, Out.ok.injEq] at h
    obtain ⟨nm, hn, rfl⟩ := h
    exact .name hcode ((string_zero_iff ..).1 hn) hb
  case structNamed =>
    unfold stepStructNamed at h
    simp only [Out.bind_eq_ok] at h
    obtain ⟨p, hp, h⟩ := h
    obtain ⟨l, hl⟩ := fields_zero hp
    split at h
    · next n fs q hlast =>
      split at h
      · simp at h
      · next hno =>
        simp only [not_or, Decidable.not_not] at hno
        obtain ⟨hno, rfl⟩ := hno
        have : n = none := by cases n <;> simp_all
        subst this
        cases h
        obtain ⟨l', hl'⟩ := List.getLast?_eq_some_iff.1 hlast
        rw [hl', List.map_append]
        refine .namedOver hcode hl (q := q) ?_
        simpa [TypeTableState.setLast, hl', typeRefs, hl, PType.toDecl] using hb
    · next hlast =>
      cases h
      refine .named hcode hl (getLast_not_struct fun n fs q hc => hlast n fs q hc) ?_
      simpa [TypeTableState.add, typeRefs, hl, PType.toDecl, decide_gt_zero] using hb
  case «opaque» =>
    unfold stepOpaque at h
    split at h
    · simp at h
    · next hn =>
      split at h
      · simp at h
      · next fs q hlast =>
        cases h
        obtain ⟨l', hl'⟩ := List.getLast?_eq_some_iff.1 hlast
        rw [hl', List.map_append]
        refine .opaqueOver hcode hn (q := q) (fs := fs.map (·.toNat)) ?_
        simpa [TypeTableState.setLast, hl', PType.toDecl] using hb
      · next h1 h2 =>
        cases h
        refine .opaqueStruct hcode hn (getLast_not_struct fun n fs q hc => ?_) ?_
        · cases n with
          | none => exact h2 fs q hc
          | some n => exact h1 n fs q hc
        · simpa [TypeTableState.add, PType.toDecl] using hb
  case integer =>
    simp only [Out.bind_eq_ok, Out.ok.injEq] at h
    obtain ⟨w, h1, rfl⟩ := h
    obtain ⟨l, hl⟩ := fields_zero h1
    refine add _ ?_ rfl
    have := Adds.wide hcode hl
    simpa [PType.toDecl] using this
  case pointer =>
    simp only [Out.bind_eq_ok, Out.mapErr_eq_ok, Out.ok.injEq, addressSpace_eq_ok] at h
    obtain ⟨p, h1, a, h2, _, ⟨h3, rfl⟩, rfl⟩ := h
    obtain ⟨l, hl⟩ := fields_one h1 h2
    exact add (.pointer _ _) (.says (.pointer hcode hl h3)) rfl
  case functionOld => simp at h
  case array =>
    simp only [Out.bind_eq_ok, Out.ok.injEq] at h
    obtain ⟨n, h1, e, h2, rfl⟩ := h
    obtain ⟨l, hl⟩ := fields_one h1 h2
    exact add (.array _ _) (.says (.array hcode hl)) rfl
  case vector =>
    simp only [Out.bind_eq_ok, Out.ok.injEq] at h
    obtain ⟨n, h1, e, h2, rfl⟩ := h
    obtain ⟨l, hl⟩ := fields_one h1 h2
    cases l with
    | nil => exact add (.fixedVector n e) (.says (.fixedVector hcode hl rfl)) (by simp [hl])
    | cons x l =>
      by_cases hx : x = 0
      · exact add (.fixedVector n e) (.says (.fixedVector hcode hl hx)) (by simp [hl, hx])
      · exact add (.scalableVector n e) (.says (.scalableVector hcode hl hx)) (by
        have := (gt_zero_iff x).2 hx
        simp only [hl, List.getElem?_cons_succ, List.getElem?_cons_zero, Option.elim_some, this, decide_true, if_true])
  case structAnon =>
    simp only [Out.bind_eq_ok, Out.ok.injEq] at h
    obtain ⟨p, h1, rfl⟩ := h
    obtain ⟨l, hl⟩ := fields_zero h1
    refine add (.struct _ _ _) (.says ?_) rfl
    have := Says.structAnon hcode hl
    simpa [PType.toDecl, typeRefs, hl, decide_gt_zero] using this
  case function =>
    simp only [Out.bind_eq_ok, Out.ok.injEq] at h
    obtain ⟨v, h1, e, h2, rfl⟩ := h
    obtain ⟨l, hl⟩ := fields_one h1 h2
    refine add (.function _ _ _) (.says ?_) rfl
    have := Says.function hcode hl
    simpa [PType.toDecl, typeRefs, hl, decide_gt_zero] using this
  case opaquePointer =>
    simp only [Out.bind_eq_ok, Out.mapErr_eq_ok, Out.ok.injEq, addressSpace_eq_ok] at h
    obtain ⟨a, h2, _, ⟨h3, rfl⟩, rfl⟩ := h
    obtain ⟨l, hl⟩ := fields_zero h2
    exact add (.opaquePointer _) (.says (.opaquePointer hcode hl h3)) rfl
  all_goals
    refine add (.prim _) (.says (.prim ?_)) (Out.ok.inj h).symm
    rw [hcode]; decide

theorem builds_of_foldl (pf : Profile) (rs : List BRecord) (s s' : TypeTableState) (h : rs.foldlM (typeStep pf) s = .ok s') :
    Builds pf (s.inner.map PType.toDecl) s.lastName rs (s'.inner.map PType.toDecl) s'.lastName := by
  induction rs generalizing s with
  | nil => cases h; exact .nil
  | cons r rs ih =>
    rw [List.foldlM_cons, Out.bind_eq_ok] at h
    obtain ⟨s1, h1, h2⟩ := h
    exact builds_of_step pf h1 (ih s1 h2)

theorem counts_iff {rs : List BRecord} {n : U64} : Counts rs n ↔
    ∃ r, Records.one rs TypeCode.numEntry.code = some r ∧ r.fields.head? = some n := by
  constructor
  · rintro ⟨r, rest, h1, h2⟩
    exact ⟨r, (one_iff ..).2 h1, by rw [h2]; rfl⟩
  · rintro ⟨r, h1, h2⟩
    obtain ⟨rest, h2⟩ := List.head?_eq_some_iff.1 h2
    exact ⟨r, rest, (one_iff ..).1 h1, h2⟩

theorem Spec.Counts.unique {rs : List BRecord} {n m : U64} (h : Counts rs n) (h' : Counts rs m) : n = m := by
  obtain ⟨r, h1, h2⟩ := counts_iff.1 h
  obtain ⟨r', h1', h2'⟩ := counts_iff.1 h'
  rw [h1] at h1'
  cases h1'
  rw [h2] at h2'
  exact Option.some.inj h2'

/-- C40. A type block maps to a table exactly if its records say so: whatever the records, and nothing else is accepted. -/
theorem C40_exact (pf : Profile) (b : UBlock) (ts : TypeTable) :
    TypeTable.tryFrom pf b = .ok ts ↔ TypesSay pf b.records ts := by
  constructor
  · intro h
    unfold TypeTable.tryFrom at h
    simp only [Out.bind_eq_ok, ofOption_eq_ok] at h
    obtain ⟨r, h1, n, h2, ⟨⟩, h3, s, h4, h5⟩ := h
    have hcap : n.toNat * 56 < 2 ^ 63 := by
      unfold typeCapacity partialTypeSize at h3
      split at h3
      · assumption
      · cases h3
    obtain ⟨h6, h7, h8⟩ := (reifyTypes_eq_ok ..).1 h5
    exact ⟨_, ⟨n, _, counts_iff.2 ⟨r, h1, h2⟩, hcap, builds_of_foldl pf _ _ _ h4, by rw [List.length_map]; exact h6⟩,
      by rw [List.length_map]; omega, h8⟩
  · rintro ⟨ds, ⟨n, nm, hn, hcap, hb, hl⟩, hl', h⟩
    obtain ⟨s, hs, rfl, -⟩ := foldl_builds pf hb [] rfl
    rw [tryFrom_eq pf b hn]
    unfold typeCapacity partialTypeSize
    rw [if_pos hcap, Out.ok_bind, hs, Out.ok_bind, reifyTypes_eq_ok]
    rw [List.length_map] at hl hl'
    exact ⟨hl, by omega, h⟩

/-- What is accepted beyond LLVM's meaning: an anonymous structure that a named one replaces, and a width of more than 32
bits. -/
example (pf : Profile) : TypesSay pf [⟨none, 1, [2]⟩, ⟨none, 7, [2 ^ 32 + 8]⟩, ⟨none, 18, [1]⟩, ⟨none, 19, [0x61, 0x62]⟩,
    ⟨none, 20, [0, 0]⟩] [.integer 8, .struct (some ['a', 'b']) [.integer 8] true] := by
  refine ⟨[.integer 8, .struct (some ['a', 'b']) [0] true],
    ⟨2, [], ⟨_, [], ⟨[], _, rfl, rfl, by simp⟩, rfl⟩, by decide, ?_, rfl⟩, rfl, ?_⟩
  · refine .count rfl (.single (.wide rfl rfl) (.single (.says (.structAnon (p := 1) (fs := []) rfl rfl)) ?_))
    refine .name (s := ['a', 'b']) rfl ⟨show _ = _ by decide +kernel, by decide, by simp⟩ ?_
    exact .namedOver (ds := [.integer 8]) (p := 0) (fs := [0]) rfl rfl .nil
  · have h0 : Denotes [.integer 8, .struct (some ['a', 'b']) [0] true] 0 (.integer 8) := .integer rfl
    have hv : Valid (.integer 8) := .integer (by decide) (by decide)
    intro i t ht
    match i with
    | 0 => cases ht; exact ⟨h0, hv⟩
    | 1 =>
      cases ht
      refine ⟨.struct (fs := [0]) rfl rfl ?_, .struct (by simpa using hv) ?_⟩
      · intro k j t hk ht
        match k with
        | 0 => cases hk; cases ht; exact h0
        | k + 1 => simp at hk
      · intro f hf
        simp only [List.mem_singleton] at hf
        subst hf
        exact ⟨by simp, by rintro ⟨_, _, _, h⟩; cases h⟩
    | i + 2 => simp at ht

end Verif
