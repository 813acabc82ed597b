import Verif.Mapper.TypeLemmas
import Verif.Props.Tables
import Verif.Props.Enums

/-! Lemmas about the records of a type block. -/

namespace Verif

open Spec

theorem typeCode_eq {r : BRecord} {n : U64} {c : TypeCode} (h : r.code = n) (hc : tryFromPrimitive n = some c) :
    (tryFromPrimitive r.code : Option TypeCode) = some c := by rw [h]; exact hc

theorem typeField_zero {r : BRecord} {a : U64} {l : List U64} (h : r.fields = a :: l) : typeField r 0 = .ok a := by
  simp [typeField, h]

theorem typeField_one {r : BRecord} {a b : U64} {l : List U64} (h : r.fields = a :: b :: l) : typeField r 1 = .ok b := by
  simp [typeField, h]

theorem gt_zero_iff (a : U64) : (a > 0) ↔ a ≠ 0 := by
  rw [gt_iff_lt, BitVec.lt_def]
  constructor
  · rintro h rfl; simp at h
  · intro h
    have : a.toNat ≠ 0 := fun hc => h (BitVec.eq_of_toNat_eq (by simpa using hc))
    simp; omega

theorem addressSpace_ok {a : U64} (h : a.toNat < 2 ^ 23) : AddressSpace.tryFromU64 a = .ok ⟨a.setWidth 32⟩ := by
  unfold AddressSpace.tryFromU64; rw [if_pos (by omega)]

/-- A record that declares a type adds it. -/
theorem typeStep_says (pf : Profile) (s : TypeTableState) {r : BRecord} {d : TyDecl} (h : Says r d) :
    ∃ p, typeStep pf s r = .ok (s.add p) ∧ p.toDecl = d := by
  cases h with
  | @prim p hp =>
    have hc : ∀ n : Nat, r.code.toNat = n → n < 2 ^ 64 → r.code = BitVec.ofNat 64 n := fun n h hn =>
      BitVec.eq_of_toNat_eq (by rw [h, BitVec.toNat_ofNat, Nat.mod_eq_of_lt hn])
    refine ⟨.prim p, ?_, rfl⟩
    simp only [primCodes, List.mem_cons, Prod.mk.injEq, List.not_mem_nil, or_false] at hp
    rcases hp with ⟨h, rfl⟩ | ⟨h, rfl⟩ | ⟨h, rfl⟩ | ⟨h, rfl⟩ | ⟨h, rfl⟩ | ⟨h, rfl⟩ | ⟨h, rfl⟩ | ⟨h, rfl⟩ | ⟨h, rfl⟩ |
      ⟨h, rfl⟩ | ⟨h, rfl⟩ | ⟨h, rfl⟩ | ⟨h, rfl⟩ <;>
    · unfold typeStep
      rw [hc _ h (by decide)]
      rfl
  | @integer w rest hc hf hw =>
    refine ⟨.integer (w.setWidth 32), ?_, ?_⟩
    · unfold typeStep
      rw [typeCode_eq hc (c := .integer) (by decide), Out.ofOption_some, Out.ok_bind]
      dsimp only
      rw [typeField_zero hf]; rfl
    · simp only [PType.toDecl, BitVec.toNat_setWidth]; rw [Nat.mod_eq_of_lt hw]
  | @pointer p a rest hc hf ha =>
    refine ⟨.pointer p ⟨a.setWidth 32⟩, ?_, rfl⟩
    unfold typeStep
    rw [typeCode_eq hc (c := .pointer) (by decide), Out.ofOption_some, Out.ok_bind]
    dsimp only
    rw [typeField_zero hf, typeField_one hf, Out.ok_bind, Out.ok_bind, addressSpace_ok ha]; rfl
  | @opaquePointer a rest hc hf ha =>
    refine ⟨.opaquePointer ⟨a.setWidth 32⟩, ?_, rfl⟩
    unfold typeStep
    rw [typeCode_eq hc (c := .opaquePointer) (by decide), Out.ofOption_some, Out.ok_bind]
    dsimp only
    rw [typeField_zero hf, Out.ok_bind, addressSpace_ok ha]; rfl
  | @array n e rest hc hf =>
    refine ⟨.array n e, ?_, rfl⟩
    unfold typeStep
    rw [typeCode_eq hc (c := .array) (by decide), Out.ofOption_some, Out.ok_bind]
    dsimp only
    rw [typeField_zero hf, typeField_one hf]; rfl
  | @fixedVector n e rest hc hf hs =>
    refine ⟨.fixedVector n e, ?_, rfl⟩
    unfold typeStep
    rw [typeCode_eq hc (c := .vector) (by decide), Out.ofOption_some, Out.ok_bind]
    dsimp only
    rw [typeField_zero hf, typeField_one hf, Out.ok_bind, Out.ok_bind, if_neg]
    rw [hf]
    cases rest with
    | nil => simp
    | cons a l => simp at hs; subst hs; simp
  | @scalableVector n e s rest hc hf hs =>
    refine ⟨.scalableVector n e, ?_, rfl⟩
    unfold typeStep
    rw [typeCode_eq hc (c := .vector) (by decide), Out.ofOption_some, Out.ok_bind]
    dsimp only
    rw [typeField_zero hf, typeField_one hf, Out.ok_bind, Out.ok_bind, if_pos]
    rw [hf]
    simpa using (gt_zero_iff s).2 hs
  | @structAnon p fs hc hf =>
    refine ⟨.struct none fs (p ≠ 0), ?_, by simp [PType.toDecl]⟩
    unfold typeStep
    rw [typeCode_eq hc (c := .structAnon) (by decide), Out.ofOption_some, Out.ok_bind]
    dsimp only
    rw [typeField_zero hf, Out.ok_bind, decide_eq_decide.2 (gt_zero_iff p), typeRefs, hf]; rfl
  | @function v ret ps hc hf =>
    refine ⟨.function ret ps (v ≠ 0), ?_, by simp [PType.toDecl]⟩
    unfold typeStep
    rw [typeCode_eq hc (c := .function) (by decide), Out.ofOption_some, Out.ok_bind]
    dsimp only
    rw [typeField_zero hf, typeField_one hf, Out.ok_bind, Out.ok_bind, decide_eq_decide.2 (gt_zero_iff v), typeRefs, hf]; rfl

theorem toDecl_isStruct {p : PType} : p.toDecl.IsStruct ↔ ∃ n fs q, p = .struct n fs q := by
  cases p <;> simp [PType.toDecl, TyDecl.IsStruct]

/-- The last entry is not a structure. -/
theorem not_struct_of_regular {pre : List PType} {d : TyDecl} {ds : List TyDecl} (hd : d.IsNamed)
    (h : Regular (pre.map PType.toDecl ++ d :: ds)) : ∀ n fs q, pre.getLast? ≠ some (.struct n fs q) := by
  intro n fs q hl
  obtain ⟨l, rfl⟩ := List.getLast?_eq_some_iff.1 hl
  refine h (l.map PType.toDecl) (PType.struct n fs q).toDecl d ds (by simp) (toDecl_isStruct.2 ⟨_, _, _, rfl⟩) hd

theorem typeStep_named (pf : Profile) (s : TypeTableState) {r : BRecord} {p : U64} {fs : List U64} (hc : r.code = 20)
    (hf : r.fields = p :: fs) (hl : ∀ n fs q, s.inner.getLast? ≠ some (.struct n fs q)) :
    typeStep pf s r = .ok { s.add (.struct (some s.lastName) fs (p ≠ 0)) with lastName := [] } := by
  unfold typeStep
  rw [typeCode_eq hc (c := .structNamed) (by decide), Out.ofOption_some, Out.ok_bind]
  dsimp only
  unfold stepStructNamed
  rw [typeField_zero hf, Out.ok_bind, typeRefs, hf]
  dsimp only
  split
  · next h => exact absurd h (hl _ _ _)
  · rw [decide_eq_decide.2 (gt_zero_iff p)]; rfl

theorem typeStep_opaque (pf : Profile) (s : TypeTableState) {r : BRecord} (hc : r.code = 6) (hn : s.lastName ≠ [])
    (hl : ∀ n fs q, s.inner.getLast? ≠ some (.struct n fs q)) :
    typeStep pf s r = .ok { s.add (.struct (some s.lastName) [] false) with lastName := [] } := by
  unfold typeStep
  rw [typeCode_eq hc (c := .opaque) (by decide), Out.ofOption_some, Out.ok_bind]
  dsimp only
  unfold stepOpaque
  rw [if_neg hn]
  split
  · next h => exact absurd h (hl _ _ _)
  · next h => exact absurd h (hl _ _ _)
  · rfl

theorem typeStep_name (pf : Profile) (s : TypeTableState) {r : BRecord} {nm : Str} (hc : r.code = 19)
    (hf : r.fields = (utf8 nm).map (·.setWidth 64)) (hl : 2 ≤ r.fields.length) :
    typeStep pf s r = .ok { s with lastName := s.lastName ++ nm } := by
  unfold typeStep
  rw [typeCode_eq hc (c := .structName) (by decide), Out.ofOption_some, Out.ok_bind]
  dsimp only
  have : r.tryString pf 0 = .ok nm := (string_zero_iff pf r nm).2
    ⟨hf, by omega, fun h => by rw [h] at hl; simp at hl⟩
  rw [this]; rfl

theorem typeStep_numEntry (pf : Profile) (s : TypeTableState) {r : BRecord} (hc : r.code = 1) : typeStep pf s r = .ok s := by
  unfold typeStep
  rw [typeCode_eq hc (c := .numEntry) (by decide)]; rfl

/-- The records of a regular listing leave exactly the declared entries. -/
theorem foldl_lists (pf : Profile) {nm : Str} {rs : List BRecord} {ds : List TyDecl} (h : Lists nm rs ds) (pre : List PType)
    (hr : Regular (pre.map PType.toDecl ++ ds)) :
    ∃ s, rs.foldlM (typeStep pf) { inner := pre, lastName := nm } = .ok s ∧
      s.inner.map PType.toDecl = pre.map PType.toDecl ++ ds := by
  induction h generalizing pre with
  | nil => exact ⟨_, rfl, by simp⟩
  | numEntry hc _ ih =>
    rw [List.foldlM_cons, typeStep_numEntry pf _ hc, Out.ok_bind]
    exact ih pre hr
  | single hs _ ih =>
    obtain ⟨p, hp, rfl⟩ := typeStep_says pf { inner := pre, lastName := _ } hs
    rw [List.foldlM_cons, hp, Out.ok_bind]
    obtain ⟨s, h1, h2⟩ := ih (pre ++ [p]) (by simpa using hr)
    exact ⟨s, h1, by simpa using h2⟩
  | name hc hf hl _ ih =>
    rw [List.foldlM_cons, typeStep_name pf _ hc hf hl, Out.ok_bind]
    exact ih pre hr
  | @named nm r p fs rs ds hc hf _ ih =>
    rw [List.foldlM_cons, typeStep_named pf _ hc hf (not_struct_of_regular ⟨_, _, _, rfl⟩ hr), Out.ok_bind]
    obtain ⟨s, h1, h2⟩ := ih (pre ++ [.struct (some nm) fs (p ≠ 0)]) (by simpa [PType.toDecl] using hr)
    exact ⟨s, h1, by simpa [PType.toDecl] using h2⟩
  | @opaqueStruct nm r rs ds hc hn _ ih =>
    rw [List.foldlM_cons, typeStep_opaque pf _ hc hn (not_struct_of_regular ⟨_, _, _, rfl⟩ hr), Out.ok_bind]
    obtain ⟨s, h1, h2⟩ := ih (pre ++ [.struct (some nm) [] false]) (by simpa [PType.toDecl] using hr)
    exact ⟨s, h1, by simpa [PType.toDecl] using h2⟩

theorem typeField_eq_ok {r : BRecord} {n : Nat} {a : U64} : typeField r n = .ok a ↔ r.fields[n]? = some a := by
  unfold typeField; cases r.fields[n]? <;> simp

theorem fields_zero {r : BRecord} {a : U64} (h : typeField r 0 = .ok a) : ∃ l, r.fields = a :: l := by
  have := typeField_eq_ok.1 h
  cases hf : r.fields with
  | nil => rw [hf] at this; simp at this
  | cons x l => rw [hf] at this; simp at this; exact ⟨l, by rw [this]⟩

theorem fields_one {r : BRecord} {a b : U64} (h : typeField r 0 = .ok a) (h' : typeField r 1 = .ok b) :
    ∃ l, r.fields = a :: b :: l := by
  obtain ⟨l, hl⟩ := fields_zero h
  have := typeField_eq_ok.1 h'
  cases l with
  | nil => rw [hl] at this; simp at this
  | cons x l => rw [hl] at this; simp at this; exact ⟨l, by rw [hl, this]⟩

theorem addressSpace_eq_ok {a : U64} {s : AddressSpace} :
    AddressSpace.tryFromU64 a = .ok s ↔ a.toNat < 2 ^ 23 ∧ s = ⟨a.setWidth 32⟩ := by
  unfold AddressSpace.tryFromU64
  split
  · next h => simp only [Out.ok.injEq, eq_comm (a := s)]; exact ⟨fun hc => ⟨by omega, hc⟩, fun hc => hc.2⟩
  · next h => simp only [reduceCtorEq, false_iff, not_and]; intro hc; omega

/-- Every record that is accepted is one the format knows. -/
theorem typeStep_inv (pf : Profile) {s s' : TypeTableState} {r : BRecord} (h : typeStep pf s r = .ok s')
    (hw : r.code = 7 → ∀ w rest, r.fields = w :: rest → w.toNat < 2 ^ 32) (hne : r.code = 19 → r.fields ≠ []) :
    (r.code = 1 ∧ s'.lastName = s.lastName) ∨ (∃ d, Says r d ∧ s'.lastName = s.lastName) ∨
    (∃ nm, r.code = 19 ∧ r.fields = (utf8 nm).map (·.setWidth 64) ∧ 2 ≤ r.fields.length ∧
      s'.lastName = s.lastName ++ nm) ∨
    (∃ p fs, r.code = 20 ∧ r.fields = p :: fs ∧ s'.lastName = []) ∨ (r.code = 6 ∧ s.lastName ≠ [] ∧ s'.lastName = []) := by
  unfold typeStep at h
  rw [Out.bind_eq_ok] at h
  obtain ⟨c, hc, h⟩ := h
  have hc : (tryFromPrimitive r.code : Option TypeCode) = some c := by
    cases hx : (tryFromPrimitive r.code : Option TypeCode) <;> rw [hx] at hc <;> simp at hc; rw [hc]
  have hcode : r.code = c.code := (tryFromPrimitive_iff.1 hc).symm
  have prim : ∀ p : Prim, (r.code.toNat, p) ∈ primCodes → s' = s.add (.prim p) →
      ∃ d, Says r d ∧ s'.lastName = s.lastName := fun p hp hs => ⟨_, .prim hp, by rw [hs]; rfl⟩
  cases c <;> dsimp only at h
  case numEntry => cases h; exact .inl ⟨hcode, rfl⟩
  case structName =>
    simp only [Out.bind_eq_ok, Out.mapErr_eq_ok, Out.ok.injEq] at h
    obtain ⟨nm, hn, rfl⟩ := h
    obtain ⟨h1, h2, -⟩ := (string_zero_iff ..).1 hn
    have := hne hcode
    have : r.fields.length ≠ 0 := by simpa using this
    exact .inr (.inr (.inl ⟨nm, hcode, h1, by omega, rfl⟩))
  case structNamed =>
    unfold stepStructNamed at h
    simp only [Out.bind_eq_ok] at h
    obtain ⟨p, hp, h⟩ := h
    obtain ⟨l, hl⟩ := fields_zero hp
    refine .inr (.inr (.inr (.inl ⟨p, l, hcode, hl, ?_⟩)))
    split at h
    · split at h
      · simp at h
      · cases h; rfl
    · cases h; rfl
  case «opaque» =>
    unfold stepOpaque at h
    split at h
    · simp at h
    · next hn =>
      refine .inr (.inr (.inr (.inr ⟨hcode, hn, ?_⟩)))
      split at h
      · simp at h
      · cases h; rfl
      · cases h; rfl
  all_goals refine .inr (.inl ?_)
  case integer =>
    simp only [Out.bind_eq_ok, Out.ok.injEq] at h
    obtain ⟨w, h1, rfl⟩ := h
    obtain ⟨l, hl⟩ := fields_zero h1
    exact ⟨_, .integer hcode hl (hw hcode w l hl), rfl⟩
  case pointer =>
    simp only [Out.bind_eq_ok, Out.mapErr_eq_ok, Out.ok.injEq, addressSpace_eq_ok] at h
    obtain ⟨p, h1, a, h2, _, ⟨h3, rfl⟩, rfl⟩ := h
    obtain ⟨l, hl⟩ := fields_one h1 h2
    exact ⟨_, .pointer hcode hl h3, rfl⟩
  case functionOld => simp at h
  case array =>
    simp only [Out.bind_eq_ok, Out.ok.injEq] at h
    obtain ⟨n, h1, e, h2, rfl⟩ := h
    obtain ⟨l, hl⟩ := fields_one h1 h2
    exact ⟨_, .array hcode hl, rfl⟩
  case vector =>
    simp only [Out.bind_eq_ok, Out.ok.injEq] at h
    obtain ⟨n, h1, e, h2, rfl⟩ := h
    obtain ⟨l, hl⟩ := fields_one h1 h2
    cases l with
    | nil => exact ⟨_, .fixedVector hcode hl rfl, rfl⟩
    | cons x l =>
      by_cases hx : x = 0
      · exact ⟨_, .fixedVector hcode hl hx, rfl⟩
      · exact ⟨_, .scalableVector hcode hl hx, rfl⟩
  case structAnon =>
    simp only [Out.bind_eq_ok, Out.ok.injEq] at h
    obtain ⟨p, h1, rfl⟩ := h
    obtain ⟨l, hl⟩ := fields_zero h1
    exact ⟨_, .structAnon hcode hl, rfl⟩
  case function =>
    simp only [Out.bind_eq_ok, Out.ok.injEq] at h
    obtain ⟨v, h1, e, h2, rfl⟩ := h
    obtain ⟨l, hl⟩ := fields_one h1 h2
    exact ⟨_, .function hcode hl, rfl⟩
  case opaquePointer =>
    simp only [Out.bind_eq_ok, Out.mapErr_eq_ok, Out.ok.injEq, addressSpace_eq_ok] at h
    obtain ⟨a, h2, _, ⟨h3, rfl⟩, rfl⟩ := h
    obtain ⟨l, hl⟩ := fields_zero h2
    exact ⟨_, .opaquePointer hcode hl h3, rfl⟩
  all_goals
    refine prim _ ?_ (Out.ok.inj h).symm
    rw [hcode]; decide

theorem lists_of_foldl (pf : Profile) (rs : List BRecord) (s s' : TypeTableState)
    (h : rs.foldlM (typeStep pf) s = .ok s')
    (hw : ∀ r ∈ rs, r.code = 7 → ∀ w rest, r.fields = w :: rest → w.toNat < 2 ^ 32)
    (hne : ∀ r ∈ rs, r.code = 19 → r.fields ≠ []) : ∃ ds, Lists s.lastName rs ds := by
  induction rs generalizing s with
  | nil => exact ⟨[], .nil⟩
  | cons r rs ih =>
    rw [List.foldlM_cons, Out.bind_eq_ok] at h
    obtain ⟨s1, h1, h2⟩ := h
    obtain ⟨ds, hds⟩ := ih s1 h2 (fun x hx => hw x (by simp [hx])) (fun x hx => hne x (by simp [hx]))
    rcases typeStep_inv pf h1 (hw r (by simp)) (hne r (by simp)) with ⟨hc, hn⟩ | ⟨d, hd, hn⟩ | ⟨nm, hc, hf, hl, hn⟩ |
      ⟨p, fs, hc, hf, hn⟩ | ⟨hc, hne, hn⟩ <;> rw [hn] at hds
    · exact ⟨ds, .numEntry hc hds⟩
    · exact ⟨_, .single hd hds⟩
    · exact ⟨_, .name hc hf hl hds⟩
    · exact ⟨_, .named hc hf hds⟩
    · exact ⟨_, .opaqueStruct hc hne hds⟩

theorem tryFrom_eq (pf : Profile) (b : UBlock) {n : U64} (h : DeclaresCount b n) :
    TypeTable.tryFrom pf b = (do
      typeCapacity n
      let s ← b.records.foldlM (typeStep pf) { inner := [], lastName := [] }
      reifyTypes n.toNat s.inner) := by
  obtain ⟨r, rest, hr, hf⟩ := h
  unfold TypeTable.tryFrom
  rw [show TypeCode.numEntry.code = 1 from rfl, (one_iff ..).2 hr, Out.ofOption_some, Out.ok_bind, hf]; rfl

theorem typeCapacity_ok {n : U64} (h : n.toNat < 2 ^ 57) : typeCapacity n = .ok () := by
  unfold typeCapacity partialTypeSize; rw [if_pos (by omega)]

theorem tryFrom_lists (pf : Profile) (b : UBlock) {n : U64} {ds : List TyDecl} (hc : DeclaresCount b n) (hn : n.toNat < 2 ^ 57)
    (h : Lists [] b.records ds) (hr : Regular ds) :
    ∃ table : List PType, TypeTable.tryFrom pf b = reifyTypes n.toNat table ∧ table.map PType.toDecl = ds := by
  obtain ⟨s, h1, h2⟩ := foldl_lists pf h [] (by simpa using hr)
  refine ⟨s.inner, ?_, by simpa using h2⟩
  rw [tryFrom_eq pf b hc, typeCapacity_ok hn, Out.ok_bind, h1, Out.ok_bind]

theorem Spec.Says.not_named {r : BRecord} {d : TyDecl} (h : Says r d) : ¬ d.IsNamed := by
  rintro ⟨n, fs, p, rfl⟩; cases h

theorem regular_append {l : List TyDecl} (h : Regular l) {d : TyDecl} (hd : ¬ d.IsNamed ∨ ∀ x, l.getLast? = some x → ¬ x.IsStruct) :
    Regular (l ++ [d]) := by
  intro pre a b post heq ha hb
  rcases List.eq_nil_or_concat post with rfl | ⟨post', z, rfl⟩
  · have : l ++ [d] = (pre ++ [a]) ++ [b] := by simpa using heq
    obtain ⟨rfl, h2⟩ := List.append_inj' this rfl
    simp only [List.cons.injEq, and_true] at h2
    subst h2
    rcases hd with hd | hd
    · exact hd hb
    · exact hd a (by simp) ha
  · have : l ++ [d] = (pre ++ a :: b :: post') ++ [z] := by simpa using heq
    obtain ⟨rfl, -⟩ := List.append_inj' this rfl
    exact h pre a b post' rfl ha hb

theorem getLast_map_toDecl {pre : List PType} (h : ∀ n fs q, pre.getLast? ≠ some (.struct n fs q)) (x : TyDecl)
    (hx : (pre.map PType.toDecl).getLast? = some x) : ¬ x.IsStruct := by
  rw [List.getLast?_map, Option.map_eq_some_iff] at hx
  obtain ⟨p, hp, rfl⟩ := hx
  rw [toDecl_isStruct]
  rintro ⟨n, fs, q, rfl⟩
  exact h n fs q hp

theorem length_setLast {s : TypeTableState} {t u : PType} (h : s.inner.getLast? = some u) :
    (s.setLast t).inner.length = s.inner.length := by
  obtain ⟨l, hl⟩ := List.getLast?_eq_some_iff.1 h
  simp [TypeTableState.setLast, hl]

theorem named_step_cases (pf : Profile) (s : TypeTableState) {r : BRecord} {p : U64} {fs : List U64} (hc : r.code = 20)
    (hf : r.fields = p :: fs) :
    (∃ e, typeStep pf s r = .err e) ∨
    (∃ l, typeStep pf s r = .ok { inner := l, lastName := [] } ∧ l.length = s.inner.length) ∨
    ((∀ n fs q, s.inner.getLast? ≠ some (.struct n fs q)) ∧
      typeStep pf s r = .ok { inner := s.inner ++ [.struct (some s.lastName) fs (p ≠ 0)], lastName := [] }) := by
  by_cases hl : ∀ n fs q, s.inner.getLast? ≠ some (.struct n fs q)
  · exact .inr (.inr ⟨hl, typeStep_named pf s hc hf hl⟩)
  · simp only [Classical.not_forall, Classical.not_not] at hl
    obtain ⟨n, gs, q, hl⟩ := hl
    have : typeStep pf s r = stepStructNamed s r := by
      unfold typeStep
      rw [typeCode_eq hc (c := .structNamed) (by decide)]; rfl
    rw [this]
    unfold stepStructNamed
    rw [typeField_zero hf, Out.ok_bind]
    dsimp only
    rw [hl]
    dsimp only
    split
    · exact .inl ⟨_, rfl⟩
    · exact .inr (.inl ⟨_, rfl, length_setLast hl⟩)

theorem opaque_step_cases (pf : Profile) (s : TypeTableState) {r : BRecord} (hc : r.code = 6) (hn : s.lastName ≠ []) :
    (∃ e, typeStep pf s r = .err e) ∨
    (∃ l, typeStep pf s r = .ok { inner := l, lastName := [] } ∧ l.length = s.inner.length) ∨
    ((∀ n fs q, s.inner.getLast? ≠ some (.struct n fs q)) ∧
      typeStep pf s r = .ok { inner := s.inner ++ [.struct (some s.lastName) [] false], lastName := [] }) := by
  by_cases hl : ∀ n fs q, s.inner.getLast? ≠ some (.struct n fs q)
  · exact .inr (.inr ⟨hl, typeStep_opaque pf s hc hn hl⟩)
  · simp only [Classical.not_forall, Classical.not_not] at hl
    obtain ⟨n, gs, q, hl⟩ := hl
    have : typeStep pf s r = stepOpaque s := by
      unfold typeStep
      rw [typeCode_eq hc (c := .opaque) (by decide)]; rfl
    rw [this]
    unfold stepOpaque
    rw [if_neg hn, hl]
    cases n with
    | some n => exact .inl ⟨_, rfl⟩
    | none => exact .inr (.inl ⟨_, rfl, length_setLast hl⟩)

/-- Records of a listing are refused, or give at most as many entries as declared, and fewer if the listing is irregular. -/
theorem foldl_short (pf : Profile) {nm : Str} {rs : List BRecord} {ds : List TyDecl} (h : Lists nm rs ds) (pre : List PType) :
    (∃ e, rs.foldlM (typeStep pf) { inner := pre, lastName := nm } = .err e) ∨
    ∃ s, rs.foldlM (typeStep pf) { inner := pre, lastName := nm } = .ok s ∧ s.inner.length ≤ pre.length + ds.length ∧
      (Regular (pre.map PType.toDecl) → ¬ Regular (pre.map PType.toDecl ++ ds) → s.inner.length < pre.length + ds.length) := by
  have key : ∀ {s0 : TypeTableState} {r : BRecord} {rs ds} {d : TyDecl} {p : PType}
      (ih : ∀ pre : List PType, (∃ e, rs.foldlM (typeStep pf) { inner := pre, lastName := [] } = .err e) ∨
        ∃ s, rs.foldlM (typeStep pf) { inner := pre, lastName := [] } = .ok s ∧ s.inner.length ≤ pre.length + ds.length ∧
        (Regular (pre.map PType.toDecl) → ¬ Regular (pre.map PType.toDecl ++ ds) → s.inner.length < pre.length + ds.length))
      (hd : p.toDecl = d)
      (hstep : (∃ e, typeStep pf s0 r = .err e) ∨
        (∃ l, typeStep pf s0 r = .ok { inner := l, lastName := [] } ∧ l.length = s0.inner.length) ∨
        ((∀ n fs q, s0.inner.getLast? ≠ some (.struct n fs q)) ∧
          typeStep pf s0 r = .ok { inner := s0.inner ++ [p], lastName := [] })),
      (∃ e, (r :: rs).foldlM (typeStep pf) s0 = .err e) ∨
      ∃ s, (r :: rs).foldlM (typeStep pf) s0 = .ok s ∧ s.inner.length ≤ s0.inner.length + (d :: ds).length ∧
        (Regular (s0.inner.map PType.toDecl) → ¬ Regular (s0.inner.map PType.toDecl ++ d :: ds) →
          s.inner.length < s0.inner.length + (d :: ds).length) := by
    intro s0 r rs ds d p ih hd hstep
    rw [List.foldlM_cons]
    rcases hstep with ⟨e, he⟩ | ⟨l, hl, hlen⟩ | ⟨hlast, hs⟩
    · rw [he]; exact .inl ⟨e, rfl⟩
    · rw [hl, Out.ok_bind]
      rcases ih l with he | ⟨s, h1, h2, -⟩
      · exact .inl he
      · refine .inr ⟨s, h1, ?_, fun _ _ => ?_⟩ <;> simp only [List.length_cons] <;> omega
    · rw [hs, Out.ok_bind]
      rcases ih (s0.inner ++ [p]) with he | ⟨s, h1, h2, h3⟩
      · exact .inl he
      · simp only [List.length_append, List.length_cons, List.length_nil] at h2 h3
        refine .inr ⟨s, h1, ?_, fun hr hnr => ?_⟩
        · simp only [List.length_cons]; omega
        · have := h3 (by
            rw [List.map_append]
            exact regular_append hr (.inr fun x hx => getLast_map_toDecl hlast x hx)) (by
            simpa [hd] using hnr)
          simp only [List.length_cons]; omega
  induction h generalizing pre with
  | nil => exact .inr ⟨_, rfl, by simp, fun h h' => by simp at h'; exact absurd h h'⟩
  | numEntry hc _ ih =>
    rw [List.foldlM_cons, typeStep_numEntry pf _ hc, Out.ok_bind]
    exact ih pre
  | single hs _ ih =>
    obtain ⟨p, hp, rfl⟩ := typeStep_says pf { inner := pre, lastName := _ } hs
    rw [List.foldlM_cons, hp, Out.ok_bind]
    rcases ih (pre ++ [p]) with he | ⟨s, h1, h2, h3⟩
    · exact .inl he
    · simp only [List.length_append, List.length_cons, List.length_nil] at h2 h3
      refine .inr ⟨s, h1, ?_, fun hr hnr => ?_⟩
      · simp only [List.length_cons]; omega
      · have := h3 (by
          rw [List.map_append]
          exact regular_append hr (.inl hs.not_named)) (by simpa using hnr)
        simp only [List.length_cons]; omega
  | name hc hf hl _ ih =>
    rw [List.foldlM_cons, typeStep_name pf _ hc hf hl, Out.ok_bind]
    exact ih pre
  | @named nm r p fs rs ds hc hf _ ih =>
    exact key (s0 := { inner := pre, lastName := nm }) (p := .struct (some nm) fs (p ≠ 0)) ih (by simp [PType.toDecl])
      (named_step_cases pf _ hc hf)
  | @opaqueStruct nm r rs ds hc hn _ ih =>
    exact key (s0 := { inner := pre, lastName := nm }) (p := .struct (some nm) [] false) ih (by simp [PType.toDecl])
      (opaque_step_cases pf _ hc hn)

/-- An accepted named structure leaves a named one at the end, and there was none before. -/
theorem named_step_last (pf : Profile) {s s' : TypeTableState} {r : BRecord} {p : U64} {fs : List U64} (hc : r.code = 20)
    (hf : r.fields = p :: fs) (h : typeStep pf s r = .ok s') :
    (∀ n fs q, s.inner.getLast? ≠ some (.struct (some n) fs q)) ∧
    (∃ n fs q, s'.inner.getLast? = some (.struct (some n) fs q)) ∧ s'.lastName = [] := by
  unfold typeStep at h
  rw [typeCode_eq hc (c := .structNamed) (by decide), Out.ofOption_some, Out.ok_bind] at h
  dsimp only at h
  unfold stepStructNamed at h
  rw [typeField_zero hf, Out.ok_bind] at h
  dsimp only at h
  split at h
  · rename_i name fs' q hlast
    split at h
    · cases h
    · rename_i hn
      cases h
      refine ⟨fun n fs'' q' h' => ?_, ⟨_, _, _, by simp [TypeTableState.setLast]; exact ⟨rfl, rfl, rfl⟩⟩, rfl⟩
      rw [hlast] at h'
      cases h'
      exact hn (.inl rfl)
  · rename_i hlast
    cases h
    exact ⟨fun n fs' q' h' => hlast _ _ _ h', ⟨_, _, _, by simp [TypeTableState.add]; exact ⟨rfl, rfl, rfl⟩⟩, rfl⟩

/-- The same for an opaque structure. -/
theorem opaque_step_last (pf : Profile) {s s' : TypeTableState} {r : BRecord} (hc : r.code = 6)
    (h : typeStep pf s r = .ok s') :
    (∀ n fs q, s.inner.getLast? ≠ some (.struct (some n) fs q)) ∧
    (∃ n fs q, s'.inner.getLast? = some (.struct (some n) fs q)) ∧ s'.lastName = [] := by
  unfold typeStep at h
  rw [typeCode_eq hc (c := .opaque) (by decide), Out.ofOption_some, Out.ok_bind] at h
  dsimp only at h
  unfold stepOpaque at h
  split at h
  · cases h
  · split at h
    · cases h
    · rename_i hlast
      cases h
      refine ⟨fun n fs'' q' h' => ?_, ⟨_, _, _, by simp [TypeTableState.setLast]; exact ⟨rfl, rfl, rfl⟩⟩, rfl⟩
      rw [hlast] at h'
      cases h'
    · rename_i h1 h2
      cases h
      exact ⟨fun n fs' q' h' => h1 _ _ _ h', ⟨_, _, _, by simp [TypeTableState.add]; exact ⟨rfl, rfl, rfl⟩⟩, rfl⟩

/-- Accepted records never have a named structure directly after a named structure. -/
theorem foldl_no_two_named (pf : Profile) {nm : Str} {rs : List BRecord} {ds : List TyDecl} (h : Lists nm rs ds)
    (pre : List PType) (s : TypeTableState) (hs : rs.foldlM (typeStep pf) { inner := pre, lastName := nm } = .ok s) :
    ((∃ n fs q, pre.getLast? = some (.struct (some n) fs q)) → ∀ d, ds.head? = some d → ¬ d.IsNamed) ∧
    (∀ l a b r, ds = l ++ a :: b :: r → a.IsNamed → ¬ b.IsNamed) := by
  have split : ∀ {d : TyDecl} {ds : List TyDecl}, (d.IsNamed → ∀ d', ds.head? = some d' → ¬ d'.IsNamed) →
      (∀ l a b r, ds = l ++ a :: b :: r → a.IsNamed → ¬ b.IsNamed) →
      ∀ l a b r, d :: ds = l ++ a :: b :: r → a.IsNamed → ¬ b.IsNamed := by
    intro d ds h1 h2 l a b r hd ha
    cases l with
    | nil =>
      obtain ⟨rfl, rfl⟩ := List.cons.inj hd
      exact h1 ha b rfl
    | cons x l =>
      obtain ⟨rfl, rfl⟩ := List.cons.inj hd
      exact h2 l a b r rfl ha
  induction h generalizing pre with
  | nil => exact ⟨fun _ d hd => by simp at hd, fun l a b r h => by simp at h⟩
  | numEntry hc _ ih =>
    rw [List.foldlM_cons, typeStep_numEntry pf _ hc, Out.ok_bind] at hs
    exact ih pre hs
  | single hsay _ ih =>
    obtain ⟨p, hp, rfl⟩ := typeStep_says pf { inner := pre, lastName := _ } hsay
    rw [List.foldlM_cons, hp, Out.ok_bind] at hs
    refine ⟨fun _ d hd => ?_, split (fun h => absurd h hsay.not_named) (ih _ hs).2⟩
    cases hd
    exact hsay.not_named
  | name hc hf hl _ ih =>
    rw [List.foldlM_cons, typeStep_name pf _ hc hf hl, Out.ok_bind] at hs
    exact ih pre hs
  | named hc hf _ ih =>
    rw [List.foldlM_cons, Out.bind_eq_ok] at hs
    obtain ⟨s1, h1, h2⟩ := hs
    obtain ⟨ha, hb, hc'⟩ := named_step_last pf hc hf h1
    have := ih s1.inner (by rw [← hc']; exact h2)
    exact ⟨fun ⟨n, fs, q, h⟩ => absurd h (ha n fs q), split (fun _ => this.1 hb) this.2⟩
  | opaqueStruct hc hn _ ih =>
    rw [List.foldlM_cons, Out.bind_eq_ok] at hs
    obtain ⟨s1, h1, h2⟩ := hs
    obtain ⟨ha, hb, hc'⟩ := opaque_step_last pf hc h1
    have := ih s1.inner (by rw [← hc']; exact h2)
    exact ⟨fun ⟨n, fs, q, h⟩ => absurd h (ha n fs q), split (fun _ => this.1 hb) this.2⟩

end Verif
