import Verif.Mapper.NumberSpec
import Verif.Props.Verdict
import Verif.Mapper.Stderr
import Verif.Props.TypeErrors
import Verif.Props.AttributeErrors
import Verif.Props.CauseLists
import Verif.Props.Reports

/-! C99: what the report says about a number that is none of an enumeration. -/

namespace Verif
open Spec

theorem toString_decimal (n : Nat) : (toString n).toList = decimal n := by
  show (Nat.repr n).toList = _
  unfold decimal
  exact Nat.toList_repr

theorem noSuchNumber_eq (name : String) (v : U64) : Stderr.noDiscriminant name v = NoSuchNumber name v.toNat := by
  unfold Stderr.noDiscriminant NoSuchNumber
  rw [String.toList_append, String.toList_append, String.toList_append, String.toList_append, toString_decimal]
  generalize "No discriminant in enum `".toList = a
  generalize "` matches the value `".toList = b
  generalize "`".toList = c
  generalize decimal _ = d
  simp only [List.append_assoc]

theorem getD_set {fs : List U64} {i j : Nat} (h : i ≠ j) : (fs.set i 0)[j]?.getD 0 = fs[j]?.getD 0 := by
  rw [List.getElem?_set_ne h]

/-- C99, for alias records: one that maps once field `i` is 0, and whose field `i` is a number that stands for nothing there, is refused, with two messages:
what is wrong, and which number is none of which enumeration. -/
theorem C99_alias (pf : Profile) (r : BRecord) (ctx : MapCtx) (utf8 : Str) {i : Nat} {a : Alias}
    (h : Alias.tryMap pf { r with fields := r.fields.set i 0 } ctx = .ok a) :
    (i = 5 → (∀ x, (field r.fields 5, x) ∉ visibilityTable) → ∃ e, Alias.tryMap pf r ctx = .err e ∧
      Stderr.aliasCauses utf8 e = ["invalid visibility".toList, NoSuchNumber "Visibility" (field r.fields 5)]) ∧
    (i = 6 → (∀ x, (field r.fields 6, x) ∉ dllStorageClassTable) → ∃ e, Alias.tryMap pf r ctx = .err e ∧
      Stderr.aliasCauses utf8 e = ["invalid storage class".toList, NoSuchNumber "DllStorageClass" (field r.fields 6)]) := by
  have hv : 2 ≤ ctx.version.toNat := by
    refine (useStrtab_iff ctx).1 ?_
    cases hu : ctx.useStrtab with
    | true => rfl
    | false => simp [Alias.tryMap, hu] at h
  have hl : 5 ≤ r.fields.length := by
    have hu := (useStrtab_iff ctx).2 hv
    refine Nat.le_of_not_lt fun hc => ?_
    simp [Alias.tryMap, hu] at h
    rw [if_pos (by omega)] at h
    simp at h
  rw [Alias.tryMap_eq pf _ ctx hv (by simpa using hl)] at h
  rw [Alias.tryMap_eq pf r ctx hv hl]
  constructor
  · rintro rfl hx
    simp only [getD_set (show 5 ≠ 0 by decide), getD_set (show 5 ≠ 1 by decide), getD_set (show 5 ≠ 2 by decide), Out.bind_eq_ok] at h
    obtain ⟨name, h1, ty, h2, -⟩ := h
    refine ⟨.visibility (r.fields[5]?.getD 0), ?_, by unfold field; rw [← noSuchNumber_eq]; rfl⟩
    rw [h1, Out.ok_bind, h2, Out.ok_bind, (decode_none (C50_visibility _)).2 hx]
    rfl
  · rintro rfl hx
    simp only [getD_set (show 6 ≠ 0 by decide), getD_set (show 6 ≠ 1 by decide), getD_set (show 6 ≠ 2 by decide), getD_set (show 6 ≠ 5 by decide),
      Out.bind_eq_ok] at h
    obtain ⟨name, h1, ty, h2, vi, h3, -⟩ := h
    refine ⟨.dllStorageClass (r.fields[6]?.getD 0), ?_, by unfold field; rw [← noSuchNumber_eq]; rfl⟩
    rw [h1, Out.ok_bind, h2, Out.ok_bind, h3, Out.ok_bind, (decode_none (C50_dllStorageClass _)).2 hx]
    rfl

/-- An alias with 9 for its visibility, and one with 3 for its storage class. -/
example (pf : Profile) : (∃ a, Alias.tryMap pf ⟨none, 14, [0, 4, 1, 0, 0, 9].set 5 0⟩ exampleCtx = .ok a) ∧ (∀ x, (9, x) ∉ visibilityTable) ∧
    (∃ a, Alias.tryMap pf ⟨none, 14, [0, 4, 1, 0, 0, 1, 3].set 6 0⟩ exampleCtx = .ok a) ∧ ∀ x, (3, x) ∉ dllStorageClassTable := by
  refine ⟨?_, fun x => by cases x <;> decide +kernel, ?_, fun x => by cases x <;> decide +kernel⟩ <;> cases pf <;> exact ⟨_, rfl⟩

/-- C99, for function records. -/
theorem C99_function (pf : Profile) (r : BRecord) (ctx : MapCtx) (utf8 : Str) {i : Nat} {f : FunctionRecord}
    (h : FunctionRecord.tryMap pf { r with fields := r.fields.set i 0 } ctx = .ok f) :
    (i = 3 → (∀ x, (field r.fields 3, x) ∉ callingConventionTable) → ∃ e, FunctionRecord.tryMap pf r ctx = .err e ∧
      Stderr.functionCauses utf8 e = ["unknown calling convention".toList, NoSuchNumber "CallingConvention" (field r.fields 3)]) ∧
    (i = 9 → (∀ x, (field r.fields 9, x) ∉ visibilityTable) → ∃ e, FunctionRecord.tryMap pf r ctx = .err e ∧
      Stderr.functionCauses utf8 e = ["invalid visibility".toList, NoSuchNumber "Visibility" (field r.fields 9)]) ∧
    (i = 13 → (∀ x, (field r.fields 13, x) ∉ dllStorageClassTable) → ∃ e, FunctionRecord.tryMap pf r ctx = .err e ∧
      Stderr.functionCauses utf8 e = ["invalid storage class".toList, NoSuchNumber "DllStorageClass" (field r.fields 13)]) := by
  have hv : 2 ≤ ctx.version.toNat := by
    refine (useStrtab_iff ctx).1 ?_
    cases hu : ctx.useStrtab with
    | true => rfl
    | false => simp [FunctionRecord.tryMap, hu] at h
  have hl : 10 ≤ r.fields.length := by
    have hu := (useStrtab_iff ctx).2 hv
    refine Nat.le_of_not_lt fun hc => ?_
    simp [FunctionRecord.tryMap, hu] at h
    rw [if_pos (by omega)] at h
    simp at h
  rw [FunctionRecord.tryMap_eq pf _ ctx hv (by simpa using hl)] at h
  rw [FunctionRecord.tryMap_eq pf r ctx hv hl]
  refine ⟨?_, ?_, ?_⟩
  · rintro rfl hx
    simp only [getD_set (show 3 ≠ 0 by decide), getD_set (show 3 ≠ 1 by decide), getD_set (show 3 ≠ 2 by decide), Out.bind_eq_ok] at h
    obtain ⟨name, h1, ty, h2, -⟩ := h
    refine ⟨.callingConvention (r.fields[3]?.getD 0), ?_, by unfold field; rw [← noSuchNumber_eq]; rfl⟩
    rw [h1, Out.ok_bind, h2, Out.ok_bind, (decode_none (C50_callingConvention _)).2 hx]
    rfl
  · rintro rfl hx
    simp only [getD_set (show 9 ≠ 0 by decide), getD_set (show 9 ≠ 1 by decide), getD_set (show 9 ≠ 2 by decide), getD_set (show 9 ≠ 3 by decide),
      getD_set (show 9 ≠ 6 by decide), getD_set (show 9 ≠ 7 by decide), getD_set (show 9 ≠ 8 by decide), Out.bind_eq_ok] at h
    obtain ⟨name, h1, ty, h2, cc, h3, at', h4, al, h5, se, h6, -⟩ := h
    refine ⟨.visibility (r.fields[9]?.getD 0), ?_, by unfold field; rw [← noSuchNumber_eq]; rfl⟩
    rw [h1, Out.ok_bind, h2, Out.ok_bind, h3, Out.ok_bind, h4, Out.ok_bind, h5, Out.ok_bind, h6, Out.ok_bind, (decode_none (C50_visibility _)).2 hx]
    rfl
  · rintro rfl hx
    simp only [getD_set (show 13 ≠ 0 by decide), getD_set (show 13 ≠ 1 by decide), getD_set (show 13 ≠ 2 by decide), getD_set (show 13 ≠ 3 by decide),
      getD_set (show 13 ≠ 6 by decide), getD_set (show 13 ≠ 7 by decide), getD_set (show 13 ≠ 8 by decide), getD_set (show 13 ≠ 9 by decide),
      getD_set (show 13 ≠ 10 by decide), Out.bind_eq_ok] at h
    obtain ⟨name, h1, ty, h2, cc, h3, at', h4, al, h5, se, h6, vi, h7, gc, h8, -⟩ := h
    refine ⟨.dllStorageClass (r.fields[13]?.getD 0), ?_, by unfold field; rw [← noSuchNumber_eq]; rfl⟩
    rw [h1, Out.ok_bind, h2, Out.ok_bind, h3, Out.ok_bind, h4, Out.ok_bind, h5, Out.ok_bind, h6, Out.ok_bind, h7, Out.ok_bind, h8, Out.ok_bind,
      (decode_none (C50_dllStorageClass _)).2 hx]
    rfl

/-- A function with 3 for its calling convention, one with 9 for its visibility, and one with 3 for its storage class. -/
example (pf : Profile) : (∃ f, FunctionRecord.tryMap pf ⟨none, 8, [0, 4, 1, 3, 0, 3, 0, 5, 1, 1].set 3 0⟩ exampleCtx = .ok f) ∧
    (∀ x, (3, x) ∉ callingConventionTable) ∧
    (∃ f, FunctionRecord.tryMap pf ⟨none, 8, [0, 4, 1, 8, 0, 3, 0, 5, 1, 9].set 9 0⟩ exampleCtx = .ok f) ∧
    ∃ f, FunctionRecord.tryMap pf ⟨none, 8, [0, 4, 1, 8, 0, 3, 0, 5, 1, 1, 0, 0, 0, 3].set 13 0⟩ exampleCtx = .ok f := by
  refine ⟨?_, fun x => by cases x <;> decide +kernel, ?_, ?_⟩ <;> cases pf <;> exact ⟨_, rfl⟩

/-- C99, for COMDAT records. -/
theorem C99_comdat (pf : Profile) (r : BRecord) (ctx : PartialMapCtx) (utf8 : Str) {c : Comdat}
    (h : Comdat.tryMap pf { r with fields := r.fields.set 2 0 } ctx = .ok c) (hx : ∀ x, (field r.fields 2, x) ∉ selectionKindTable) :
    ∃ e, Comdat.tryMap pf r ctx = .err e ∧ Stderr.comdatCauses utf8 e =
      ["unknown or invalid COMDAT selection kind: ".toList ++ NoSuchNumber "SelectionKind" (field r.fields 2),
        NoSuchNumber "SelectionKind" (field r.fields 2)] := by
  refine ⟨.selectionKind (r.fields[2]?.getD 0), ?_, by simp only [Stderr.comdatCauses, noSuchNumber_eq]; rfl⟩
  unfold Comdat.tryMap at h ⊢
  simp only [Out.bind_eq_ok] at h
  obtain ⟨u, hu, h⟩ := h
  rw [hu, Out.ok_bind]
  cases u with
  | false => simp at h
  | true =>
    simp only [Bool.not_true, Bool.false_eq_true, if_false, List.length_set] at h ⊢
    by_cases hl : r.fields.length = 3
    case neg => rw [if_pos hl] at h; cases h
    rw [if_neg (by simpa using hl)] at h ⊢
    rw [fieldAt_eq (i := 0) (by simp [hl]), fieldAt_eq (i := 1) (by simp [hl])] at h
    rw [fieldAt_eq (i := 0) (by omega), fieldAt_eq (i := 1) (by omega), fieldAt_eq (i := 2) (by omega)]
    simp only [getD_set (show 2 ≠ 0 by decide), getD_set (show 2 ≠ 1 by decide), Out.ok_bind, Out.bind_eq_ok] at h ⊢
    obtain ⟨name, h1, -⟩ := h
    rw [h1, Out.ok_bind, selection_none.2 hx]
    rfl

/-- A COMDAT with 5 for its kind. -/
example (pf : Profile) : (∃ c, Comdat.tryMap pf ⟨none, 12, [0, 4, 5].set 2 0⟩ { PartialMapCtx.default with version := some 2, strtab := ⟨utf8 "mainx".toList⟩ } = .ok c) ∧
    ∀ x, (5, x) ∉ selectionKindTable := by
  refine ⟨?_, fun x => by cases x <;> decide +kernel⟩
  cases pf <;> exact ⟨_, rfl⟩

/-! ## Codes of records -/

theorem noTypeCode {v : U64} (h : v.toNat = 0 ∨ 25 < v.toNat) : (tryFromPrimitive v : Option TypeCode) = none := by
  cases hc : (tryFromPrimitive v : Option TypeCode) with
  | none => rfl
  | some c =>
    have hc : v = c.code := (tryFromPrimitive_iff.1 hc).symm
    rw [hc] at h
    cases c <;> exact absurd h (by decide)

theorem foldlM_insert {ε α σ : Type} {f : σ → α → Out ε σ} {a : α} {e : ε} (h : ∀ s, f s a = .err e) {pre post : List α} {s out : σ}
    (ho : (pre ++ post).foldlM f s = .ok out) : (pre ++ a :: post).foldlM f s = .err e := by
  rw [List.foldlM_append] at ho ⊢
  obtain ⟨s', h1, -⟩ := Out.bind_eq_ok.1 ho
  rw [h1, Out.ok_bind, List.foldlM_cons, h]
  rfl

/-- C99, for tables of types: with one more record, with a code that is none of a type, somewhere in a table that maps, the table is refused, and the messages
say which code. -/
theorem C99_types (pf : Profile) (k : BlockId) (bs : Blocks) {pre post : List BRecord} {ts : TypeTable}
    (h : TypeTable.tryFrom pf (UBlock.mk k (pre ++ post) bs) = .ok ts) (r : BRecord) (hr : r.code.toNat = 0 ∨ 25 < r.code.toNat)
    (plain : Char → Bool) (utf8 : Str) : ∃ e, TypeTable.tryFrom pf (UBlock.mk k (pre ++ r :: post) bs) = .err e ∧
      Stderr.tableCauses plain utf8 e = ["unknown type code".toList, NoSuchNumber "TypeCode" r.code.toNat] := by
  refine ⟨.unknownTypeCode r.code, ?_, by rw [← noSuchNumber_eq]; rfl⟩
  have step (s : TypeTableState) : typeStep pf s r = .err (.unknownTypeCode r.code) := by
    unfold typeStep
    rw [noTypeCode hr]
    rfl
  have hone : Records.one (pre ++ r :: post) TypeCode.numEntry.code = Records.one (pre ++ post) TypeCode.numEntry.code := by
    have : ¬ r.code = TypeCode.numEntry.code := by
      intro hc
      rw [hc] at hr
      exact absurd hr (by decide)
    simp [Records.one, Records.byCode, List.filter_append, this]
  unfold TypeTable.tryFrom at h ⊢
  simp only [UBlock.records, Out.bind_eq_ok] at h ⊢
  obtain ⟨r1, h1, n, h2, u, h3, s, h4, -⟩ := h
  rw [hone, h1, Out.ok_bind, h2, Out.ok_bind, h3, Out.ok_bind, foldlM_insert step h4]
  rfl

/-- C99, for tables of attribute groups. -/
theorem C99_groups (k : BlockId) (bs : Blocks) {pre post : List BRecord} {gs : AttributeGroups}
    (h : AttributeGroups.tryFrom (UBlock.mk k (pre ++ post) bs) = .ok gs) (r : BRecord) (hr : r.code.toNat ∉ [1, 2, 3]) :
    ∃ e, AttributeGroups.tryFrom (UBlock.mk k (pre ++ r :: post) bs) = .err e ∧
      Stderr.attributeCauses e = ["unknown attribute code".toList, NoSuchNumber "AttributeCode" r.code.toNat] := by
  refine ⟨.unknownAttributeCode r.code, ?_, by rw [← noSuchNumber_eq]; rfl⟩
  refine foldlM_insert (fun s => ?_) h
  unfold groupStep
  rw [attributeCode_none.2 hr]
  rfl

/-- C99, for the attributes in a group: after attributes `l` that are well-formed comes one of an unknown kind, or with an unknown number. -/
theorem C99_attributes (k : BlockId) (bs : Blocks) {pre post : List BRecord} {gs : AttributeGroups}
    (h : AttributeGroups.tryFrom (UBlock.mk k (pre ++ post) bs) = .ok gs) (r : BRecord) {id param : U64} {l : List (Attribute × List U64)} {fs : List U64}
    (hc : r.code = 3) (hl : AllAttrs l) (hf : r.fields = id :: param :: (l.flatMap (·.2) ++ fs)) :
    (∀ v rest, fs = v :: rest → v.toNat ∉ [0, 1, 3, 4] → ∃ e, AttributeGroups.tryFrom (UBlock.mk k (pre ++ r :: post) bs) = .err e ∧
      Stderr.attributeCauses e = ["unknown attribute kind".toList, NoSuchNumber "AttributeKind" v.toNat]) ∧
    (∀ v w rest, fs = w :: v :: rest → w.toNat ∈ [0, 1] → (∀ x, (v.toNat, x) ∉ attributeIdTable) →
      ∃ e, AttributeGroups.tryFrom (UBlock.mk k (pre ++ r :: post) bs) = .err e ∧
        Stderr.attributeCauses e = ["unknown attribute ID".toList, NoSuchNumber "AttributeId" v.toNat]) := by
  constructor
  · rintro v rest rfl hv
    exact ⟨.unknownAttributeKind v, foldlM_insert (fun s => groupStep_fault (.attribute hc hl hf (.kind hv))) h, by rw [← noSuchNumber_eq]; rfl⟩
  · rintro v w rest rfl hw hv
    exact ⟨.unknownAttributeId v, foldlM_insert (fun s => groupStep_fault (.attribute hc hl hf (.number hw hv))) h, by rw [← noSuchNumber_eq]; rfl⟩

/-- The group `nounwind` with another attribute, of kind 2, or number 200. -/
example : AllAttrs [(.enum .noUnwind, [0, 18])] ∧ (2 : U64).toNat ∉ [0, 1, 3, 4] ∧ ∀ x, ((200 : U64).toNat, x) ∉ attributeIdTable := by
  refine ⟨?_, by decide, fun x => by cases x <;> decide +kernel⟩
  intro p hp
  cases List.mem_singleton.1 hp
  exact .enum (by decide +kernel)

/-- C99, for tables of attribute lists. -/
theorem C99_lists (k : BlockId) (bs : Blocks) (g : AttributeGroups) {pre post : List BRecord} {as : Attributes}
    (h : Attributes.tryFrom (UBlock.mk k (pre ++ post) bs) g = .ok as) (r : BRecord) (hr : r.code.toNat ∉ [1, 2, 3]) :
    ∃ e, Attributes.tryFrom (UBlock.mk k (pre ++ r :: post) bs) g = .err e ∧
      Stderr.attributeCauses e = ["unknown attribute code".toList, NoSuchNumber "AttributeCode" r.code.toNat] := by
  refine ⟨.unknownAttributeCode r.code, ?_, by rw [← noSuchNumber_eq]; rfl⟩
  have step : attrsStep g r = .err (.unknownAttributeCode r.code) := by
    unfold attrsStep
    rw [attributeCode_none.2 hr]
    rfl
  show mapOut (attrsStep g) (pre ++ r :: post) = _
  replace h : mapOut (attrsStep g) (pre ++ post) = .ok as := h
  induction pre generalizing as with
  | nil => rw [List.nil_append, mapOut, step]; rfl
  | cons a l ih =>
    rw [List.cons_append, mapOut] at h ⊢
    simp only [Out.bind_eq_ok] at h
    obtain ⟨x, h1, xs, h2, -⟩ := h
    rw [h1, Out.ok_bind, ih h2]
    rfl

/-- Tables that map, and codes that are none of theirs. -/
example (pf : Profile) : (∃ ts, TypeTable.tryFrom pf (UBlock.mk (.ir .type) ([⟨none, 1, [2]⟩, ⟨none, 2, []⟩] ++ [⟨none, 7, [32]⟩]) []) = .ok ts) ∧
    (26 : U64).toNat > 25 ∧
    (∃ gs, AttributeGroups.tryFrom (UBlock.mk (.ir .paramAttrGroup) ([] ++ [⟨none, 3, [1, 0xFFFFFFFF, 0, 18]⟩]) []) = .ok gs ∧
      ∃ as, Attributes.tryFrom (UBlock.mk (.ir .paramAttr) ([⟨none, 2, [1]⟩] ++ [⟨none, 2, [1]⟩]) []) gs = .ok as) ∧
    (4 : U64).toNat ∉ [1, 2, 3] := by
  refine ⟨?_, by decide, ⟨_, rfl, _, rfl⟩, by decide⟩
  cases pf <;> exact ⟨_, rfl⟩

/-! ## Function bodies -/

theorem body_reaches {types : TypeTable} {a : Option U64} {n : U64} {more : List U64} {pre post : List BRecord} {r : BRecord} {e : FunctionBlockError}
    (hn : n.toNat * 24 < 2 ^ 63) (hpre : ∀ x ∈ pre, x.code.toNat ∈ [3, 19, 20, 44] ∧ x.fields.length = 4) (hpost : ∀ x ∈ post, x.code ≠ 1)
    (hr : r.code ≠ 1) (h : functionStep types r = .err e) (k : BlockId) (bs : Blocks) :
    FunctionBlock.tryFrom (UBlock.mk k (⟨a, 1, n :: more⟩ :: (pre ++ r :: post)) bs) types = .err e := by
  have hby : Records.byCode (⟨a, 1, n :: more⟩ :: (pre ++ r :: post)) FunctionCode.declareBlocks.code = [⟨a, 1, n :: more⟩] := by
    have h1 : ∀ x ∈ pre ++ r :: post, x.code ≠ 1 := by
      intro x hx hc
      rcases List.mem_append.1 hx with hx | hx
      · have := (hpre x hx).1
        rw [hc] at this
        exact absurd this (by decide)
      · rcases List.mem_cons.1 hx with rfl | hx
        · exact hr hc
        · exact hpost x hx hc
    have h2 : (pre ++ r :: post).filter (fun r => r.code == FunctionCode.declareBlocks.code) = [] :=
      List.filter_eq_nil_iff.2 fun x hx hc => h1 x hx (beq_iff_eq.1 hc)
    unfold Records.byCode
    rw [List.filter_cons, h2]
    rfl
  have hloop : functionLoop types (pre ++ r :: post) = .err e := by
    clear hby
    induction pre with
    | nil => rw [List.nil_append, functionLoop, h]; rfl
    | cons x l ih =>
      obtain ⟨h1, h2⟩ := hpre x List.mem_cons_self
      rw [List.cons_append, functionLoop]
      have hx : functionStep types x = .ok () := by
        have : x.code = 3 ∨ x.code = 19 ∨ x.code = 20 ∨ x.code = 44 := by
          simpa [BitVec.toNat_eq] using h1
        unfold functionStep
        rcases this with hc | hc | hc | hc <;> rw [hc]
        · exact if_pos h2
        · exact if_pos h2
        · exact if_pos h2
        · exact if_pos h2
      rw [hx, Out.ok_bind]
      exact ih fun y hy => hpre y (List.mem_cons_of_mem _ hy)
  unfold FunctionBlock.tryFrom Records.exactlyOne
  simp only [UBlock.records]
  rw [hby]
  simp only [Out.mapErr_ok, Out.ok_bind]
  show (blockCapacity n >>= fun _ => functionLoop types (⟨a, 1, n :: more⟩ :: (pre ++ r :: post)) >>= fun _ => _) = _
  rw [show blockCapacity n = .ok () from if_pos hn, Out.ok_bind, functionLoop, hloop]
  rfl

/-- C99, for function bodies. After the number of blocks, and instructions that are read, comes a record with an unknown code, or an operator that is unknown. -/
theorem C99_bodies {types : TypeTable} {a : Option U64} {n : U64} {more : List U64} {pre post : List BRecord} {r : BRecord}
    (hn : n.toNat * 24 < 2 ^ 63) (hpre : ∀ x ∈ pre, x.code.toNat ∈ [3, 19, 20, 44] ∧ x.fields.length = 4) (hpost : ∀ x ∈ post, x.code ≠ 1)
    (k : BlockId) (bs : Blocks) (plain : Char → Bool) (utf8 : Str) :
    ((∀ c, (r.code.toNat, c) ∉ functionCodeTable) →
      ∃ e, FunctionBlock.tryFrom (UBlock.mk k (⟨a, 1, n :: more⟩ :: (pre ++ r :: post)) bs) types = .err e ∧
        Stderr.bodyCauses plain utf8 e = ["unknown function code".toList, NoSuchNumber "FunctionCode" r.code.toNat]) ∧
    (∀ x ty op, r.code = 56 → r.fields = [x, ty, op] → ty.toNat < types.length → op ≠ 0 →
      ∃ e, FunctionBlock.tryFrom (UBlock.mk k (⟨a, 1, n :: more⟩ :: (pre ++ r :: post)) bs) types = .err e ∧
        Stderr.bodyCauses plain utf8 e = ["invalid unary opcode".toList, "unknown opcode".toList, NoSuchNumber "UnaryOpcode" op.toNat]) ∧
    (∀ x ty y op, r.code = 2 → r.fields = [x, ty, y, op] → ty.toNat < types.length → 13 ≤ op.toNat →
      ∃ e, FunctionBlock.tryFrom (UBlock.mk k (⟨a, 1, n :: more⟩ :: (pre ++ r :: post)) bs) types = .err e ∧
        Stderr.bodyCauses plain utf8 e = ["invalid binary opcode".toList, "unknown opcode".toList, NoSuchNumber "BinaryOpcode" op.toNat]) := by
  refine ⟨fun h => ?_, fun x ty op hc hf ht ho => ?_, fun x ty y op hc hf ht ho => ?_⟩
  · refine ⟨.unknownFunctionCode r.code, body_reaches hn hpre hpost ?_ ?_ k bs, by rw [← noSuchNumber_eq]; rfl⟩
    · intro hc
      rw [hc] at h
      exact h .declareBlocks (functionCode_table .declareBlocks)
    · unfold functionStep
      rw [functionCode_none.2 h]
      rfl
  · refine ⟨.badUnOp (.opcode op), body_reaches hn hpre hpost (by rw [hc]; decide) ?_ k bs, by rw [← noSuchNumber_eq]; rfl⟩
    have hnone : (tryFromPrimitive op : Option UnaryOpcode) = none := by
      cases hu : (tryFromPrimitive op : Option UnaryOpcode) with
      | none => rfl
      | some c =>
        have hu : op = _ := (tryFromPrimitive_iff.1 hu).symm
        cases c
        exact absurd hu ho
    have htab : types.get ty = some types[ty.toNat] := List.getElem?_eq_getElem ht
    unfold functionStep
    rw [hc]
    show (match r.fields with
      | [_, ty, opcode] => do
        let _ ← instType .instUnop types ty
        let _ ← (UnaryOp.tryFrom opcode).mapErr .badUnOp
        .ok ()
      | fs => .err (.badInst .instUnop (.fields 3 fs.length)) : Out FunctionBlockError Unit) = _
    rw [hf]
    simp only [instType, htab, UnaryOp.tryFrom, hnone]
    rfl
  · refine ⟨.badBinOp (.opcode op), body_reaches hn hpre hpost (by rw [hc]; decide) ?_ k bs, by rw [← noSuchNumber_eq]; rfl⟩
    have hnone : (tryFromPrimitive op : Option BinaryOpcode) = none := by
      cases hu : (tryFromPrimitive op : Option BinaryOpcode) with
      | none => rfl
      | some c =>
        have hu : op = _ := (tryFromPrimitive_iff.1 hu).symm
        rw [hu] at ho
        cases c <;> exact absurd ho (by decide)
    have htab : types.get ty = some types[ty.toNat] := List.getElem?_eq_getElem ht
    unfold functionStep
    rw [hc]
    show (match r.fields with
      | [_, ty, _, opcode] => do
        let ty ← instType .instBinop types ty
        let _ ← (BinaryOp.tryFrom opcode ty).mapErr .badBinOp
        .ok ()
      | fs => .err (.badInst .instBinop (.fields 4 fs.length)) : Out FunctionBlockError Unit) = _
    rw [hf]
    simp only [instType, htab, BinaryOp.tryFrom, hnone]
    rfl

/-- A body with a load, and then one of the three. -/
example : (1 : U64).toNat * 24 < 2 ^ 63 ∧ (∀ x ∈ [(⟨none, 20, [1, 0, 4, 0]⟩ : BRecord)], x.code.toNat ∈ [3, 19, 20, 44] ∧ x.fields.length = 4) ∧
    (∀ c, ((99 : U64).toNat, c) ∉ functionCodeTable) ∧ (0 : U64).toNat < [Ty.prim .float].length ∧ (1 : U64) ≠ 0 ∧ 13 ≤ (13 : U64).toNat := by
  refine ⟨by decide, by simp, fun c => by cases c <;> decide +kernel, by decide, by decide, by decide⟩

/-! ## Streams -/

/-- C99, for the stream itself: the numbers for which reading a stream is refused with messages about the codes of BLOCKINFO records are those that are none of
the codes, and the numbers for which it is refused with messages about the encodings of operands are those of three bits that are none of the encodings. -/
theorem C99_stream (pf : Profile) (v : U64) :
    ((∃ b e, Reach pf b ∧ (Bitstream.next pf b).1 = .error e ∧
      Stderr.bitstreamCauses e = ["bad record code for BLOCKINFO block".toList, NoSuchNumber "BlockInfoCode" v.toNat]) ↔ v.toNat ∉ [1, 2, 3]) ∧
    ((∃ b e, Reach pf b ∧ (Bitstream.next pf b).1 = .error e ∧
      Stderr.bitstreamCauses e = ["bad operand code for DEFINE_ABBREV operand".toList, NoSuchNumber "AbbrevOpEnc" v.toNat]) ↔ v.toNat ∈ [0, 6, 7]) := by
  rw [← noSuchNumber_eq, ← noSuchNumber_eq]
  constructor
  · constructor
    · rintro ⟨b, e, hb, he, hm⟩
      cases Props.bitstream_inj (b := .badBlockInfoCode v) hm
      cases (C73_read pf _).1 ⟨b, hb, he⟩ with
      | infoCode _ h1 h2 h3 =>
        simp only [List.mem_cons, List.not_mem_nil, or_false, not_or]
        exact ⟨fun h => h1 (BitVec.eq_of_toNat_eq h), fun h => h2 (BitVec.eq_of_toNat_eq h), fun h => h3 (BitVec.eq_of_toNat_eq h)⟩
    · intro h
      simp only [List.mem_cons, List.not_mem_nil, or_false, not_or] at h
      obtain ⟨b, hb, he⟩ := (C73_read pf (.badBlockInfoCode v)).2
        (.infoCode v (fun hc => h.1 (by rw [hc]; rfl)) (fun hc => h.2.1 (by rw [hc]; rfl)) (fun hc => h.2.2 (by rw [hc]; rfl)))
      exact ⟨b, _, hb, he, rfl⟩
  · constructor
    · rintro ⟨b, e, hb, he, hm⟩
      cases Props.bitstream_inj (b := .badAbbrevOpEnc v) hm
      cases (C73_read pf _).1 ⟨b, hb, he⟩ with
      | encoding _ h => rcases h with rfl | rfl | rfl <;> decide
    · intro h
      simp only [List.mem_cons, List.not_mem_nil, or_false] at h
      obtain ⟨b, hb, he⟩ := (C73_read pf (.badAbbrevOpEnc v)).2
        (.encoding v (h.imp BitVec.eq_of_toNat_eq (Or.imp BitVec.eq_of_toNat_eq BitVec.eq_of_toNat_eq)))
      exact ⟨b, _, hb, he, rfl⟩

end Verif
