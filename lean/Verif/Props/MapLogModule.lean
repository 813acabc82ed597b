import Verif.Props.MapLogTypes
import Verif.Props.Module

/-! What is logged for attribute lists and modules. -/

namespace Verif
open Spec Logged

namespace Logged
variable {ε δ α β γ : Type}

/-- Messages, of which all are there if the outcome is a success. -/
def Tells (x : Logged ε α) (ls : List MapLine) : Prop := x.lines <+: ls ∧ ∀ a, x.out = .ok a → x.lines = ls

theorem tells_mapAll {f : α → Logged ε β} {L : α → List MapLine} (h : ∀ a, Tells (f a) (L a)) (l : List α) :
    Tells (mapAll f l) (l.flatMap L) := by
  induction l with
  | nil => exact ⟨List.prefix_rfl, fun _ _ => rfl⟩
  | cons a l ih =>
    unfold mapAll
    rw [List.flatMap_cons]
    by_cases ha : ∃ b, (f a).out = .ok b
    · obtain ⟨b, hb⟩ := ha
      have he := (h a).2 b hb
      constructor
      · rw [lines_bind_ok _ hb, he, lines_bind_of]
        exact (List.prefix_append_right_inj _).2 ih.1
      · intro bs hbs
        rw [out_bind, hb, Out.ok_bind, out_bind, Out.bind_eq_ok] at hbs
        obtain ⟨bs', h1, -⟩ := hbs
        rw [lines_bind_ok _ hb, he, lines_bind_of, ih.2 bs' h1]
    · constructor
      · rw [lines_bind_not _ fun b hb => ha ⟨b, hb⟩]
        exact (h a).1.trans (List.prefix_append _ _)
      · intro bs hbs
        rw [out_bind, Out.bind_eq_ok] at hbs
        obtain ⟨b, hb, -⟩ := hbs
        exact absurd ⟨b, hb⟩ ha

end Logged

/-! ## Attribute lists -/

theorem groupRef_lines (g : AttributeGroups) (f : U64) : (MapLog.groupRef g f).lines = [.groupId (f.setWidth 32)] := rfl

theorem tells_attrsStep (g : AttributeGroups) (r : BRecord) :
    Tells (MapLog.attrsStep g r) (r.fields.map fun f => .groupId (f.setWidth 32)) := by
  have hm : Tells (mapAll (MapLog.groupRef g) r.fields) (r.fields.map fun f => .groupId (f.setWidth 32)) := by
    have := tells_mapAll (f := MapLog.groupRef g) (L := fun f => [.groupId (f.setWidth 32)])
      (fun f => ⟨by rw [groupRef_lines]; exact List.prefix_rfl, fun _ _ => groupRef_lines g f⟩) r.fields
    rwa [← List.map_eq_flatMap] at this
  unfold MapLog.attrsStep
  cases hc : (tryFromPrimitive r.code : Option AttributeCode) with
  | none => exact ⟨List.nil_prefix, by intro a ha; cases ha⟩
  | some c =>
    cases c with
    | entryOld => exact ⟨List.nil_prefix, by intro a ha; cases ha⟩
    | entry => exact hm
    | groupCodeEntry => exact ⟨List.nil_prefix, by intro a ha; cases ha⟩

/-- The numbers of the groups that the records of a table of attribute lists refer to. -/
def recordLines (rs : List BRecord) : List MapLine := rs.flatMap fun r => r.fields.map fun f => .groupId (f.setWidth 32)

theorem tells_attributes (b : UBlock) (g : AttributeGroups) : Tells (MapLog.attributes b g) (recordLines b.records) :=
  tells_mapAll (tells_attrsStep g) b.records

theorem attrs_last (g : AttributeGroups) {l : List U64} {i : U32} (h : (mapAll (MapLog.groupRef g) l).out = .err (.badAttributeGroup i)) :
    (mapAll (MapLog.groupRef g) l).lines.getLast? = some (.groupId i) := by
  rw [out_mapAll, mapOut_eq_err] at h
  obtain ⟨pre, f, post, rfl, hpre, hf⟩ := h
  rw [lines_mapAll_not (mapOut_exists.1 hpre) (by intro a ha; rw [hf] at ha; cases ha), groupRef_lines]
  unfold MapLog.groupRef at hf
  simp only [out_bind, out_tell, Out.ok_bind, out_of] at hf
  cases hg : g.get (f.setWidth 32) with
  | none => rw [hg] at hf; cases hf; simp
  | some x => rw [hg] at hf; cases hf

theorem attributes_last (b : UBlock) (g : AttributeGroups) {i : U32} (h : Attributes.tryFrom b g = .err (.badAttributeGroup i)) :
    (MapLog.attributes b g).lines.getLast? = some (.groupId i) := by
  rw [← log_attributes] at h
  unfold MapLog.attributes at h ⊢
  have h' := h
  rw [out_mapAll, mapOut_eq_err] at h'
  obtain ⟨pre, r, post, he, hpre, hf⟩ := h'
  rw [he, lines_mapAll_not (mapOut_exists.1 hpre) (by intro a ha; rw [hf] at ha; cases ha)]
  have hr : (MapLog.attrsStep g r).lines.getLast? = some (.groupId i) := by
    unfold MapLog.attrsStep at hf ⊢
    cases hc : (tryFromPrimitive r.code : Option AttributeCode) with
    | none => rw [hc] at hf; cases hf
    | some c =>
      rw [hc] at hf
      cases c with
      | entryOld => cases hf
      | entry => exact attrs_last g hf
      | groupCodeEntry => cases hf
  rw [List.getLast?_append, hr]; rfl

theorem known_iff {g : AttributeGroups} (hg : Sorted g) (f : U64) : known g f = true ↔ ∃ x, g.get (f.setWidth 32) = some x := by
  have key : ∀ x, g.get (f.setWidth 32) = some x ↔ ∃ id : U32, id.toNat = f.toNat % 2 ^ 32 ∧ (id, x) ∈ g := by
    intro x
    rw [get_iff hg]
    constructor
    · exact fun h => ⟨_, by rw [BitVec.toNat_setWidth], h⟩
    · rintro ⟨id, h1, h2⟩
      rw [show f.setWidth 32 = id from BitVec.eq_of_toNat_eq (by rw [BitVec.toNat_setWidth, h1])]
      exact h2
  unfold known
  rw [List.any_eq_true]
  constructor
  · rintro ⟨⟨id, x⟩, h1, h2⟩
    exact ⟨x, (key x).2 ⟨id, by simpa using h2, h1⟩⟩
  · rintro ⟨x, hx⟩
    obtain ⟨id, h1, h2⟩ := (key x).1 hx
    exact ⟨(id, x), h2, by simpa using h1⟩

theorem groupRef_out (g : AttributeGroups) (hg : Sorted g) (f : U64) :
    (known g f = true → ∃ x, (MapLog.groupRef g f).out = .ok x) ∧ (known g f = false → ∀ x, (MapLog.groupRef g f).out ≠ .ok x) := by
  have hk := known_iff hg f
  unfold MapLog.groupRef
  simp only [out_bind, out_tell, Out.ok_bind, out_of]
  constructor
  · intro h
    obtain ⟨x, hx⟩ := hk.1 h
    exact ⟨x, by rw [hx]; rfl⟩
  · intro h x hx
    rw [ofOption_eq_ok] at hx
    rw [hk.2 ⟨x, hx⟩] at h
    cases h

theorem groupRefs_lines (g : AttributeGroups) (hg : Sorted g) (l : List U64) :
    (mapAll (MapLog.groupRef g) l).lines = ((lookedUp g l).map fun f => .groupId (f.setWidth 32)) ∧
    (l.all (known g) = true → ∃ xs, (mapAll (MapLog.groupRef g) l).out = .ok xs) ∧
    (l.all (known g) = false → ∀ xs, (mapAll (MapLog.groupRef g) l).out ≠ .ok xs) := by
  induction l with
  | nil => exact ⟨rfl, fun _ => ⟨_, rfl⟩, by simp⟩
  | cons f l ih =>
    obtain ⟨h1, h2, h3⟩ := ih
    unfold mapAll lookedUp
    cases hk : known g f with
    | true =>
      obtain ⟨x, hx⟩ := (groupRef_out g hg f).1 hk
      rw [lines_bind_ok _ hx, lines_bind_of, h1, groupRef_lines, out_bind, hx, Out.ok_bind]
      refine ⟨rfl, fun h => ?_, fun h xs hxs => ?_⟩
      · rw [List.all_cons, hk, Bool.true_and] at h
        obtain ⟨xs, hxs⟩ := h2 h
        exact ⟨x :: xs, by rw [out_bind, hxs]; rfl⟩
      · rw [List.all_cons, hk, Bool.true_and] at h
        rw [out_bind, Out.bind_eq_ok] at hxs
        obtain ⟨ys, hys, -⟩ := hxs
        exact h3 h ys hys
    | false =>
      have hx := (groupRef_out g hg f).2 hk
      rw [lines_bind_not _ hx, groupRef_lines]
      refine ⟨rfl, fun h => ?_, fun _ xs hxs => ?_⟩
      · rw [List.all_cons, hk] at h; cases h
      · rw [out_bind, Out.bind_eq_ok] at hxs
        obtain ⟨y, hy, -⟩ := hxs
        exact hx y hy

theorem attrsStep_entry (g : AttributeGroups) (r : BRecord) :
    (r.code = 2 → MapLog.attrsStep g r = mapAll (MapLog.groupRef g) r.fields) ∧
    (r.code ≠ 2 → (MapLog.attrsStep g r).lines = [] ∧ ∀ x, (MapLog.attrsStep g r).out ≠ .ok x) := by
  unfold MapLog.attrsStep
  constructor
  · intro h; rw [h]; rfl
  · intro h
    cases hc : (tryFromPrimitive r.code : Option AttributeCode) with
    | none => exact ⟨rfl, by intro x hx; cases hx⟩
    | some c =>
      have hcode : c.code = r.code := tryFromPrimitive_iff.1 hc
      cases c with
      | entryOld => exact ⟨rfl, by intro x hx; cases hx⟩
      | entry => exact absurd hcode.symm h
      | groupCodeEntry => exact ⟨rfl, by intro x hx; cases hx⟩

theorem attributes_lines (b : UBlock) (g : AttributeGroups) (hg : Sorted g) :
    (MapLog.attributes b g).lines = listLines g b.records := by
  unfold MapLog.attributes
  generalize b.records = rs
  induction rs with
  | nil => rfl
  | cons r rs ih =>
    unfold mapAll listLines
    by_cases hc : r.code = 2
    · rw [if_pos hc, (attrsStep_entry g r).1 hc]
      obtain ⟨h1, h2, h3⟩ := groupRefs_lines g hg r.fields
      cases hk : r.fields.all (known g) with
      | true =>
        obtain ⟨x, hx⟩ := h2 hk
        rw [lines_bind_ok _ hx, lines_bind_of, h1, ih, if_pos rfl]
      | false => rw [lines_bind_not _ (h3 hk), h1, if_neg (by simp), List.append_nil]
    · rw [if_neg hc]
      obtain ⟨h1, h2⟩ := (attrsStep_entry g r).2 hc
      rw [lines_bind_not _ h2, h1]

/-- C86, attribute lists. Each number of a group is logged when it is looked up, in order. If all are there, all numbers are logged. If
not, the last message is the number that the error reports. -/
theorem C86_attributes (b : UBlock) (g : AttributeGroups) :
    (MapLog.attributes b g).lines <+: (b.records.flatMap fun r => r.fields.map fun f => .groupId (f.setWidth 32)) ∧
    (∀ as, Attributes.tryFrom b g = .ok as →
      (MapLog.attributes b g).lines = b.records.flatMap fun r => r.fields.map fun f => .groupId (f.setWidth 32)) ∧
    ∀ i, Attributes.tryFrom b g = .err (.badAttributeGroup i) → (MapLog.attributes b g).lines.getLast? = some (.groupId i) :=
  ⟨(tells_attributes b g).1, fun as h => (tells_attributes b g).2 as (by rw [log_attributes]; exact h),
    fun _ h => attributes_last b g h⟩

/-- Two groups and three lists, of which the last refers to a group that is not there; the last message is its number. -/
example :
    let g : AttributeGroups := [(1, ⟨.return, []⟩), (2, ⟨.return, []⟩)]
    let b : UBlock := .mk (.ir .paramAttr) [exLogRecord 2 [1, 2], exLogRecord 2 [], exLogRecord 2 [2, 3, 1]] []
    Attributes.tryFrom b g = .err (.badAttributeGroup 3) ∧
      (MapLog.attributes b g).lines = [.groupId 1, .groupId 2, .groupId 2, .groupId 3] := by decide +kernel

/-! ## Tables -/

theorem of_cases {ε α β : Type} (x : Out ε α) (f : α → Logged ε β) :
    (∃ a, x = .ok a ∧ (of x >>= f) = f a) ∨ ((of x >>= f).lines = [] ∧ ∀ a, x ≠ .ok a) := by
  cases x with
  | ok a => exact .inl ⟨a, rfl, rfl⟩
  | _ => exact .inr ⟨rfl, by intro b h; cases h⟩

theorem declared_no_panic (pf : Profile) {b : UBlock} {ds : List TyDecl} (hd : Declares pf b.records ds) (p : PanicSite) :
    TypeTable.tryFrom pf b ≠ .panic p := by
  intro h
  obtain ⟨n, s, h1, h2, h3, h4, rfl⟩ := (declares_iff pf).1 hd
  rw [tryFrom_counted pf b h1 h2, h3, Out.ok_bind] at h
  cases ((reifyTypes_stops (s := .panic p)).1 h).1

/-- Only messages about types. -/
def OnTypes {ε α : Type} (x : Logged ε α) : Prop := ∀ l ∈ x.lines, ∃ y, asTypeLine l = some y

theorem OnTypes.of {ε α : Type} (x : Out ε α) : OnTypes (Logged.of x) := by intro l hl; cases hl

theorem OnTypes.bind {ε α β : Type} {x : Logged ε α} {f : α → Logged ε β} (h : OnTypes x) (hf : ∀ a, OnTypes (f a)) : OnTypes (x >>= f) := by
  intro l hl
  by_cases hx : ∃ a, x.out = .ok a
  · obtain ⟨a, ha⟩ := hx
    rw [lines_bind_ok _ ha] at hl
    rcases List.mem_append.1 hl with hl | hl
    · exact h l hl
    · exact hf a l hl
  · rw [lines_bind_not _ fun a ha => hx ⟨a, ha⟩] at hl
    exact h l hl

theorem OnTypes.tell {ε : Type} {l : MapLine} {y : TypeLine} (h : asTypeLine l = some y) : OnTypes (Logged.tell l : Logged ε Unit) := by
  intro l' hl
  cases List.mem_singleton.1 hl
  exact ⟨y, h⟩

theorem OnTypes.mapAll {ε α β : Type} {f : α → Logged ε β} (hf : ∀ a, OnTypes (f a)) (l : List α) : OnTypes (mapAll f l) := by
  induction l with
  | nil => exact .of _
  | cons a l ih => exact (hf a).bind fun _ => ih.bind fun _ => .of _

theorem OnTypes.resolve {table : List PType} {f : TypeRef → Logged TypeTableError Ty} (hf : ∀ r, OnTypes (f r)) (p : PType) :
    OnTypes (MapLog.resolve table f p) := by
  cases p with
  | prim p => exact .of _
  | integer w => exact .of _
  | opaquePointer a => exact .of _
  | function r ps v => exact (hf r).bind fun _ => (OnTypes.mapAll hf ps).bind fun _ => .of _
  | struct n fs q => exact (OnTypes.mapAll hf fs).bind fun _ => .of _
  | pointer e a => exact (hf e).bind fun _ => .of _
  | array n e => exact (hf e).bind fun _ => .of _
  | scalableVector n e => exact (hf e).bind fun _ => .of _
  | fixedVector n e => exact (OnTypes.tell rfl).bind fun _ => (hf e).bind fun _ => (OnTypes.tell rfl).bind fun _ => .of _

theorem OnTypes.resolveRef {table : List PType} (n : Nat) (r : TypeRef) : OnTypes (MapLog.resolveRef table n r) := by
  induction n generalizing r with
  | zero => exact .of _
  | succ n ih =>
    rw [MapLog.resolveRef]
    cases table[r.toNat]? with
    | none => exact .of _
    | some p => exact (OnTypes.tell rfl).bind fun _ => .resolve ih p

theorem lines_typed (pf : Profile) (b : UBlock) : ∀ l ∈ (MapLog.types pf b).lines, ∃ x, asTypeLine l = some x := by
  show OnTypes _
  unfold MapLog.types MapLog.typesWithin
  refine (OnTypes.of _).bind fun _ => (OnTypes.of _).bind fun _ => (OnTypes.of _).bind fun _ => (OnTypes.of _).bind fun s => ?_
  unfold MapLog.reifyTypes
  split
  · exact .of _
  · exact .mapAll (fun p => .resolve (.resolveRef _) p) _

theorem types_front (pf : Profile) {t : Forest} {d : BBlock × Forest} {v : UBlock} (hp : Preamble pf t) (hd : t.withId 17 = [d])
    (hv : v.records = d.2.records) :
    (∀ ts, TypeTable.tryFrom pf v = .ok ts → TypesLog pf t (MapLog.types pf v).lines) ∧
    ((∀ ts, TypeTable.tryFrom pf v ≠ .ok ts) → FrontCut pf t (MapLog.types pf v).lines) := by
  have hnot : (∀ ds, ¬ Declares pf v.records ds) → ∀ d ds, t.withId 17 = [d] → ¬ Declares pf d.2.records ds := by
    intro h d' ds hd'
    cases hd.symm.trans hd'
    rw [← hv]; exact h ds
  constructor
  · intro ts h
    obtain ⟨ds, tl, h1, h2, h3, -⟩ := C86_types pf v ts h
    rw [hv] at h1
    exact ⟨d, ds, tl, hd, h1, h2, h3⟩
  · intro h
    cases ho : TypeTable.tryFrom pf v with
    | ok ts => exact absurd ho (h ts)
    | err e =>
      rcases C86_types_fail pf v e ho with ⟨h2, h1⟩ | ⟨ds, tl, h1, h2, h3⟩
      · rw [h1]; exact .nothing (.inr (hnot h2))
      · rw [hv] at h1
        exact .types hp hd h1 h2 h3
    | panic p =>
      by_cases hds : ∃ ds, Declares pf v.records ds
      · obtain ⟨ds, hds⟩ := hds
        exact absurd ho (declared_no_panic pf hds p)
      · unfold MapLog.types
        rw [typesWithin_nothing pf _ v fun ds h => hds ⟨ds, h⟩]
        exact .nothing (.inr (hnot fun ds h => hds ⟨ds, h⟩))
    | diverge =>
      refine .circle hp hd ?_ (lines_typed pf v)
      rw [← hv, ← C56_types]
      exact ho

theorem oneType_iff {id : U64} {t : Forest} {u : UBlock} (hu : Unrolled id t u) (k : U64) :
    (∀ v, inconsistent (Blocks.exactlyOne u.blocks (.ofU64 k)) = .ok v → ∃ d, t.withId k = [d] ∧ v.records = d.2.records) ∧
    ((∀ v, inconsistent (Blocks.exactlyOne u.blocks (.ofU64 k)) ≠ .ok v) → ∀ d, t.withId k ≠ [d]) := by
  unfold inconsistent Blocks.exactlyOne
  simp only [Out.mapErr_eq_ok, ne_eq]
  rcases byId_cases hu k with ⟨h1, h2⟩ | ⟨c, v, h1, h2, h3⟩ | ⟨c, c', l, v, v', m, h1, h2⟩
  · rw [h1, h2]; simp
  · rw [h1, h2]; simp [h3]
  · rw [h1, h2]; simp

theorem fill_front (pf : Profile) {id : U64} {t : Forest} {u : UBlock} (hu : Unrolled id t u) {ctx : PartialMapCtx}
    (hctx1 : ctx.datalayout = .default) (hctx2 : ctx.attributeGroups = []) (hctx3 : ctx.attributes = []) :
    (∀ c, Module.fill pf u ctx = .ok c → FrontLog pf t (MapLog.fill pf u ctx).lines) ∧
    ((∀ c, Module.fill pf u ctx ≠ .ok c) → FrontCut pf t (MapLog.fill pf u ctx).lines) := by
  have hr : u.records = t.records := by obtain ⟨-, h, -, -⟩ := hu; exact h
  have hdl := fun d => oneOrNone_bind t.records ModuleCode.dataLayout.code DataLayout.default
    (fun r => (DataLayout.tryMap pf r).mapErr .dataLayoutRecord)
    (fun r d => ∃ s, Holds pf r s ∧ LayoutSays s d)
    (fun r d => by unfold DataLayout.tryMap; rw [Out.mapErr_eq_ok, mapErr_bind_ok]; simp only [holds_iff, Props.C59_accepts]) d
  have hgr := fun g => block_oneOrNone hu 10 [] (fun v => (AttributeGroups.tryFrom v).mapErr .attributeBlock)
    GroupsSay (fun v ts => by rw [Out.mapErr_eq_ok]; exact C43_exact v ts) g
  rw [show BlockId.ofU64 10 = .ir .paramAttrGroup from rfl] at hgr
  have hone := oneType_iff hu 17
  rw [show BlockId.ofU64 17 = .ir .type from rfl] at hone
  have hsym := oneType_iff hu 14
  rw [show BlockId.ofU64 14 = .ir .valueSymtab from rfl] at hsym
  have hat : (∀ o, inconsistent (Blocks.oneOrNone u.blocks (.ir .paramAttr)) = .ok o →
      (o = none ∧ t.withId 9 = []) ∨ ∃ e a, o = some a ∧ t.withId 9 = [e] ∧ a.records = e.2.records) ∧
      ((∀ o, inconsistent (Blocks.oneOrNone u.blocks (.ir .paramAttr)) ≠ .ok o) → 2 ≤ (t.withId 9).length) := by
    unfold inconsistent Blocks.oneOrNone
    rw [show BlockId.ir .paramAttr = BlockId.ofU64 9 from rfl]
    simp only [Out.mapErr_eq_ok, ne_eq]
    rcases byId_cases hu 9 with ⟨h1, h2⟩ | ⟨c, v, h1, h2, h3⟩ | ⟨c, c', l, v, v', m, h1, h2⟩
    · rw [h1, h2]
      exact ⟨fun o h => .inl ⟨by cases h; rfl, rfl⟩, fun h => absurd rfl (h _)⟩
    · rw [h1, h2]
      exact ⟨fun o h => .inr ⟨c, v, by cases h; rfl, rfl, h3⟩, fun h => absurd rfl (h _)⟩
    · rw [h1, h2]
      exact ⟨fun o h => (by cases h), fun _ => by simp⟩
  have fail : ∀ {x : Logged ModuleError PartialMapCtx} {P : List MapLine → Prop}, (∀ c, x.out ≠ .ok c) → P x.lines →
      (∀ c, x.out = .ok c → FrontLog pf t x.lines) ∧ ((∀ c, x.out ≠ .ok c) → P x.lines) :=
    fun h1 h2 => ⟨fun c hc => absurd hc (h1 c), fun _ => h2⟩
  rw [← log_fill]
  unfold MapLog.fill
  rw [hr, hctx1, hctx2, hctx3]
  have hno : ∀ {α β : Type} {x : Out ModuleError α} {f : α → Logged ModuleError β}, (∀ a, x ≠ .ok a) → ∀ c, (of x >>= f).out ≠ .ok c := by
    intro α β x f h c hc
    rw [out_bind, Out.bind_eq_ok] at hc
    obtain ⟨a, ha, -⟩ := hc
    exact h a ha
  rcases of_cases (moduleVersion u) _ with ⟨v, hv, h⟩ | ⟨h, hn⟩
  rotate_left
  · refine fail (hno hn) ?_
    rw [h]
    refine .nothing (.inl fun hp => ?_)
    obtain ⟨r, v, rest, h1, h2⟩ := hp.version
    exact hn v ((moduleVersion_iff u v).2 ⟨r, rest, by rw [hr]; exact h1, h2⟩)
  rw [h]; clear h
  rcases of_cases (inconsistent (Records.oneOrNone t.records ModuleCode.dataLayout.code)) _ with ⟨o, ho, h⟩ | ⟨h, hn⟩
  rotate_left
  · refine fail (hno hn) ?_
    rw [h]
    refine .nothing (.inl fun hp => ?_)
    obtain ⟨d, h1⟩ := hp.datalayout
    obtain ⟨o, ho, -⟩ := (hdl d).2 h1
    exact hn o ho
  rw [h]; clear h
  rcases of_cases (Verif.orElse o DataLayout.default _) _ with ⟨d, hd, h⟩ | ⟨h, hn⟩
  rotate_left
  · refine fail (hno hn) ?_
    rw [h]
    refine .nothing (.inl fun hp => ?_)
    obtain ⟨d, h1⟩ := hp.datalayout
    obtain ⟨o', ho', h2⟩ := (hdl d).2 h1
    cases ho.symm.trans ho'
    exact hn d h2
  rw [h]; clear h
  rcases of_cases (moduleStrings pf t.records .sectionName) _ with ⟨ss, hss, h⟩ | ⟨h, hn⟩
  rotate_left
  · refine fail (hno hn) ?_
    rw [h]
    refine .nothing (.inl fun hp => ?_)
    obtain ⟨ss, h1⟩ := hp.sections
    exact hn ss ((moduleStrings_iff ..).2 h1)
  rw [h]; clear h
  rcases of_cases (moduleStrings pf t.records .gcName) _ with ⟨gs, hgs, h⟩ | ⟨h, hn⟩
  rotate_left
  · refine fail (hno hn) ?_
    rw [h]
    refine .nothing (.inl fun hp => ?_)
    obtain ⟨ss, h1⟩ := hp.gcs
    exact hn ss ((moduleStrings_iff ..).2 h1)
  rw [h]; clear h
  have hp : Preamble pf t := by
    rw [moduleVersion_iff, hr] at hv
    obtain ⟨r, rest, h1, h2⟩ := hv
    exact ⟨⟨r, v, rest, h1, h2⟩, ⟨d, (hdl d).1 ⟨o, ho, hd⟩⟩, ⟨ss, (moduleStrings_iff ..).1 hss⟩, ⟨gs, (moduleStrings_iff ..).1 hgs⟩⟩
  rcases of_cases (inconsistent (Blocks.exactlyOne u.blocks (.ir .type))) _ with ⟨tb, htb, h⟩ | ⟨h, hn⟩
  rotate_left
  · refine fail (hno hn) ?_
    rw [h]
    exact .nothing (.inr fun d ds h1 _ => hone.2 hn d h1)
  rw [h]; clear h
  obtain ⟨d, hd, hv⟩ := hone.1 tb htb
  have hty := types_front pf hp hd hv
  by_cases hts : ∃ ts, ((MapLog.types pf tb).mapErr ModuleError.typeTableBlock).out = .ok ts
  rotate_left
  · have hts' : ∀ ts, TypeTable.tryFrom pf tb ≠ .ok ts := by
      intro ts h
      rw [← log_types] at h
      exact hts ⟨ts, by rw [out_mapErr, h]; rfl⟩
    refine fail (fun c hc => ?_) ?_
    · rw [out_bind, Out.bind_eq_ok] at hc
      obtain ⟨ts, h, -⟩ := hc
      exact hts ⟨ts, h⟩
    · rw [lines_bind_not _ fun ts h => hts ⟨ts, h⟩]
      exact hty.2 hts'
  obtain ⟨ts, hts⟩ := hts
  have hts' := hts
  rw [out_mapErr, Out.mapErr_eq_ok, log_types] at hts'
  have htl := hty.1 ts hts'
  rw [lines_bind_ok _ hts, out_bind, hts, Out.ok_bind, lines_mapErr]
  generalize (MapLog.types pf tb).lines = xs at htl ⊢
  have fail' : ∀ {x : Logged ModuleError PartialMapCtx}, (∀ c, x.out ≠ .ok c) → x.lines = [] → FrontCut pf t xs →
      (∀ c, x.out = .ok c → FrontLog pf t (xs ++ x.lines)) ∧ ((∀ c, x.out ≠ .ok c) → FrontCut pf t (xs ++ x.lines)) :=
    fun h1 h2 h3 => ⟨fun c hc => absurd hc (h1 c), fun _ => by rw [h2, List.append_nil]; exact h3⟩
  rcases of_cases (inconsistent (Blocks.exactlyOne u.blocks (.ir .valueSymtab))) _ with ⟨sb, hsb, h⟩ | ⟨h, hn⟩
  rotate_left
  · exact fail' (hno hn) h (.groups hp htl (.inl (hsym.2 hn)))
  rw [h]; clear h
  obtain ⟨sc, hsc, -⟩ := hsym.1 sb hsb
  rcases of_cases (inconsistent (Blocks.oneOrNone u.blocks (.ir .paramAttrGroup))) _ with ⟨o2, ho2, h⟩ | ⟨h, hn⟩
  rotate_left
  · refine fail' (hno hn) h (.groups hp htl (.inr (.inl fun g hg => ?_)))
    obtain ⟨o, ho, -⟩ := (hgr g).2 hg
    exact hn o ho
  rw [h]; clear h
  rcases of_cases (Verif.orElse o2 ([] : AttributeGroups) _) _ with ⟨g, hg, h⟩ | ⟨h, hn⟩
  rotate_left
  · refine fail' (hno hn) h (.groups hp htl (.inr (.inl fun g hg => ?_)))
    obtain ⟨o, ho, h2⟩ := (hgr g).2 hg
    cases ho2.symm.trans ho
    exact hn g h2
  rw [h]; clear h
  have hgs := (hgr g).1 ⟨o2, ho2, hg⟩
  have hsort := optionally_sorted hgs
  rcases of_cases (inconsistent (Blocks.oneOrNone u.blocks (.ir .paramAttr))) _ with ⟨o3, ho3, h⟩ | ⟨h, hn⟩
  rotate_left
  · exact fail' (hno hn) h (.groups hp htl (.inr (.inr (hat.2 hn))))
  rw [h]; clear h
  rcases hat.1 o3 ho3 with ⟨rfl, h9⟩ | ⟨e, a, rfl, h9, ha⟩
  · rw [lines_bind_ok (a := ([] : Attributes)) _ rfl, lines_bind_of]
    refine ⟨fun _ _ => ⟨xs, htl, ?_⟩, fun _ => ?_⟩
    · unfold groupLines; rw [h9]; rfl
    · have := FrontCut.lists hp htl hsc hgs (by rw [h9]; simp)
      rw [h9] at this
      exact this
  · simp only [Logged.orElse]
    have hlines : (((MapLog.attributes a g).mapErr ModuleError.attributeBlock).lines) = listLines g e.2.records := by
      rw [lines_mapErr, attributes_lines a g hsort, ha]
    have hcut := FrontCut.lists hp htl hsc hgs (by rw [h9]; simp)
    rw [h9, List.flatMap_cons, List.flatMap_nil, List.append_nil] at hcut
    by_cases hat' : ∃ as, ((MapLog.attributes a g).mapErr ModuleError.attributeBlock).out = .ok as
    · obtain ⟨as, has⟩ := hat'
      rw [lines_bind_ok _ has, lines_bind_of, lines_of, List.append_nil]
      refine ⟨fun _ _ => ⟨xs, htl, ?_⟩, fun _ => by rw [hlines]; exact hcut⟩
      rw [out_mapErr, Out.mapErr_eq_ok] at has
      rw [lines_mapErr, (tells_attributes a g).2 as has]
      unfold groupLines recordLines
      rw [h9, ha]; simp
    · rw [lines_bind_not _ fun as h => hat' ⟨as, h⟩, hlines]
      refine ⟨fun c hc => ?_, fun _ => hcut⟩
      rw [out_bind, Out.bind_eq_ok] at hc
      obtain ⟨as, has, -⟩ := hc
      exact absurd ⟨as, has⟩ hat'

/-! ## Modules -/

theorem bodies_iff {id : U64} {t : Forest} {u : UBlock} (hu : Unrolled id t u) (types : List Ty) :
    (∃ bs, (mapOut (fun f => FunctionBlock.tryFrom f types) (Blocks.byId u.blocks (.ir .function))).mapErr
      ModuleError.functionBlock = .ok bs) ↔ t.withId 12 = [] := by
  simp only [Out.mapErr_eq_ok]
  rw [show BlockId.ir .function = BlockId.ofU64 12 from rfl]
  rcases byId_cases hu 12 with ⟨h1, h2⟩ | ⟨c, v, h1, h2, h3⟩ | ⟨c, c', l, v, v', m, h1, h2⟩
  · rw [h1, h2]; simp [mapOut]
  all_goals
    rw [h1, h2]
    constructor
    · rintro ⟨bs, h⟩
      rw [mapOut, Out.bind_eq_ok] at h
      obtain ⟨f, hf, -⟩ := h
      exact absurd hf (C48_never_maps _ _ _)
    · intro h; cases h

theorem finish_lines (pf : Profile) (target : Str) {id : U64} {t : Forest} {u : UBlock} (hu : Unrolled id t u) (ctx : MapCtx)
    (hs : ctx.strtab.bytes.length < 2 ^ 64) :
    ((∀ fs, ¬ SaysFunctions pf t ctx fs) ∧ (MapLog.finish pf target u ctx).lines = []) ∨
    ∃ fs, SaysFunctions pf t ctx fs ∧
      (((∀ as, ¬ Each (fun r a => AliasSays ctx r.fields a) (withCode t.records 14) as) ∧
        (MapLog.finish pf target u ctx).lines = [.functions fs]) ∨
      ∃ as, Each (fun r a => AliasSays ctx r.fields a) (withCode t.records 14) as ∧
        (MapLog.finish pf target u ctx).lines = [.functions fs, .aliases as]) := by
  have hr : u.records = t.records := by obtain ⟨-, h, -, -⟩ := hu; exact h
  have htr := fun target x => oneOrNone_bind t.records ModuleCode.triple.code target
    (fun r => (r.tryString pf 0).mapErr fun e => .map (.recordString e)) (Holds pf)
    (fun r s => by rw [Out.mapErr_eq_ok, holds_iff]) x
  have hasm := fun x => oneOrNone_bind t.records ModuleCode.asm.code []
    (fun r => do
      let s ← (r.tryString pf 0).mapErr fun e => .map (.recordString e)
      .ok (split '\n' s)) (fun r ls => ∃ s, Holds pf r s ∧ Lines s ls)
    (fun r ls => by rw [mapErr_bind_ok]; simp only [holds_iff, Out.ok.injEq, lines_iff]) x
  have hfn := fun fs => mapOut_each (fun r => FunctionRecord.tryMap pf r ctx)
    (fun r f => FunctionSays ctx r.fields f) (fun r f => C49_function pf r ctx hs f) (withCode t.records 8) fs
  have hal := fun as => mapOut_each (fun r => Alias.tryMap pf r ctx)
    (fun r f => AliasSays ctx r.fields f) (fun r f => C49_alias pf r ctx hs f) (withCode t.records 14) as
  have hbody := bodies_iff hu ctx.typeTable
  unfold MapLog.finish
  rw [hr]
  rcases of_cases (inconsistent (Records.oneOrNone t.records ModuleCode.triple.code)) _ with ⟨o, ho, h⟩ | ⟨h, hn⟩
  rotate_left
  · refine .inl ⟨fun fs hf => ?_, h⟩
    obtain ⟨s, hf⟩ := hf.triple target
    obtain ⟨o, ho, -⟩ := (htr _ _).2 hf
    exact hn o ho
  rw [h]; clear h
  rcases of_cases (Verif.orElse o target _) _ with ⟨tr, htr', h⟩ | ⟨h, hn⟩
  rotate_left
  · refine .inl ⟨fun fs hf => ?_, h⟩
    obtain ⟨s, hf⟩ := hf.triple target
    obtain ⟨o', ho', h'⟩ := (htr _ _).2 hf
    cases ho.symm.trans ho'
    exact hn s h'
  rw [h]; clear h
  rcases of_cases (inconsistent (Records.oneOrNone t.records ModuleCode.asm.code)) _ with ⟨o2, ho2, h⟩ | ⟨h, hn⟩
  rotate_left
  · refine .inl ⟨fun fs hf => ?_, h⟩
    obtain ⟨s, hf⟩ := hf.asm
    obtain ⟨o, ho, -⟩ := (hasm _).2 hf
    exact hn o ho
  rw [h]; clear h
  rcases of_cases (Verif.orElse o2 [] _) _ with ⟨asm, hasm', h⟩ | ⟨h, hn⟩
  rotate_left
  · refine .inl ⟨fun fs hf => ?_, h⟩
    obtain ⟨s, hf⟩ := hf.asm
    obtain ⟨o', ho', h'⟩ := (hasm _).2 hf
    cases ho2.symm.trans ho'
    exact hn s h'
  rw [h]; clear h
  rcases of_cases (moduleStrings pf t.records .depLib) _ with ⟨dl, hdl, h⟩ | ⟨h, hn⟩
  rotate_left
  · refine .inl ⟨fun fs hf => ?_, h⟩
    obtain ⟨s, hf⟩ := hf.deplibs
    exact hn s ((moduleStrings_iff ..).2 hf)
  rw [h]; clear h
  rcases of_cases ((mapOut (fun r => FunctionRecord.tryMap pf r ctx) (Records.byCode t.records ModuleCode.function.code)).mapErr
    ModuleError.functionRecord) _ with ⟨fs, hfs, h⟩ | ⟨h, hn⟩
  rotate_left
  · refine .inl ⟨fun fs hf => ?_, h⟩
    refine hn fs ?_
    rw [Out.mapErr_eq_ok, byCode_withCode]
    exact (hfn fs).2 hf.functions
  rw [h]; clear h
  rcases of_cases ((mapOut (fun f => FunctionBlock.tryFrom f ctx.typeTable) (Blocks.byId u.blocks (.ir .function))).mapErr
    ModuleError.functionBlock) _ with ⟨bs, hbs, h⟩ | ⟨h, hn⟩
  rotate_left
  · refine .inl ⟨fun fs hf => ?_, h⟩
    obtain ⟨bs, hbs⟩ := hbody.2 hf.noBodies
    exact hn bs hbs
  rw [h]; clear h
  rw [Out.mapErr_eq_ok, byCode_withCode] at hfs
  refine .inr ⟨fs, ?_, ?_⟩
  · refine ⟨fun target' => ?_, ⟨asm, (hasm asm).1 ⟨o2, ho2, hasm'⟩⟩, ⟨dl, (moduleStrings_iff ..).1 hdl⟩, (hfn fs).1 hfs,
      hbody.1 ⟨bs, hbs⟩⟩
    have h := (htr target tr).1 ⟨o, ho, htr'⟩
    have h2 : ∀ (l : List BRecord), Optionally (Holds pf) target l tr → ∃ s, Optionally (Holds pf) target' l s := by
      intro l h
      cases h with
      | absent => exact ⟨_, .absent⟩
      | present h => exact ⟨_, .present h⟩
    exact h2 _ h
  · rw [lines_tell_bind]
    rcases of_cases ((mapOut (fun r => Alias.tryMap pf r ctx) (Records.byCode t.records ModuleCode.alias.code)).mapErr
      ModuleError.alias) _ with ⟨as, has, h⟩ | ⟨h, hn⟩
    · rw [h]
      rw [Out.mapErr_eq_ok, byCode_withCode] at has
      exact .inr ⟨as, (hal as).1 has, rfl⟩
    · rw [h]
      refine .inl ⟨fun as ha => ?_, rfl⟩
      refine hn as ?_
      rw [Out.mapErr_eq_ok, byCode_withCode]
      exact (hal as).2 ha

theorem fill_shows (pf : Profile) {u : UBlock} {strtab : Strtab} {c : PartialMapCtx}
    (h : Module.fill pf u { PartialMapCtx.default with strtab } = .ok c) : ∃ ctx, c.reify = .ok ctx ∧ c = tablesShown ctx := by
  unfold Module.fill at h
  simp only [Out.bind_eq_ok, Out.ok.injEq] at h
  obtain ⟨v, hv, o, ho, d, hd, ss, hss, gs, hgs, tb, htb, ts, hts, vb, hvb, o2, ho2, g, hg, o3, ho3, as, has, cs, hcs, rfl⟩ := h
  exact ⟨_, rfl, rfl⟩

/-- C86, modules. What is logged for a module block: how its types are put together and which attribute groups its lists refer to, as
far as that is possible; then, if there is nothing wrong with its tables, these tables; then, if there is nothing wrong with anything
but the aliases, the functions; then, if there is nothing wrong with these either, the aliases. -/
theorem C86_module (pf : Profile) (target : Str) {id : U64} {t : Forest} {u : UBlock} (hu : Unrolled id t u) (strtab : Strtab)
    (hs : strtab.bytes.length < 2 ^ 64) :
    ModuleLog pf strtab t (MapLog.moduleFull pf target u { PartialMapCtx.default with strtab }).lines := by
  have hfront := fill_front pf hu (ctx := { PartialMapCtx.default with strtab }) rfl rfl rfl
  unfold MapLog.moduleFull
  by_cases hfill : ∃ c, Module.fill pf u { PartialMapCtx.default with strtab } = .ok c
  · obtain ⟨c, hc⟩ := hfill
    have hf := hfront.1 c hc
    obtain ⟨ctx, hctx, rfl⟩ := fill_shows pf hc
    have htab := (fill_iff pf hu strtab hs ctx).1 ⟨_, hc, hctx⟩
    have hs' : ctx.strtab.bytes.length < 2 ^ 64 := by rw [htab.strtab]; exact hs
    rw [lines_bind_ok _ (show (MapLog.fill pf u { PartialMapCtx.default with strtab }).out = .ok (tablesShown ctx) by
      rw [log_fill]; exact hc)]
    rw [lines_bind_ok (a := ctx) _ (show ((MapLog.reify (tablesShown ctx)).mapErr fun e => ModuleError.map (.context e)).out = .ok ctx by
      simp only [out_mapErr, MapLog.reify, out_bind, out_tell, Out.ok_bind, out_of, hctx]; rfl), lines_bind_of]
    rw [show ((MapLog.reify (tablesShown ctx)).mapErr fun e => ModuleError.map (.context e)).lines = [.reifying (tablesShown ctx)] by
      simp only [lines_mapErr, MapLog.reify, lines_tell_bind, lines_of]]
    rcases finish_lines pf target hu ctx hs' with ⟨h1, h2⟩ | ⟨fs, h1, ⟨h2, h3⟩ | ⟨as, h2, h3⟩⟩
    · rw [h2]; exact .functions htab hf h1
    · rw [h3]; exact .aliases htab hf h1 h2
    · rw [h3]; exact .all htab hf h1 h2
  · have hno : ∀ c, Module.fill pf u { PartialMapCtx.default with strtab } ≠ .ok c := fun c hc => hfill ⟨c, hc⟩
    rw [lines_bind_not _ (by rw [log_fill]; exact hno)]
    refine .tables (fun ctx h => ?_) (hfront.2 hno)
    obtain ⟨c, hc, -⟩ := (fill_iff pf hu strtab hs ctx).2 h
    exact hno c hc

end Verif
