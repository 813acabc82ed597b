import Verif.Mapper.ModuleSpec
import Verif.Props.Globals
import Verif.Props.Functions
import Verif.Props.Types
import Verif.Props.AttributeErrors
import Verif.Props.DataLayout
import Verif.Props.Layout
import Verif.Props.TypeTables

/-! C51: modules and whole files. -/

namespace Verif
open Spec

/-! ## Lookups -/

theorem byCode_withCode (rs : List BRecord) (code : U64) : Records.byCode rs code = withCode rs code.toNat := by
  unfold Records.byCode withCode
  refine List.filter_congr fun r _ => ?_
  rw [Bool.eq_iff_iff]
  simp [BitVec.toNat_inj]

theorem exactlyOne_iff (rs : List BRecord) (code : U64) (r : BRecord) :
    Records.exactlyOne rs code = .ok r ↔ withCode rs code.toNat = [r] := by
  unfold Records.exactlyOne
  rw [byCode_withCode]
  split <;> simp_all

theorem mapErr_bind_ok {ε δ α β : Type} (x : Out ε α) (f : ε → δ) (g : α → Out δ β) (b : β) :
    (x.mapErr f >>= g) = .ok b ↔ ∃ a, x = .ok a ∧ g a = .ok b := by
  simp only [Out.bind_eq_ok, Out.mapErr_eq_ok]

theorem oneOrNone_bind {β : Type} (rs : List BRecord) (code : U64) (missing : β) (f : BRecord → Out ModuleError β)
    (P : BRecord → β → Prop) (hP : ∀ r b, f r = .ok b ↔ P r b) (b : β) :
    (∃ o, inconsistent (Records.oneOrNone rs code) = .ok o ∧ orElse o missing f = .ok b) ↔
      Optionally P missing (withCode rs code.toNat) b := by
  unfold inconsistent Records.oneOrNone
  rw [byCode_withCode]
  simp only [Out.mapErr_eq_ok]
  generalize withCode rs code.toNat = l
  match l with
  | [] =>
    simp only [Out.ok.injEq, exists_eq_left', orElse]
    constructor
    · rintro rfl; exact .absent
    · rintro ⟨⟩; rfl
  | [r] =>
    simp only [Out.ok.injEq, exists_eq_left', orElse, hP]
    constructor
    · exact .present
    · rintro (_ | h); exact h
  | a :: a' :: l =>
    constructor
    · rintro ⟨o, h, -⟩; cases h
    · intro h; cases h

/-- The sub-blocks of an unrolled block have the records of those in the stream. -/
theorem byId_cases {id : U64} {t : Forest} {u : UBlock} (hu : Unrolled id t u) (k : U64) :
    (t.withId k = [] ∧ Blocks.byId u.blocks (.ofU64 k) = []) ∨
    (∃ c v, t.withId k = [c] ∧ Blocks.byId u.blocks (.ofU64 k) = [v] ∧ v.records = c.2.records) ∨
    ∃ c c' l v v' m, t.withId k = c :: c' :: l ∧ Blocks.byId u.blocks (.ofU64 k) = v :: v' :: m := by
  obtain ⟨-, -, hc, hs⟩ := hu
  have hc := hc k
  have hs := hs k
  generalize t.withId k = l at hc hs ⊢
  generalize Blocks.byId u.blocks (.ofU64 k) = m at hc hs ⊢
  match l, m, hc with
  | [], [], _ => exact .inl ⟨rfl, rfl⟩
  | [c], [v], _ =>
    obtain ⟨-, h, -, -⟩ := hs 0 c v rfl rfl
    exact .inr (.inl ⟨c, v, rfl, rfl, h⟩)
  | c :: c' :: l, v :: v' :: m, _ => exact .inr (.inr ⟨c, c', l, v, v', m, rfl, rfl⟩)

theorem block_exactlyOne {β : Type} {id : U64} {t : Forest} {u : UBlock} (hu : Unrolled id t u) (k : U64)
    (f : UBlock → Out ModuleError β) (P : List BRecord → β → Prop) (hP : ∀ v b, f v = .ok b ↔ P v.records b) (b : β) :
    (∃ v, inconsistent (Blocks.exactlyOne u.blocks (.ofU64 k)) = .ok v ∧ f v = .ok b) ↔
      ∃ c, t.withId k = [c] ∧ P c.2.records b := by
  unfold inconsistent Blocks.exactlyOne
  simp only [Out.mapErr_eq_ok, hP]
  rcases byId_cases hu k with ⟨h1, h2⟩ | ⟨c, v, h1, h2, h3⟩ | ⟨c, c', l, v, v', m, h1, h2⟩
  · rw [h1, h2]; simp
  · rw [h1, h2]; simp [h3]
  · rw [h1, h2]; simp

theorem block_oneOrNone {β : Type} {id : U64} {t : Forest} {u : UBlock} (hu : Unrolled id t u) (k : U64) (missing : β)
    (f : UBlock → Out ModuleError β) (P : List BRecord → β → Prop) (hP : ∀ v b, f v = .ok b ↔ P v.records b) (b : β) :
    (∃ o, inconsistent (Blocks.oneOrNone u.blocks (.ofU64 k)) = .ok o ∧ orElse o missing f = .ok b) ↔
      Optionally (fun c b => P c.2.records b) missing (t.withId k) b := by
  unfold inconsistent Blocks.oneOrNone
  simp only [Out.mapErr_eq_ok]
  rcases byId_cases hu k with ⟨h1, h2⟩ | ⟨c, v, h1, h2, h3⟩ | ⟨c, c', l, v, v', m, h1, h2⟩
  · rw [h1, h2]
    simp only [Out.ok.injEq, exists_eq_left', orElse]
    constructor
    · rintro rfl; exact .absent
    · rintro ⟨⟩; rfl
  · rw [h1, h2]
    simp only [Out.ok.injEq, exists_eq_left', orElse, hP, h3]
    constructor
    · exact fun h => .present (P := fun (c : BBlock × Forest) b => P c.2.records b) h
    · rintro (_ | h); exact h
  · rw [h1, h2]
    constructor
    · rintro ⟨o, h, -⟩; cases h
    · intro h; cases h

theorem mapOut_each {ε α β : Type} (f : α → Out ε β) (P : α → β → Prop) (hP : ∀ a b, f a = .ok b ↔ P a b) (l : List α)
    (m : List β) : mapOut f l = .ok m ↔ Each P l m := by
  rw [mapOut_eq_ok]
  simp only [hP, Each]

theorem holds_iff (pf : Profile) (r : BRecord) (s : Str) : r.tryString pf 0 = .ok s ↔ Holds pf r s := string_zero_iff pf r s

theorem moduleStrings_iff (pf : Profile) (rs : List BRecord) (code : ModuleCode) (ss : List Str) :
    moduleStrings pf rs code = .ok ss ↔ Each (Holds pf) (withCode rs code.code.toNat) ss := by
  unfold moduleStrings
  rw [Out.mapErr_eq_ok, byCode_withCode, mapOut_each _ _ (holds_iff pf)]

theorem lines_iff (s : Str) (ls : List Str) : split '\n' s = ls ↔ Lines s ls := by
  constructor
  · rintro rfl
    exact ⟨split_ne_nil _ _, fun l hl => (split_mem _ _ l hl).1, intercalate_split _ _⟩
  · rintro ⟨h1, h2, rfl⟩
    exact split_intercalate _ _ h1 h2

/-! ## Modules -/

theorem moduleVersion_iff (b : UBlock) (v : U64) :
    moduleVersion b = .ok v ↔ ∃ r rest, withCode b.records 1 = [r] ∧ r.fields = v :: rest := by
  unfold moduleVersion inconsistent
  simp only [mapErr_bind_ok, exactlyOne_iff, ofOption_eq_ok]
  constructor
  · rintro ⟨r, h1, h2⟩
    cases hf : r.fields with
    | nil => rw [hf] at h2; cases h2
    | cons x rest => rw [hf] at h2; cases h2; exact ⟨r, rest, h1, hf⟩
  · rintro ⟨r, rest, h1, h2⟩
    exact ⟨r, h1, by rw [h2]; rfl⟩

theorem optionally_sorted {l : List (BBlock × Forest)} {g : AttributeGroups}
    (h : Optionally (fun c g => GroupsSay c.2.records g) [] l g) : Sorted g := by
  cases h with
  | absent => exact .nil
  | present h => exact h.sorted

theorem fill_iff (pf : Profile) {id : U64} {t : Forest} {u : UBlock} (hu : Unrolled id t u) (strtab : Strtab)
    (hs : strtab.bytes.length < 2 ^ 64) (ctx : MapCtx) :
    (∃ c, Module.fill pf u { PartialMapCtx.default with strtab } = .ok c ∧ c.reify = .ok ctx) ↔ TablesSay pf strtab t ctx := by
  have hr : u.records = t.records := by obtain ⟨-, h, -, -⟩ := hu; exact h
  have hdl := fun d => oneOrNone_bind t.records ModuleCode.dataLayout.code DataLayout.default
    (fun r => (DataLayout.tryMap pf r).mapErr .dataLayoutRecord)
    (fun r d => ∃ s, Holds pf r s ∧ LayoutSays s d)
    (fun r d => by unfold DataLayout.tryMap; rw [Out.mapErr_eq_ok, mapErr_bind_ok]; simp only [holds_iff, Props.C59_accepts]) d
  have hty := fun ts => block_exactlyOne hu 17 (fun v => (TypeTable.tryFrom pf v).mapErr .typeTableBlock)
    (TypesSay pf) (fun v ts => by rw [Out.mapErr_eq_ok]; exact C40_exact pf v ts) ts
  have hvst := fun (_ : Unit) => block_exactlyOne hu 14 (fun _ => .ok ()) (fun _ _ => True) (fun _ _ => by simp) ()
  have hgr := fun g => block_oneOrNone hu 10 [] (fun v => (AttributeGroups.tryFrom v).mapErr .attributeBlock)
    GroupsSay (fun v ts => by rw [Out.mapErr_eq_ok]; exact C43_exact v ts) g
  have hat := fun g (hg : Sorted g) as => block_oneOrNone hu 9 [] (fun v => (Attributes.tryFrom v g).mapErr .attributeBlock)
    (ListsSay g) (fun v ts => by rw [Out.mapErr_eq_ok]; exact C46_exact v g hg ts) as
  rw [show BlockId.ofU64 17 = .ir .type from rfl] at hty
  rw [show BlockId.ofU64 14 = .ir .valueSymtab from rfl] at hvst
  rw [show BlockId.ofU64 10 = .ir .paramAttrGroup from rfl] at hgr
  rw [show BlockId.ofU64 9 = .ir .paramAttr from rfl] at hat
  have hcd := fun (c : PartialMapCtx) v (hv : c.version = some v) (hs : c.strtab.bytes.length < 2 ^ 64) cs =>
    mapOut_each (fun r => Comdat.tryMap pf r c) (fun r x => ComdatSays v c.strtab.bytes r.fields x)
      (fun r x => C49_comdat pf r c v hv hs x) (withCode t.records 12) cs
  constructor
  · rintro ⟨c, h, hre⟩
    unfold Module.fill at h
    simp only [Out.bind_eq_ok, Out.ok.injEq, hr] at h
    obtain ⟨v, hv, o, ho, d, hd, ss, hss, gs, hgs, tb, htb, ts, hts, vb, hvb, o2, ho2, g, hg, o3, ho3, as, has, cs, hcs, rfl⟩ := h
    unfold PartialMapCtx.reify at hre
    simp only [Out.ofOption_some, Out.ok_bind, Out.ok.injEq] at hre
    subst hre
    rw [Out.mapErr_eq_ok, byCode_withCode] at hcs
    exact {
      version := by rw [moduleVersion_iff, hr] at hv; exact hv
      datalayout := (hdl d).1 ⟨o, ho, hd⟩
      sections := (moduleStrings_iff ..).1 hss
      gcs := (moduleStrings_iff ..).1 hgs
      strtab := rfl
      types := (hty ts).1 ⟨tb, htb, hts⟩
      symbols := by obtain ⟨c, h, -⟩ := (hvst ()).1 ⟨vb, hvb, rfl⟩; exact ⟨c, h⟩
      groups := (hgr g).1 ⟨o2, ho2, hg⟩
      attributes := (hat g (optionally_sorted ((hgr g).1 ⟨o2, ho2, hg⟩)) as).1 ⟨o3, ho3, has⟩
      comdats := (hcd _ v rfl hs cs).1 hcs }
  · intro h
    obtain ⟨o, ho, hd⟩ := (hdl _).2 h.datalayout
    obtain ⟨tb, htb, hts⟩ := (hty _).2 h.types
    obtain ⟨c, hc⟩ := h.symbols
    obtain ⟨vb, hvb, -⟩ := (hvst ()).2 ⟨c, hc, trivial⟩
    obtain ⟨o2, ho2, hg⟩ := (hgr _).2 h.groups
    obtain ⟨o3, ho3, has⟩ := (hat _ (optionally_sorted h.groups) _).2 h.attributes
    refine ⟨{ PartialMapCtx.default with
      strtab, version := some ctx.version, datalayout := ctx.datalayout, sectionTable := ctx.sectionTable,
      gcTable := ctx.gcTable, typeTable := some ctx.typeTable, attributeGroups := ctx.attributeGroups,
      attributes := ctx.attributes, comdats := ctx.comdats }, ?_, ?_⟩
    · unfold Module.fill
      simp only [Out.bind_eq_ok, Out.ok.injEq, hr]
      refine ⟨_, by rw [moduleVersion_iff, hr]; exact h.version, o, ho, _, hd, _, (moduleStrings_iff ..).2 h.sections, _,
        (moduleStrings_iff ..).2 h.gcs, tb, htb, _, hts, vb, hvb, o2, ho2, _, hg, o3, ho3, _, has, ctx.comdats, ?_, rfl⟩
      rw [Out.mapErr_eq_ok, byCode_withCode]
      refine (hcd _ ctx.version rfl hs _).2 ?_
      have := h.comdats
      rw [h.strtab] at this
      exact this
    · have := h.strtab
      subst this
      rfl

/-- C51. What a module block maps to, with all that is found on the way: exactly what its records and blocks say, in whatever
order they come. Nothing else enters, so two module blocks that say the same map to the same. -/
theorem C51_module (pf : Profile) (target : Str) {id : U64} {t : Forest} {u : UBlock} (hu : Unrolled id t u) (strtab : Strtab)
    (hs : strtab.bytes.length < 2 ^ 64) (m : Module) (ctx : MapCtx) (fs : List FunctionRecord) (as : List Alias) :
    Module.tryFromFull pf target u { PartialMapCtx.default with strtab } = .ok (m, ctx, fs, as) ↔
      ModuleSays pf target strtab t m ctx fs as := by
  have hr : u.records = t.records := by obtain ⟨-, h, -, -⟩ := hu; exact h
  have hfill := fill_iff pf hu strtab hs ctx
  have htr := fun x => oneOrNone_bind t.records ModuleCode.triple.code target
    (fun r => (r.tryString pf 0).mapErr fun e => .map (.recordString e)) (Holds pf)
    (fun r s => by rw [Out.mapErr_eq_ok, holds_iff]) x
  have hasm := fun x => oneOrNone_bind t.records ModuleCode.asm.code []
    (fun r => do
      let s ← (r.tryString pf 0).mapErr fun e => .map (.recordString e)
      .ok (split '\n' s)) (fun r ls => ∃ s, Holds pf r s ∧ Lines s ls)
    (fun r ls => by rw [mapErr_bind_ok]; simp only [holds_iff, Out.ok.injEq, lines_iff]) x
  have hfn := fun (hs : ctx.strtab.bytes.length < 2 ^ 64) fs => mapOut_each (fun r => FunctionRecord.tryMap pf r ctx)
    (fun r f => FunctionSays ctx r.fields f) (fun r f => C49_function pf r ctx hs f) (withCode t.records 8) fs
  have hal := fun (hs : ctx.strtab.bytes.length < 2 ^ 64) as => mapOut_each (fun r => Alias.tryMap pf r ctx)
    (fun r f => AliasSays ctx r.fields f) (fun r f => C49_alias pf r ctx hs f) (withCode t.records 14) as
  have hbody : ∀ bs, mapOut (fun f => FunctionBlock.tryFrom f ctx.typeTable) (Blocks.byId u.blocks (.ir .function)) = .ok bs ↔
      t.withId 12 = [] ∧ bs = [] := by
    intro bs
    rw [show BlockId.ir .function = BlockId.ofU64 12 from rfl]
    rcases byId_cases hu 12 with ⟨h1, h2⟩ | ⟨c, v, h1, h2, h3⟩ | ⟨c, c', l, v, v', m, h1, h2⟩
    · rw [h1, h2]; simp [mapOut, eq_comm]
    all_goals
      rw [h1, h2]
      constructor
      · intro h
        rw [mapOut, Out.bind_eq_ok] at h
        obtain ⟨f, hf, -⟩ := h
        exact absurd hf (C48_never_maps _ _ _)
      · rintro ⟨h, -⟩; cases h
  unfold Module.tryFromFull
  simp only [Out.bind_eq_ok, Out.mapErr_eq_ok, Out.ok.injEq, Prod.mk.injEq]
  constructor
  · rintro ⟨c, hc, ctx', hctx, ⟨m', fs', as'⟩, hm, rfl, rfl, h⟩
    simp only [Prod.mk.injEq] at h
    obtain ⟨rfl, rfl⟩ := h
    have htab := hfill.1 ⟨c, hc, hctx⟩
    have hs' : ctx'.strtab.bytes.length < 2 ^ 64 := by rw [htab.strtab]; exact hs
    unfold Module.finish at hm
    simp only [Out.bind_eq_ok, Out.mapErr_eq_ok, Out.ok.injEq, Prod.mk.injEq, hr, hbody, byCode_withCode] at hm
    obtain ⟨o, ho, tr, htr', o2, ho2, asm, hasm', dl, hdl, fs, hfs, bs, ⟨hno, -⟩, as, has, rfl, rfl, rfl⟩ := hm
    exact {
      tables := htab
      triple := (htr tr).1 ⟨o, ho, htr'⟩
      asm := (hasm asm).1 ⟨o2, ho2, hasm'⟩
      deplibs := (moduleStrings_iff ..).1 hdl
      functions := (hfn hs' fs).1 hfs
      noBodies := hno
      aliases := (hal hs' as).1 has }
  · intro h
    obtain ⟨c, hc, hctx⟩ := hfill.2 h.tables
    have hs' : ctx.strtab.bytes.length < 2 ^ 64 := by rw [h.tables.strtab]; exact hs
    refine ⟨c, hc, ctx, hctx, (m, fs, as), ?_, rfl, rfl, rfl⟩
    obtain ⟨o, ho, htr'⟩ := (htr _).2 h.triple
    obtain ⟨o2, ho2, hasm'⟩ := (hasm _).2 h.asm
    unfold Module.finish
    simp only [Out.bind_eq_ok, Out.mapErr_eq_ok, Out.ok.injEq, Prod.mk.injEq, hr, hbody, byCode_withCode]
    refine ⟨o, ho, m.triple, htr', o2, ho2, m.asm, hasm', m.deplibs, (moduleStrings_iff ..).2 h.deplibs, fs,
      (hfn hs' fs).2 h.functions, [], ⟨h.noBodies, rfl⟩, as, (hal hs' as).2 h.aliases, rfl, rfl, rfl⟩

end Verif
