import Verif.Props.MapReports

/-!
# C74, the other half: each of the errors and panics happens
-/

namespace Verif
open Spec

/-- There is a file that cannot be mapped because of `e`. -/
def Happens (pf : Profile) (target : Str) (e : MapperError) : Prop :=
  ∃ bytes : List U8, bytes.length ≤ 2 ^ 61 ∧ Bitcode.tryFrom pf target bytes = .err e

abbrev unrolled (id : U64) (t : Tree) : UBlock := t.forest.addTo (UBlock.new id)

theorem tree_happens {pf : Profile} {target : Str} {t : Tree} (ht : t.OnlyBlocks) (hn : t.NoInfo) (hw : t.weight ≤ 2 ^ 30)
    {e : MapperError} (h : ofTops pf target t.tops = .err e) : Happens pf target e := by
  obtain ⟨bytes, es, h1, h2, h3⟩ := C69_writes 0xdec04342 t ht hn hw
  have hl : bytes.length ≤ 2 ^ 61 := by omega
  refine ⟨bytes, hl, ?_⟩
  rw [(tryFrom_written pf target h1 (by decide) hl).1, h2, h]

/-- A file with a module `m`; the string table has two bytes, of which the second is a text. -/
def hxFile (m : Tree) : Tree :=
  .block 13 (.record 1 [76, 76] (.record 2 [0] .nil)) (.block 8 m (.block 23 (.record 1 [255, 97] .nil) .nil))

def hxStrtab : Strtab := ⟨[255, 97]⟩

theorem module_happens {pf : Profile} {target : Str} {m : Tree} (hn : m.NoInfo) (hw : m.weight ≤ 2 ^ 29)
    {e : ModuleError} (h : Module.tryFrom pf target (unrolled 8 m) { PartialMapCtx.default with strtab := hxStrtab } = .err e) :
    Happens pf target (.map (.module e)) := by
  refine tree_happens (t := hxFile m) ?_ ?_ ?_ ?_
  · simp [hxFile, Tree.OnlyBlocks]
  · simp [hxFile, Tree.NoInfo, hn]
  · simp [hxFile, Tree.weight]; omega
  · have h0 : (unrollBlocks (hxFile m).tops).foldlM addTop [] = .ok
        [{ identification := unrolled 13 (.record 1 [76, 76] (.record 2 [0] .nil)), strtab := some (unrolled 23 (.record 1 [255, 97] .nil)),
           symtab := none, module := some (unrolled 8 m) }] := by
      simp only [hxFile, Tree.tops, Tree.forest, Forest.blocks, unrollBlocks, List.map_cons, List.map_nil, List.foldlM_cons, List.foldlM_nil, addTop, addTo_id]
      rfl
    have h1 : Strtab.tryFrom pf (unrolled 23 (.record 1 [255, 97] .nil)) = .ok hxStrtab := by cases pf <;> decide +kernel
    have h2 : Identification.tryFrom pf (unrolled 13 (.record 1 [76, 76] (.record 2 [0] .nil))) = .ok ⟨['L', 'L'], 0⟩ := by
      cases pf <;> decide +kernel
    unfold ofTops
    rw [h0]
    simp only [Out.mapErr, Out.ok_bind, mapOut, PartialModule.reify, Out.ofOption, h1, h2, h]
    rfl


theorem layout_at {pf : Profile} {target : Str} {fs : List U64} {e : DataLayoutError} (h : DataLayout.tryMap pf ⟨none, 3, fs⟩ = .err e) :
    Module.tryFrom pf target (unrolled 8 (.record 1 [2] (.record 3 fs .nil))) { PartialMapCtx.default with strtab := hxStrtab } =
      .err (.dataLayoutRecord e) := by
  have h1 : Records.oneOrNone (unrolled 8 (.record 1 [2] (.record 3 fs .nil))).records ModuleCode.dataLayout.code = .ok (some ⟨none, 3, fs⟩) := rfl
  have h2 : moduleVersion (unrolled 8 (.record 1 [2] (.record 3 fs .nil))) = .ok 2 := rfl
  simp only [Module.tryFrom, Module.tryFromFull, Module.fill, h1, h2, inconsistent, Out.mapErr, Out.ok_bind, orElse, h]
  rfl
/-! ## One thing wrong with a module -/

theorem ir_beq (a b : IrBlockId) : (BlockId.ir a == BlockId.ir b) = decide (a = b) := by
  by_cases h : a = b <;> simp [h]

/-- The tables of a module with the types `ts` and nothing else. -/
def hxCtx (ts : List Ty) : MapCtx where
  version := 2
  datalayout := .default
  sectionTable := []
  gcTable := []
  strtab := hxStrtab
  attributeGroups := []
  attributes := []
  typeTable := ts
  comdats := []

section
variable {pf : Profile} {target : Str} {ts : List Ty} {tb sb x : UBlock} {fs : List U64}

local macro "module_simp" "[" h:Lean.Parser.Tactic.simpLemma,* "]" : tactic => `(tactic| (
  simp [Module.tryFrom, Module.tryFromFull, Module.fill, Module.finish, moduleVersion, inconsistent, Out.mapErr, orElse, UBlock.records,
    UBlock.blocks, moduleStrings, Records.exactlyOne, Records.oneOrNone, Records.byCode, Blocks.exactlyOne, Blocks.oneOrNone,
    Blocks.byId, Blocks.get, Out.ofOption, mapOut, List.lookup, PartialMapCtx.reify, ModuleCode.code, ir_beq, $h,*]))

theorem types_at {e : TypeTableError} (h : TypeTable.tryFrom pf tb = .err e) :
    Module.tryFrom pf target (.mk (.ir .module) [⟨none, 1, [2]⟩] [(.ir .type, [tb])])
      { PartialMapCtx.default with strtab := hxStrtab } = .err (.typeTableBlock e) := by
  module_simp [h]

theorem groups_at {e : AttributeError} (ht : TypeTable.tryFrom pf tb = .ok ts) (h : AttributeGroups.tryFrom x = .err e) :
    Module.tryFrom pf target (.mk (.ir .module) [⟨none, 1, [2]⟩] [(.ir .type, [tb]), (.ir .valueSymtab, [sb]), (.ir .paramAttrGroup, [x])])
      { PartialMapCtx.default with strtab := hxStrtab } = .err (.attributeBlock e) := by
  module_simp [ht, h]

theorem lists_at {e : AttributeError} (ht : TypeTable.tryFrom pf tb = .ok ts) (h : Attributes.tryFrom x [] = .err e) :
    Module.tryFrom pf target (.mk (.ir .module) [⟨none, 1, [2]⟩] [(.ir .type, [tb]), (.ir .valueSymtab, [sb]), (.ir .paramAttr, [x])])
      { PartialMapCtx.default with strtab := hxStrtab } = .err (.attributeBlock e) := by
  module_simp [ht, h, PartialMapCtx.default]

theorem bodies_at {e : FunctionBlockError} (ht : TypeTable.tryFrom pf tb = .ok ts) (h : FunctionBlock.tryFrom x ts = .err e) :
    Module.tryFrom pf target (.mk (.ir .module) [⟨none, 1, [2]⟩] [(.ir .type, [tb]), (.ir .valueSymtab, [sb]), (.ir .function, [x])])
      { PartialMapCtx.default with strtab := hxStrtab } = .err (.functionBlock e) := by
  module_simp [ht, h, PartialMapCtx.default]

theorem comdat_at {e : ComdatError} (ht : TypeTable.tryFrom pf tb = .ok ts)
    (h : Comdat.tryMap pf ⟨none, 12, fs⟩ { PartialMapCtx.default with strtab := hxStrtab, version := some 2, typeTable := some ts } = .err e) :
    Module.tryFrom pf target (.mk (.ir .module) [⟨none, 1, [2]⟩, ⟨none, 12, fs⟩] [(.ir .type, [tb]), (.ir .valueSymtab, [sb])])
      { PartialMapCtx.default with strtab := hxStrtab } = .err (.comdatRecord e) := by
  simp only [PartialMapCtx.default, BitVec.ofNat_eq_ofNat] at h
  module_simp [ht, h, PartialMapCtx.default]

theorem function_at {e : FunctionRecordError} (ht : TypeTable.tryFrom pf tb = .ok ts)
    (h : FunctionRecord.tryMap pf ⟨none, 8, fs⟩ (hxCtx ts) = .err e) :
    Module.tryFrom pf target (.mk (.ir .module) [⟨none, 1, [2]⟩, ⟨none, 8, fs⟩] [(.ir .type, [tb]), (.ir .valueSymtab, [sb])])
      { PartialMapCtx.default with strtab := hxStrtab } = .err (.functionRecord e) := by
  simp only [hxCtx, BitVec.ofNat_eq_ofNat] at h
  module_simp [ht, h, PartialMapCtx.default]

theorem alias_at {e : AliasError} (ht : TypeTable.tryFrom pf tb = .ok ts)
    (h : Alias.tryMap pf ⟨none, 14, fs⟩ (hxCtx ts) = .err e) :
    Module.tryFrom pf target (.mk (.ir .module) [⟨none, 1, [2]⟩, ⟨none, 14, fs⟩] [(.ir .type, [tb]), (.ir .valueSymtab, [sb])])
      { PartialMapCtx.default with strtab := hxStrtab } = .err (.alias e) := by
  simp only [hxCtx, BitVec.ofNat_eq_ofNat] at h
  module_simp [ht, h, PartialMapCtx.default]
end

/-! ## Trees of records -/

/-- Only records. -/
def recTree : List BRecord → Tree
  | [] => .nil
  | r :: rs => .record r.code r.fields (recTree rs)

theorem recTree_noInfo (rs : List BRecord) : (recTree rs).NoInfo := by
  induction rs with
  | nil => trivial
  | cons r rs ih => exact ih

theorem recTree_weight (rs : List BRecord) : (recTree rs).weight = (rs.map fun r => r.fields.length + 3).sum := by
  induction rs with
  | nil => rfl
  | cons r rs ih => simp [recTree, Tree.weight, ih]

theorem recTree_records {rs : List BRecord} (h : ∀ r ∈ rs, r.abbrevId = none) (id : U64) : (unrolled id (recTree rs)).records = rs := by
  rw [addTo_records, show (UBlock.new id).records = [] from rfl, List.nil_append]
  induction rs with
  | nil => rfl
  | cons r rs ih =>
    simp only [recTree, Tree.forest, Forest.records, List.cons.injEq]
    refine ⟨?_, ih fun r hr => h r (by simp [hr])⟩
    rw [← h r (by simp)]

/-! ## Errors within a module -/

/-- The records for the types `ts`. -/
def hxTypes (ts : List Ty) : Tree := recTree (tableRecords ts)

section
variable {pf : Profile} {target : Str} {ts : List Ty} {rs : List BRecord} {fs : List U64}

theorem tableRecords_plain (ts : List Ty) : ∀ r ∈ tableRecords ts, r.abbrevId = none := by
  intro r hr
  simp only [tableRecords, List.mem_cons, List.mem_flatMap] at hr
  rcases hr with rfl | ⟨t, -, hr⟩
  · rfl
  · cases t with
    | struct n fs p =>
      cases n with
      | none => simp [typeRecords] at hr; rw [hr]
      | some n =>
        simp only [typeRecords, List.mem_append] at hr
        rcases hr with hr | hr
        · split at hr
          · simp at hr
          · simp at hr; rw [hr]
        · simp at hr; rcases hr with rfl | rfl <;> rfl
    | _ => simp [typeRecords] at hr; rw [hr]

theorem hxTypes_map (h : TypesCanBe ts) : TypeTable.tryFrom pf (unrolled 17 (hxTypes ts)) = .ok ts :=
  C71_every pf _ ts h (recTree_records (tableRecords_plain ts) 17)

theorem types_happens (hr : ∀ r ∈ rs, r.abbrevId = none) (hw : (rs.map fun r => r.fields.length + 3).sum ≤ 2 ^ 28) {e : TypeTableError}
    (h : TypesFault pf rs e) : Happens pf target (.map (.module (.typeTableBlock e))) := by
  refine module_happens (m := .record 1 [2] (.block 17 (recTree rs) .nil)) ?_ ?_ ?_
  · simp [Tree.NoInfo, recTree_noInfo]
  · simp [Tree.weight, recTree_weight]; omega
  · have := (C53_types pf (unrolled 17 (recTree rs)) e).2 (by rw [recTree_records hr]; exact h)
    have h0 : unrolled 8 (.record 1 [2] (.block 17 (recTree rs) .nil)) =
        .mk (.ir .module) [⟨none, 1, [2]⟩] [((.ir .type), [unrolled 17 (recTree rs)])] := by
      simp only [unrolled, Tree.forest, Forest.addTo, UBlock.pushBlock, addTo_id]
      rfl
    rw [h0]
    exact types_at this

theorem module_tree (types : Tree) (rest : Tree) : unrolled 8 (.record 1 [2] (.block 17 types (.block 14 .nil rest))) =
    rest.forest.addTo (.mk (.ir .module) [⟨none, 1, [2]⟩] [(.ir .type, [unrolled 17 types]), (.ir .valueSymtab, [unrolled 14 .nil])]) := by
  simp only [unrolled, Tree.forest, Forest.addTo, UBlock.pushBlock, addTo_id]
  rfl

/-- A module with types and symbols, and more. -/
theorem with_types (hw : tableWeight ts ≤ 2 ^ 27) {rest : Tree} (hn : rest.NoInfo) (hr : rest.weight ≤ 2 ^ 27) {e : ModuleError}
    (h : Module.tryFrom pf target (rest.forest.addTo (.mk (.ir .module) [⟨none, 1, [2]⟩]
      [(.ir .type, [unrolled 17 (hxTypes ts)]), (.ir .valueSymtab, [unrolled 14 .nil])]))
      { PartialMapCtx.default with strtab := hxStrtab } = .err e) : Happens pf target (.map (.module e)) := by
  refine module_happens (m := .record 1 [2] (.block 17 (hxTypes ts) (.block 14 .nil rest))) ?_ ?_ ?_
  · simp [Tree.NoInfo, hxTypes, recTree_noInfo, hn]
  · unfold tableWeight at hw
    simp [Tree.weight, hxTypes, recTree_weight]; omega
  · rw [module_tree]; exact h

theorem groups_happens (hr : ∀ r ∈ rs, r.abbrevId = none) (hw : (rs.map fun r => r.fields.length + 3).sum ≤ 2 ^ 26) {e : AttributeError}
    (h : All GroupBad rs (.error e)) : Happens pf target (.map (.module (.attributeBlock e))) := by
  refine with_types (ts := []) (rest := .block 10 (recTree rs) .nil) (by decide) (by simp [Tree.NoInfo, recTree_noInfo])
    (by simp [Tree.weight, recTree_weight]; omega) ?_
  have := (C67_groups (unrolled 10 (recTree rs)) (.error e)).2 (by rw [recTree_records hr]; exact h)
  simp only [Tree.forest, Forest.addTo, UBlock.pushBlock, addTo_id]
  exact groups_at (hxTypes_map ⟨by decide, by simp, by simp, by simp, by simp⟩) this

theorem lists_happens (hr : ∀ r ∈ rs, r.abbrevId = none) (hw : (rs.map fun r => r.fields.length + 3).sum ≤ 2 ^ 26) {e : AttributeError}
    (h : All (ListBad []) rs (.error e)) : Happens pf target (.map (.module (.attributeBlock e))) := by
  refine with_types (ts := []) (rest := .block 9 (recTree rs) .nil) (by decide) (by simp [Tree.NoInfo, recTree_noInfo])
    (by simp [Tree.weight, recTree_weight]; omega) ?_
  have := (C67_lists (unrolled 9 (recTree rs)) [] (by simp [Sorted]) (.error e)).2 (by rw [recTree_records hr]; exact h)
  simp only [Tree.forest, Forest.addTo, UBlock.pushBlock, addTo_id]
  exact lists_at (hxTypes_map ⟨by decide, by simp, by simp, by simp, by simp⟩) this

theorem bodies_happens (ht : TypesCanBe ts) (hts : tableWeight ts ≤ 2 ^ 27) (hr : ∀ r ∈ rs, r.abbrevId = none)
    (hw : (rs.map fun r => r.fields.length + 3).sum ≤ 2 ^ 26) {e : FunctionBlockError}
    (h : BodyBad ts rs (.error e)) : Happens pf target (.map (.module (.functionBlock e))) := by
  refine with_types (ts := ts) (rest := .block 12 (recTree rs) .nil) hts (by simp [Tree.NoInfo, recTree_noInfo])
    (by simp [Tree.weight, recTree_weight]; omega) ?_
  have := (C67_body (unrolled 12 (recTree rs)) ts (.error e)).2 (by rw [recTree_records hr]; exact h)
  simp only [Tree.forest, Forest.addTo, UBlock.pushBlock, addTo_id]
  exact bodies_at (hxTypes_map ht) this

theorem comdat_happens (hw : fs.length ≤ 2 ^ 26) {e : ComdatError}
    (h : ComdatBad pf 2 [255, 97] fs (.error e)) : Happens pf target (.map (.module (.comdatRecord e))) := by
  refine with_types (ts := []) (rest := .record 12 fs .nil) (by decide) (by simp [Tree.NoInfo]) (by simp [Tree.weight]; omega) ?_
  exact comdat_at (hxTypes_map ⟨by decide, by simp, by simp, by simp, by simp⟩)
    ((C67_comdat pf ⟨none, 12, fs⟩ _ 2 rfl (by decide) (.error e)).2 h)

theorem function_happens (ht : TypesCanBe ts) (hts : tableWeight ts ≤ 2 ^ 27) (hw : fs.length ≤ 2 ^ 26) {e : FunctionRecordError}
    (h : FunctionBad pf (hxCtx ts) fs (.error e)) : Happens pf target (.map (.module (.functionRecord e))) := by
  refine with_types (ts := ts) (rest := .record 8 fs .nil) hts (by simp [Tree.NoInfo]) (by simp [Tree.weight]; omega) ?_
  exact function_at (hxTypes_map ht) ((C67_function pf ⟨none, 8, fs⟩ (hxCtx ts) (by simp [hxCtx, hxStrtab]) (.error e)).2 h)

theorem alias_happens (ht : TypesCanBe ts) (hts : tableWeight ts ≤ 2 ^ 27) (hw : fs.length ≤ 2 ^ 26) {e : AliasError}
    (h : AliasBad pf (hxCtx ts) fs (.error e)) : Happens pf target (.map (.module (.alias e))) := by
  refine with_types (ts := ts) (rest := .record 14 fs .nil) hts (by simp [Tree.NoInfo]) (by simp [Tree.weight]; omega) ?_
  exact alias_at (hxTypes_map ht) ((C67_alias pf ⟨none, 14, fs⟩ (hxCtx ts) (by simp [hxCtx, hxStrtab]) (.error e)).2 h)

theorem layout_happens (hw : fs.length ≤ 2 ^ 26) {e : DataLayoutError} (h : LayoutBad pf ⟨none, 3, fs⟩ (.error e)) :
    Happens pf target (.map (.module (.dataLayoutRecord e))) :=
  module_happens (m := .record 1 [2] (.record 3 fs .nil)) (by simp [Tree.NoInfo]) (by simp [Tree.weight]; omega)
    (layout_at ((C67_layout pf ⟨none, 3, fs⟩ (.error e)).2 h))

end

/-- Closed cases: what a file of the items maps to. -/
theorem items_happen {pf : Profile} (target : Str) {its : Items} {e : MapperError} (h : mapFile pf its = some (.err e))
    (hl : ((streamBytes 0xdec04342 its).map fun x => decide (x.1.length ≤ 2 ^ 61)) = some true) : Happens pf target e := by
  unfold mapFile at h
  rw [Option.map_eq_some_iff] at h
  obtain ⟨x, hx, h⟩ := h
  rw [hx] at hl
  have hl : x.1.length ≤ 2 ^ 61 := by simpa using hl
  exact ⟨x.1, hl, (C67_target pf target _ x.1 hl (.error e)).2 h⟩

section
variable {pf : Profile} {target : Str}

theorem TextError.cases {P : RecordStringError → Prop} (h1 : P (.badIndex 0 1)) (h2 : P .badCharacter) (h3 : P .badEncoding)
    {e : RecordStringError} (h : TextError e) : P e := by
  cases h <;> assumption

theorem each_text {e : RecordStringError} (h : TextError e) : Happens pf target (.map (.module (.map (.recordString e)))) := by
  cases h with
  | one => exact items_happen target (its := fileOf (moduleOf (.unabbrev 5 [97] .nil))) (by cases pf <;> decide +kernel) (by decide +kernel)
  | character => exact items_happen target (its := fileOf (moduleOf (.unabbrev 5 [97, 300] .nil))) (by cases pf <;> decide +kernel) (by decide +kernel)
  | encoding => exact items_happen target (its := fileOf (moduleOf (.unabbrev 5 [97, 255] .nil))) (by cases pf <;> decide +kernel) (by decide +kernel)

theorem each_layout {e : DataLayoutError} (h : LayoutError (· ≤ 2 ^ 20) e) : Happens pf target (.map (.module (.dataLayoutRecord e))) := by
  cases h with
  | text h =>
    cases h with
    | one => exact items_happen target (its := fileOf (.unabbrev 1 [2] (.unabbrev 3 [97] .nil))) (by cases pf <;> decide +kernel) (by decide +kernel)
    | character => exact items_happen target (its := fileOf (.unabbrev 1 [2] (.unabbrev 3 [97, 300] .nil))) (by cases pf <;> decide +kernel) (by decide +kernel)
    | encoding => exact items_happen target (its := fileOf (.unabbrev 1 [2] (.unabbrev 3 [97, 255] .nil))) (by cases pf <;> decide +kernel) (by decide +kernel)
  | @spec s _ h2 hw h =>
    have hs : Holds pf ⟨none, 3, (utf8 s).map (·.setWidth 64)⟩ s := by
      refine ⟨rfl, ?_, ?_⟩
      · simp; omega
      · intro h; simp at h; rw [h] at h2; simp at h2
    refine layout_happens (fs := (utf8 s).map (·.setWidth 64)) (by simp; omega) (.later ?_ (.here ⟨s, e, hs, h, rfl⟩))
    rintro x ⟨y, hy, -⟩
    exact (text_judges pf _).no ((holds_iff pf _ s).2 hs) y hy

/-! ### Types -/

theorem counts_first (n : U64) (rs : List BRecord) : Counts (⟨none, 1, [n]⟩ :: rs) n := ⟨_, [], ⟨[], rs, rfl, rfl, by simp⟩, rfl⟩

/-- A record that is refused, as the first. -/
theorem first_record {r : BRecord} (hr : r.abbrevId = none) (hw : r.fields.length ≤ 2 ^ 20) {e : TypeTableError} (h : RecordFault [] [] r e) :
    Happens pf target (.map (.module (.typeTableBlock e))) :=
  types_happens (rs := [⟨none, 1, [0]⟩, r]) (by simp [hr]) (by simp; omega)
    (.record (pre := [⟨none, 1, [0]⟩]) (post := []) (counts_first 0 _) (by decide) rfl (.count rfl .nil) h)

theorem denotes_mono {ds ds' : List TyDecl} (hds : ∀ (i : Nat) (d : TyDecl), ds[i]? = some d → ds'[i]? = some d) {i : Nat} {t : Ty} (h : Denotes ds i t) :
    Denotes ds' i t := by
  induction h with
  | prim h => exact .prim (hds _ _ h)
  | integer h => exact .integer (hds _ _ h)
  | function h _ hl _ ih1 ih2 => exact .function (hds _ _ h) ih1 hl ih2
  | pointer h _ ih => exact .pointer (hds _ _ h) ih
  | opaquePointer h => exact .opaquePointer (hds _ _ h)
  | struct h hl _ ih => exact .struct (hds _ _ h) hl ih
  | array h _ ih => exact .array (hds _ _ h) ih
  | fixedVector h _ ih => exact .fixedVector (hds _ _ h) ih
  | scalableVector h _ ih => exact .scalableVector (hds _ _ h) ih

theorem table_builds (pf : Profile) {ts : List Ty} (hfew : ts.length * 56 < 2 ^ 63) {rest : List BRecord} {out : List TyDecl} {nm : Str} :
    ∀ (us : List Ty) (ds : List TyDecl), (∀ t ∈ us, SpaceOk t) → (∀ t ∈ us, NameOk t) →
      Builds pf (ds ++ us.map (tyDecl ts)) [] rest out nm → Builds pf ds [] (us.flatMap (typeRecords ts) ++ rest) out nm := by
  intro us
  induction us with
  | nil => intro ds _ _ h; simpa using h
  | cons u us ih =>
    intro ds hs hn h
    rw [List.flatMap_cons, List.append_assoc]
    refine typeRecords_build pf hfew u (hs u (by simp)) (hn u (by simp)) (ih _ (fun t ht => hs t (by simp [ht])) (fun t ht => hn t (by simp [ht])) ?_)
    simpa using h

/-- A table of types with one entry more, which breaks the rules. -/
theorem one_more {ts : List Ty} (h : TypesCanBe ts) (hw : tableWeight ts ≤ 2 ^ 20) {r : BRecord}
    (hr : r.abbrevId = none) (hrw : r.fields.length ≤ 2 ^ 20) {d : TyDecl} (hd : Adds r d) {e : Ty.Error}
    (hrefs : ∀ j ∈ d.refs, ∃ u ∈ ts, j = (tyPlace ts u).toNat)
    (he : ∀ ds, (∀ u ∈ ts, Denotes ds (tyPlace ts u).toNat u) → EntryFault ds d e) : Happens pf target (.map (.module (.typeTableBlock (.invalidType e)))) := by
  have hfew : ts.length ≤ 2 ^ 20 := by
    refine Nat.le_trans ?_ hw
    unfold tableWeight tableRecords
    have : ∀ us : List Ty, us.length ≤ ((us.flatMap (typeRecords ts)).map fun r => r.fields.length + 3).sum := by
      intro us
      induction us with
      | nil => simp
      | cons u us ih =>
        have h1 : 1 ≤ ((typeRecords ts u).map fun r => r.fields.length + 3).sum := by
          cases u with
          | struct n fs p => cases n <;> simp [typeRecords] <;> omega
          | _ => simp [typeRecords]; try omega
        simp only [List.flatMap_cons, List.map_append, List.sum_append, List.length_cons]
        omega
    have := this ts
    simp only [List.map_cons, List.sum_cons]
    omega
  have hn : (BitVec.ofNat 64 (ts.length + 1)).toNat = ts.length + 1 := by
    rw [BitVec.toNat_ofNat]; exact Nat.mod_eq_of_lt (by omega)
  let ds := ts.map (tyDecl ts)
  have hden : ∀ (i : Nat) (u : Ty), ts[i]? = some u → Denotes (ds ++ [d]) i u := fun i u hi =>
    denotes_mono (fun j x hx => by rw [List.getElem?_append_left (List.getElem?_eq_some_iff.1 hx).1]; exact hx)
      (decl_denotes h.closed _ i u (Nat.le_refl _) hi)
  have hsound : ∀ k < ts.length, Sound (ds ++ [d]) k := fun k hk =>
    ⟨ts[k], hden k _ (List.getElem?_eq_getElem hk), h.valid _ (List.getElem_mem hk)⟩
  refine types_happens (rs := ⟨none, 1, [BitVec.ofNat 64 (ts.length + 1)]⟩ :: (ts.flatMap (typeRecords ts) ++ [r])) ?_ ?_
    (.entry (ds := ds ++ [d]) (i := ts.length) ⟨BitVec.ofNat 64 (ts.length + 1), [], counts_first _ _, by rw [hn]; omega,
      .count rfl (table_builds pf h.few ts [] h.spaces h.names (.single hd .nil)), by rw [hn]; simp [ds]⟩ (by simp [ds]) hsound
      (.entry (by simp [ds]) (fun k hk => ?_) (he _ ?_)))
  · intro x hx
    have hp := tableRecords_plain ts
    simp only [tableRecords, List.mem_cons] at hp
    simp only [List.mem_cons, List.mem_append, List.not_mem_nil, or_false] at hx
    rcases hx with rfl | hx | rfl
    · rfl
    · exact hp x (.inr hx)
    · exact hr
  · unfold tableWeight tableRecords at hw
    simp only [List.map_cons, List.sum_cons, List.map_append, List.sum_append, List.map_nil, List.sum_nil, List.length_cons, List.length_nil] at hw ⊢
    omega
  · obtain ⟨u, hu, rfl⟩ := hrefs k hk
    refine hsound _ ?_
    rw [place_toNat h.few]; exact List.idxOf_lt_length_iff.2 hu
  · intro u hu
    refine hden _ u ?_
    rw [place_toNat h.few]
    exact idxOf_get hu

theorem each_type {e : TypeTableError} (h : TableError (· ≤ 2 ^ 20) e) : Happens pf target (.map (.module (.typeTableBlock e))) := by
  cases h with
  | code c h => exact first_record (r := ⟨none, c, []⟩) rfl (by simp) (.code (by rcases h with rfl | h; exact .inl rfl; exact .inr h))
  | short => exact first_record (r := ⟨none, 7, []⟩) rfl (by simp) (.short (by decide))
  | oldFunction => exact first_record (r := ⟨none, 9, []⟩) rfl (by simp) (.oldFunction rfl)
  | pointerSpace a h => exact first_record (r := ⟨none, 8, [0, a]⟩) rfl (by simp) (.pointerSpace rfl rfl h)
  | typeSpace a h => exact first_record (r := ⟨none, 25, [a]⟩) rfl (by simp) (.typeSpace rfl rfl h)
  | unnamed => exact first_record (r := ⟨none, 6, []⟩) rfl (by simp) (.unnamed rfl rfl)
  | namedTwice =>
    exact items_happen target (its := typesFile (.unabbrev 1 [1] (.unabbrev 18 [0, 0] (.unabbrev 20 [0] .nil)))) (by cases pf <;> decide +kernel)
      (by decide +kernel)
  | opaqueTwice =>
    exact items_happen target (its := typesFile (.unabbrev 1 [1] (.unabbrev 19 [97, 98] (.unabbrev 6 [] (.unabbrev 19 [97, 98]
      (.unabbrev 6 [] .nil)))))) (by cases pf <;> decide +kernel) (by decide +kernel)
  | name h =>
    cases h with
    | one => exact first_record (r := ⟨none, 19, [97]⟩) rfl (by simp) (.name rfl ⟨rfl, rfl, rfl⟩)
    | character => exact first_record (r := ⟨none, 19, [97, 300]⟩) rfl (by simp) (.name rfl ⟨by simp, 300, by simp, by decide⟩)
    | encoding =>
      exact items_happen target (its := typesFile (.unabbrev 1 [1] (.unabbrev 19 [97, 255] .nil))) (by cases pf <;> decide +kernel)
        (by decide +kernel)
  | index i h0 h =>
    have hi : (BitVec.ofNat 64 i).toNat = i := by rw [BitVec.toNat_ofNat]; exact Nat.mod_eq_of_lt h
    refine types_happens (rs := [⟨none, 1, [1]⟩, ⟨none, 8, [BitVec.ofNat 64 i, 0]⟩]) (by simp) (by simp)
      (.entry (ds := [.pointer (BitVec.ofNat 64 i).toNat ⟨0⟩]) (i := 0) ⟨1, [], counts_first _ _, by decide,
        .count rfl (.single (.says (.pointer rfl rfl (by decide))) .nil), rfl⟩ (by simp) (by simp)
        (.within (pre := []) (post := []) rfl rfl (by simp) ?_))
    rw [hi]
    exact .index h0
  | count n m hne hn hm =>
    have hn' : (BitVec.ofNat 64 n).toNat = n := by rw [BitVec.toNat_ofNat]; exact Nat.mod_eq_of_lt (by omega)
    have hb : ∀ (m : Nat) (ds : List TyDecl), Builds pf ds [] (List.replicate m ⟨none, 2, []⟩) (ds ++ List.replicate m (.prim .void)) [] := by
      intro m
      induction m with
      | zero => intro ds; simpa using .nil
      | succ m ih =>
        intro ds
        rw [List.replicate_succ, List.replicate_succ]
        refine .single (d := .prim .void) (.says (.prim (by decide))) ?_
        have := ih (ds ++ [.prim .void])
        rwa [List.append_assoc] at this
    have := TypesFault.count (pf := pf) (counts_first (BitVec.ofNat 64 n) (List.replicate m ⟨none, 2, []⟩)) (by rw [hn']; exact hn)
      (.count rfl (hb m [])) (by rw [hn']; simpa using Ne.symm hne)
    rw [hn', List.nil_append, List.length_replicate] at this
    refine types_happens (fun r hr => ?_) ?_ this
    · simp only [List.mem_cons, List.mem_replicate] at hr
      rcases hr with rfl | ⟨-, rfl⟩ <;> rfl
    · simp; omega
  | width => exact items_happen target (its := typesFile (.unabbrev 1 [1] (.unabbrev 7 [0] .nil))) (by cases pf <;> decide +kernel) (by decide +kernel)
  | @returns t h hbad =>
    obtain ⟨ts, hts, ht, hw⟩ := h
    exact one_more hts hw (r := ⟨none, 21, [0, tyPlace ts t]⟩) rfl (by simp) (.says (.function rfl rfl))
      (by intro j hj; exact ⟨t, ht, by simpa [TyDecl.refs] using hj⟩) fun ds hd => .returns (hd t ht) hbad
  | @parameter t h hbad =>
    obtain ⟨ts, hts, ht, hw⟩ := h
    have key : ∀ u, u ∈ ts → OkReturn u → Happens pf target (.map (.module (.typeTableBlock (.invalidType (.functionBadParameter t))))) := fun u hu hok =>
      one_more hts hw (r := ⟨none, 21, [0, tyPlace ts u, tyPlace ts t]⟩) rfl (by simp) (.says (.function rfl rfl))
        (by
          intro j hj
          simp only [TyDecl.refs, List.map_cons, List.map_nil, List.mem_cons, List.not_mem_nil, or_false] at hj
          rcases hj with rfl | rfl
          · exact ⟨u, hu, rfl⟩
          · exact ⟨t, ht, rfl⟩) fun ds hd => .parameter (pre := []) (post := []) (hd u hu) hok (by simp) (hd t ht) hbad
    by_cases hf : IsFunction t
    · obtain ⟨r, ps, v, rfl⟩ := hf
      have hr : OkReturn r := by cases hts.valid _ ht; assumption
      exact key r (hts.closed _ ht r (by simp [components])) hr
    · have : t = .prim .void := by
        by_cases h : t = .prim .void
        · exact h
        · exact absurd ⟨h, hf⟩ hbad
      subst this
      exact key _ ht ⟨by simp, hf⟩
  | @pointee t h hbad =>
    obtain ⟨ts, hts, ht, hw⟩ := h
    exact one_more hts hw (r := ⟨none, 8, [tyPlace ts t, 0]⟩) rfl (by simp) (.says (.pointer rfl rfl (by decide)))
      (by intro j hj; exact ⟨t, ht, by simpa [TyDecl.refs] using hj⟩) fun ds hd => .pointee (hd t ht) hbad
  | @member t h hbad =>
    obtain ⟨ts, hts, ht, hw⟩ := h
    exact one_more hts hw (r := ⟨none, 18, [0, tyPlace ts t]⟩) rfl (by simp) (.says (.structAnon rfl rfl))
      (by intro j hj; exact ⟨t, ht, by simpa [TyDecl.refs] using hj⟩) fun ds hd => .member (pre := []) (post := []) (by simp) (hd t ht) hbad
  | @element t h hbad =>
    obtain ⟨ts, hts, ht, hw⟩ := h
    exact one_more hts hw (r := ⟨none, 11, [1, tyPlace ts t]⟩) rfl (by simp) (.says (.array rfl rfl))
      (by intro j hj; exact ⟨t, ht, by simpa [TyDecl.refs] using hj⟩) fun ds hd => .element (hd t ht) hbad
  | @lane t h hbad =>
    obtain ⟨ts, hts, ht, hw⟩ := h
    exact one_more hts hw (r := ⟨none, 12, [1, tyPlace ts t]⟩) rfl (by simp) (.says (.fixedVector rfl rfl rfl))
      (by intro j hj; exact ⟨t, ht, by simpa [TyDecl.refs] using hj⟩) fun ds hd => .lane (hd t ht) hbad

/-! ### Attributes -/

theorem one_group {r : BRecord} (hr : r.abbrevId = none) (hw : r.fields.length ≤ 2 ^ 21) {e : AttributeError} (h : GroupFault r e) :
    Happens pf target (.map (.module (.attributeBlock e))) :=
  groups_happens (rs := [r]) (by simp [hr]) (by simp; omega) (.here h)

/-- A group of one attribute that is refused. -/
theorem one_attribute {fs : List U64} (hw : fs.length ≤ 2 ^ 20) {e : AttributeError} (h : AttrFault fs e) :
    Happens pf target (.map (.module (.attributeBlock e))) :=
  one_group (r := ⟨none, 3, 0 :: 0 :: fs⟩) rfl (by simp; omega)
    (.attribute (l := []) rfl (by intro x hx; simp at hx) rfl h)

theorem one_list {r : BRecord} (hr : r.abbrevId = none) (hw : r.fields.length ≤ 2 ^ 20) {e : AttributeError} (h : ListBad [] r (.error e)) :
    Happens pf target (.map (.module (.attributeBlock e))) :=
  lists_happens (rs := [r]) (by simp [hr]) (by simp; omega) (.here h)

theorem fails_not {ε : Type} {p : Prop} {e : ε} (h : ¬ p) : ∀ x, ¬ fails p e x := fun _ hx => h hx.1
theorem halts_not {ε : Type} {p : Prop} {s : Stop} (h : ¬ p) : ∀ x : Bad ε, ¬ halts p s x := fun _ hx => h hx.1

theorem each_attribute {e : AttributeError} (h : AttributesError (· ≤ 2 ^ 20) e) : Happens pf target (.map (.module (.attributeBlock e))) := by
  have ofNat_id : ∀ {id : Nat} {key : AttributeId}, (id, key) ∈ attributeIdTable → (BitVec.ofNat 64 id).toNat = id := by
    intro id key h
    have : ∀ p ∈ attributeIdTable, p.1 < 2 ^ 64 := by decide
    rw [BitVec.toNat_ofNat]; exact Nat.mod_eq_of_lt (this _ h)
  cases h with
  | code c h => exact one_group (r := ⟨none, c, []⟩) rfl (by simp) (.code h)
  | wrongBlock c =>
    cases c with
    | entryOld => exact one_group (r := ⟨none, 1, []⟩) rfl (by simp) (.old rfl)
    | entry => exact one_group (r := ⟨none, 2, []⟩) rfl (by simp) (.list rfl)
    | groupCodeEntry =>
      exact one_list (r := ⟨none, 3, []⟩) rfl (by simp) (.later (fails_not (by decide)) (.later (halts_not (by decide)) (.here ⟨rfl, rfl⟩)))
  | kind k h => exact one_attribute (fs := [k]) (by simp) (.kind h)
  | cut => exact one_attribute (fs := [0]) (by simp) (.cutNumber (by decide))
  | text =>
    exact items_happen target (its := fileOf (moduleOf (.block 10 3 (.unabbrev 3 [0, 0, 3, 0] .nil) .nil))) (by cases pf <;> decide +kernel)
      (by decide +kernel)
  | number id h => exact one_attribute (fs := [0, id]) (by simp) (.number (by decide) h)
  | noValue id key h1 h2 =>
    have := ofNat_id h1
    exact one_attribute (fs := [0, BitVec.ofNat 64 id]) (by simp) (.needsValue (by rwa [this]) (by rwa [this]))
  | badValue id v key m h1 hv h2 =>
    have := ofNat_id h1
    have hv' : (BitVec.ofNat 64 v).toNat = v := by rw [BitVec.toNat_ofNat]; exact Nat.mod_eq_of_lt hv
    exact one_attribute (fs := [1, BitVec.ofNat 64 id, BitVec.ofNat 64 v]) (by simp) (.badValue (by rwa [this]) (by rwa [this, hv']))
  | unsupported id key h1 h2 h3 =>
    have := ofNat_id h1
    exact one_attribute (fs := [1, BitVec.ofNat 64 id, 0]) (by simp) (.unsupported (by rwa [this]) (by rwa [this]) (by rwa [this]))
  | group id =>
    have hid : (id.setWidth 64 : U64).setWidth 32 = id := by
      apply BitVec.eq_of_toNat_eq
      simp only [BitVec.toNat_setWidth]
      omega
    refine one_list (r := ⟨none, 2, [id.setWidth 64]⟩) rfl (by simp) (.later (fails_not (by simp)) (.later (halts_not (by simp))
      (.later (fails_not (by simp)) (.here (.here ⟨by simp, ?_⟩)))))
    rw [hid]
  | short n h =>
    have : (List.replicate n (0 : U64)).length = n := List.length_replicate
    have := GroupFault.empty (r := ⟨none, 3, List.replicate n 0⟩) rfl (by simp; omega)
    simp only [List.length_replicate] at this
    exact one_group (r := ⟨none, 3, List.replicate n 0⟩) rfl (by simp; omega) this
  | size n h4 hn =>
    have hu : utf8 (List.replicate (n - 3) 'a') = List.replicate (n - 3) 97 := by
      generalize n - 3 = k
      induction k with
      | zero => rfl
      | succ k ih => rw [List.replicate_succ, List.replicate_succ, ← ih]; rfl
    have hs : strFields (List.replicate (n - 3) 'a') = List.replicate (n - 3) 97 := by
      unfold strFields
      rw [hu, List.map_replicate]
      rfl
    have := GroupFault.cut (r := ⟨none, 3, 0 :: 0 :: ([] ++ (3 :: strFields (List.replicate (n - 3) 'a')))⟩) (l := []) rfl
      (by intro x hx; simp at hx) rfl (.str ⟨by simp; omega, by rw [hu]; simp⟩)
    rw [hs] at this
    simp only [List.nil_append, List.length_cons, List.length_replicate, show n - 3 + 1 + 1 + 1 = n by omega] at this
    exact one_group rfl (by simp; omega) this

/-! ### COMDATs, functions and aliases -/

theorem name_fine : ∀ (rest : List U64) x, ¬ NameBad pf [255, 97] (1 :: 1 :: rest) x := fun rest x =>
  (name_judges pf hxStrtab (by decide) (1 :: 1 :: rest)).no (a := ['a']) (by cases pf <;> rfl) x

theorem name_range (rest : List U64) : NameBad pf [255, 97] (0 :: 0 :: rest) (.error .badRange) := .here ⟨.inl rfl, rfl⟩

theorem name_text (rest : List U64) : NameBad pf [255, 97] (0 :: 1 :: rest) (.error .badString) :=
  (name_judges pf hxStrtab (by decide) (0 :: 1 :: rest) (.error .badString)).1
    (show hxStrtab.tryGet pf ⟨0, 1⟩ = .err .badString by cases pf <;> decide +kernel)

theorem under_not {ε δ : Type} {g : ε → δ} {c : Check ε} (h : ∀ x, ¬ c x) : ∀ x, ¬ under g c x := fun _ ⟨y, hy, _⟩ => h y hy

theorem each_comdat {e : ComdatError} (h : ComdatsError (· ≤ 2 ^ 20) e) : Happens pf target (.map (.module (.comdatRecord e))) := by
  cases h with
  | version =>
    exact items_happen target (its := fileOf (.unabbrev 1 [1] (.block 17 4 (.unabbrev 1 [0] .nil) (.block 14 4 .nil (.unabbrev 12 [] .nil)))))
      (by cases pf <;> decide +kernel) (by decide +kernel)
  | length n h hn =>
    have : ComdatBad pf 2 [255, 97] (List.replicate n 0) (.error (.tooShort n)) :=
      .later (fails_not (by decide)) (.here ⟨by simpa using h, by simp⟩)
    exact comdat_happens (by simp; omega) this
  | name h =>
    cases h with
    | range => exact comdat_happens (fs := [0, 0, 0]) (by simp) (.later (fails_not (by decide)) (.later (fails_not (by decide))
        (.here ⟨_, name_range _, rfl⟩)))
    | text => exact comdat_happens (fs := [0, 1, 0]) (by simp) (.later (fails_not (by decide)) (.later (fails_not (by decide))
        (.here ⟨_, name_text _, rfl⟩)))
  | kind k h =>
    exact comdat_happens (fs := [1, 1, k]) (by simp) (.later (fails_not (by decide)) (.later (fails_not (by simp))
      (.later (under_not (name_fine _)) (.here ⟨h, rfl⟩))))

/-- The type of a function, after that of its result. -/
def hxFn : List Ty := [.prim .void, .function (.prim .void) [] false]

theorem hxFn_canBe : TypesCanBe hxFn := by
  refine ⟨by decide, ?_, by decide +kernel, ?_, ?_⟩
  · simp only [hxFn, List.mem_cons, List.not_mem_nil, or_false]
    rintro t (rfl | rfl)
    · exact .prim _
    · exact .function (.prim _) ⟨by decide, by rintro ⟨_, _, _, h⟩; cases h⟩ (by simp) (by simp)
  · simp [hxFn, SpaceOk]
  · simp [hxFn, NameOk]

theorem empty_canBe : TypesCanBe [] := ⟨by decide, by simp, by simp, by simp, by simp⟩

theorem each_function {e : FunctionRecordError} (h : FunctionsError e) : Happens pf target (.map (.module (.functionRecord e))) := by
  have two : ∀ {ts : List Ty}, ¬ (hxCtx ts).version.toNat < 2 := by intro ts; simp [hxCtx]
  have cc : ¬ ∀ x, (0, x) ∉ callingConventionTable := fun h => h .c (by decide)
  have vis : ¬ ∀ x, (0, x) ∉ visibilityTable := fun h => h .default (by decide)
  cases h with
  | version =>
    exact items_happen target (its := fileOf (.unabbrev 1 [1] (.block 17 4 (.unabbrev 1 [0] .nil) (.block 14 4 .nil (.unabbrev 8 [] .nil)))))
      (by cases pf <;> decide +kernel) (by decide +kernel)
  | length n h =>
    have : FunctionBad pf (hxCtx []) (List.replicate n 0) (.error (.tooShort n)) :=
      .later (fails_not two) (.here ⟨by simpa using h, by simp⟩)
    exact function_happens empty_canBe (by decide) (by simp; omega) this
  | name h =>
    cases h with
    | range => exact function_happens (fs := [0, 0, 0, 0, 0, 0, 0, 0, 0, 0]) empty_canBe (by decide) (by simp) (.later (fails_not two) (.later (fails_not (by decide))
        (.here ⟨_, name_range _, rfl⟩)))
    | text => exact function_happens (fs := [0, 1, 0, 0, 0, 0, 0, 0, 0, 0]) empty_canBe (by decide) (by simp) (.later (fails_not two) (.later (fails_not (by decide))
        (.here ⟨_, name_text _, rfl⟩)))
  | typeId v =>
    exact function_happens (fs := [1, 1, v, 0, 0, 0, 0, 0, 0, 0]) empty_canBe (by decide) (by simp) (.later (fails_not two) (.later (fails_not (by simp))
      (.later (under_not (name_fine _)) (.here ⟨by simp [hxCtx], rfl⟩))))
  | type =>
    exact function_happens (fs := [1, 1, 0, 0, 0, 0, 0, 0, 0, 0]) hxFn_canBe (by decide) (by simp) (.later (fails_not two) (.later (fails_not (by simp))
      (.later (under_not (name_fine _)) (.later (fails_not (by decide)) (.here ⟨by simp [hxCtx, hxFn, field], rfl⟩)))))
  | callingConvention v h =>
    exact function_happens (fs := [1, 1, 1, v, 0, 0, 0, 0, 0, 0]) hxFn_canBe (by decide) (by simp) (.later (fails_not two) (.later (fails_not (by simp))
      (.later (under_not (name_fine _)) (.later (fails_not (by simp [hxCtx, hxFn, field])) (.later (fails_not fun h => h _ _ _ rfl) (.here ⟨h, rfl⟩))))))
  | «attribute» v h =>
    refine function_happens (fs := [1, 1, 1, 0, 0, 0, v, 0, 0, 0]) hxFn_canBe (by decide) (by simp) (.later (fails_not two) (.later (fails_not (by simp))
      (.later (under_not (name_fine _)) (.later (fails_not (by simp [hxCtx, hxFn, field])) (.later (fails_not fun h => h _ _ _ rfl) (.later (fails_not cc)
      (.here ⟨?_, rfl⟩)))))))
    have : v.toNat ≠ 0 := fun hv => h (BitVec.eq_of_toNat_eq hv)
    simp [hxCtx, field]; omega
  | «section» n h =>
    have hn : (BitVec.ofNat 64 (n + 1)).toNat = n + 1 := by rw [BitVec.toNat_ofNat]; exact Nat.mod_eq_of_lt (by omega)
    refine function_happens (fs := [1, 1, 1, 0, 0, 0, 0, 0, BitVec.ofNat 64 (n + 1), 0]) hxFn_canBe (by decide) (by simp) (.later (fails_not two) (.later (fails_not (by simp))
      (.later (under_not (name_fine _)) (.later (fails_not (by simp [hxCtx, hxFn, field])) (.later (fails_not fun h => h _ _ _ rfl) (.later (fails_not cc)
      (.later (fails_not (by simp [hxCtx, field])) (.later (fails_not (by simp [field])) (.here ⟨?_, ?_⟩)))))))))
    · show 0 < (BitVec.ofNat 64 (n + 1)).toNat; omega
    · show _ = Bad.error (FunctionRecordError.section ((BitVec.ofNat 64 (n + 1)).toNat - 1)); rw [hn]; rfl
  | gc n h =>
    have hn : (BitVec.ofNat 64 (n + 1)).toNat = n + 1 := by rw [BitVec.toNat_ofNat]; exact Nat.mod_eq_of_lt (by omega)
    refine function_happens (fs := [1, 1, 1, 0, 0, 0, 0, 0, 0, 0, BitVec.ofNat 64 (n + 1)]) hxFn_canBe (by decide) (by simp) (.later (fails_not two) (.later (fails_not (by simp))
      (.later (under_not (name_fine _)) (.later (fails_not (by simp [hxCtx, hxFn, field])) (.later (fails_not fun h => h _ _ _ rfl) (.later (fails_not cc)
      (.later (fails_not (by simp [hxCtx, field])) (.later (fails_not (by simp [field])) (.later (fails_not (by simp [hxCtx, field])) (.later (fails_not vis) (.here ⟨?_, ?_⟩)))))))))))
    · show 0 < (BitVec.ofNat 64 (n + 1)).toNat; omega
    · show _ = Bad.error (FunctionRecordError.gc ((BitVec.ofNat 64 (n + 1)).toNat - 1)); rw [hn]; rfl
  | alignment shift h1 h2 =>
    refine function_happens (fs := [1, 1, 1, 0, 0, 0, 0, (shift + 1).setWidth 64, 0, 0]) hxFn_canBe (by decide) (by simp) (.later (fails_not two) (.later (fails_not (by simp))
      (.later (under_not (name_fine _)) (.later (fails_not (by simp [hxCtx, hxFn, field])) (.later (fails_not fun h => h _ _ _ rfl) (.later (fails_not cc)
      (.later (fails_not (by simp [hxCtx, field])) (.here ⟨?_, ?_⟩))))))))
    · show 64 < ((shift + 1).setWidth 64 : U64).toNat % 256
      simp only [BitVec.toNat_setWidth, BitVec.toNat_add]
      rw [show (1 : U8).toNat = 1 from rfl]
      omega
    · show _ = Bad.error (FunctionRecordError.alignment (.shiftTooBig (((shift + 1).setWidth 64 : U64).setWidth 8 - 1)))
      rw [show ((shift + 1).setWidth 64 : U64).setWidth 8 - 1 = shift from ?_]
      apply BitVec.eq_of_toNat_eq
      simp only [BitVec.toNat_sub, BitVec.toNat_setWidth, BitVec.toNat_add]
      rw [show (1 : U8).toNat = 1 from rfl]
      omega
  | visibility v h =>
    exact function_happens (fs := [1, 1, 1, 0, 0, 0, 0, 0, 0, v]) hxFn_canBe (by decide) (by simp) (.later (fails_not two) (.later (fails_not (by simp))
      (.later (under_not (name_fine _)) (.later (fails_not (by simp [hxCtx, hxFn, field])) (.later (fails_not fun h => h _ _ _ rfl) (.later (fails_not cc)
      (.later (fails_not (by simp [hxCtx, field])) (.later (fails_not (by simp [field])) (.later (fails_not (by simp [hxCtx, field])) (.here ⟨h, rfl⟩))))))))))
  | storageClass v h =>
    exact function_happens (fs := [1, 1, 1, 0, 0, 0, 0, 0, 0, 0, 0, 0, 0, v]) hxFn_canBe (by decide) (by simp) (.later (fails_not two) (.later (fails_not (by simp))
      (.later (under_not (name_fine _)) (.later (fails_not (by simp [hxCtx, hxFn, field])) (.later (fails_not fun h => h _ _ _ rfl) (.later (fails_not cc)
      (.later (fails_not (by simp [hxCtx, field])) (.later (fails_not (by simp [field])) (.later (fails_not (by simp [hxCtx, field])) (.later (fails_not vis)
      (.later (fails_not (by simp [hxCtx, field])) (.here ⟨h, rfl⟩))))))))))))

theorem each_alias {e : AliasError} (h : AliasesError e) : Happens pf target (.map (.module (.alias e))) := by
  have two : ∀ {ts : List Ty}, ¬ (hxCtx ts).version.toNat < 2 := by intro ts; simp [hxCtx]
  have vis : ¬ ∀ x, (0, x) ∉ visibilityTable := fun h => h .default (by decide)
  cases h with
  | version =>
    exact items_happen target (its := fileOf (.unabbrev 1 [1] (.block 17 4 (.unabbrev 1 [0] .nil) (.block 14 4 .nil (.unabbrev 14 [] .nil)))))
      (by cases pf <;> decide +kernel) (by decide +kernel)
  | length n h =>
    have : AliasBad pf (hxCtx []) (List.replicate n 0) (.error (.tooShort n)) :=
      .later (fails_not two) (.here ⟨by simpa using h, by simp⟩)
    exact alias_happens empty_canBe (by decide) (by simp; omega) this
  | name h =>
    cases h with
    | range => exact alias_happens (fs := [0, 0, 0, 0, 0]) empty_canBe (by decide) (by simp) (.later (fails_not two) (.later (fails_not (by decide))
        (.here ⟨_, name_range _, rfl⟩)))
    | text => exact alias_happens (fs := [0, 1, 0, 0, 0]) empty_canBe (by decide) (by simp) (.later (fails_not two) (.later (fails_not (by decide))
        (.here ⟨_, name_text _, rfl⟩)))
  | type v =>
    exact alias_happens (fs := [1, 1, v, 0, 0]) empty_canBe (by decide) (by simp) (.later (fails_not two) (.later (fails_not (by simp))
      (.later (under_not (name_fine _)) (.here ⟨by simp [hxCtx], rfl⟩))))
  | visibility v h =>
    exact alias_happens (fs := [1, 1, 0, 0, 0, v]) hxFn_canBe (by decide) (by simp) (.later (fails_not two) (.later (fails_not (by simp))
      (.later (under_not (name_fine _)) (.later (fails_not (by simp [hxCtx, hxFn, field])) (.here ⟨h, rfl⟩)))))
  | storageClass v h =>
    exact alias_happens (fs := [1, 1, 0, 0, 0, 0, v]) hxFn_canBe (by decide) (by simp) (.later (fails_not two) (.later (fails_not (by simp))
      (.later (under_not (name_fine _)) (.later (fails_not (by simp [hxCtx, hxFn, field])) (.later (fails_not vis) (.here ⟨h, rfl⟩))))))

/-! ### Function bodies -/

/-- A body with a count and one record that is refused. -/
theorem one_instruction {ts : List Ty} (ht : TypesCanBe ts) (hts : tableWeight ts ≤ 2 ^ 27) {r : BRecord} (hr : r.abbrevId = none) (h1 : r.code ≠ 1)
    (hw : r.fields.length ≤ 2 ^ 20) {e : FunctionBlockError} (h : InstructionBad ts r (.error e)) :
    Happens pf target (.map (.module (.functionBlock e))) := by
  have hc : withCode [⟨none, 1, [1]⟩, r] 1 = [⟨none, 1, [1]⟩] := by
    have : r.code.toNat ≠ 1 := fun h => h1 (BitVec.eq_of_toNat_eq h)
    simp [withCode, this]
  refine bodies_happens ht hts (rs := [⟨none, 1, [1]⟩, r]) (by simp [hr]) (by simp; omega) (.later (under_not ?_) (.later ?_ (.later ?_
    (.here (.later ?_ (.here h))))))
  · intro x hx
    unfold OneRecord at hx
    rw [show (1 : U64).toNat = 1 from rfl, hc] at hx
    simp [first_cons, first_nil, fails] at hx
  · intro x hx
    rw [hc] at hx
    simp [All, first_cons, first_nil, fails] at hx
  · intro x hx
    rw [hc] at hx
    simp [All, first_cons, first_nil, halts, field] at hx
  · exact (C67_instruction ts ⟨none, 1, [1]⟩).no (a := ()) rfl

theorem each_body {e : FunctionBlockError} (h : BodiesError (· ≤ 2 ^ 20) e) : Happens pf target (.map (.module (.functionBlock e))) := by
  have ofNat_code : ∀ {code : Nat} {c : FunctionCode}, (code, c) ∈ functionCodeTable → (BitVec.ofNat 64 code).toNat = code := by
    intro id key h
    have : ∀ p ∈ functionCodeTable, p.1 < 2 ^ 64 := by decide
    rw [BitVec.toNat_ofNat]; exact Nat.mod_eq_of_lt (this _ h)
  have known : ∀ {code : Nat} {c : FunctionCode}, (code, c) ∈ functionCodeTable → ¬ ∀ c, (code, c) ∉ functionCodeTable := fun h h' => h' _ h
  have naming_not : ∀ {code : U64} {p : FunctionCode → Prop} {g : FunctionCode → FunctionBlockError}, (∀ c, ¬ p c) →
      ∀ x, ¬ Naming code (fun c => fails (p c) (g c)) x := fun hp x ⟨c, _, h⟩ => hp c h.1
  cases h with
  | noCount => exact items_happen target (its := fileOf (moduleOf (.block 12 4 .nil .nil))) (by cases pf <;> decide +kernel) (by decide +kernel)
  | counts =>
    exact items_happen target (its := fileOf (moduleOf (.block 12 4 (.unabbrev 1 [1] (.unabbrev 1 [1] .nil)) .nil)))
      (by cases pf <;> decide +kernel) (by decide +kernel)
  | emptyCount =>
    exact items_happen target (its := fileOf (moduleOf (.block 12 4 (.unabbrev 1 [] .nil) .nil))) (by cases pf <;> decide +kernel) (by decide +kernel)
  | code c h =>
    refine one_instruction empty_canBe (by decide) (r := ⟨none, c, []⟩) rfl ?_ (by simp) (.here ⟨h, rfl⟩)
    rintro rfl
    exact h .declareBlocks (by decide)
  | fields code c n hc hk hne hn =>
    have hcode := ofNat_code hc
    have hk1 : BitVec.ofNat 64 code ≠ 1 := by intro h; rw [h] at hcode; subst hcode; simp at hk
    have : InstructionBad [] ⟨none, BitVec.ofNat 64 code, List.replicate n 0⟩ (.error (.badInst c (.fields 4 n))) := by
      refine .later (fails_not ?_) (.later (halts_not ?_) (.here ⟨c, ?_, ⟨?_, ?_⟩, ?_⟩))
      · show ¬ ∀ c, ((BitVec.ofNat 64 code).toNat, c) ∉ functionCodeTable; rw [hcode]; exact known hc
      · show ¬ (BitVec.ofNat 64 code).toNat ∉ _; rw [hcode]; simp at hk ⊢; omega
      · show ((BitVec.ofNat 64 code).toNat, c) ∈ _; rw [hcode]; exact hc
      · show (BitVec.ofNat 64 code).toNat ∈ _; rw [hcode]; exact hk
      · simpa using hne
      · simp
    exact one_instruction empty_canBe (by decide) rfl hk1 (by simpa using hn) this
  | unaryFields c n hc hne hn =>
    have : InstructionBad [] ⟨none, 56, List.replicate n 0⟩ (.error (.badInst c (.fields 3 n))) :=
      .later (fails_not (known hc)) (.later (halts_not (by simp)) (.later (naming_not fun _ h => by simp at h) (.here ⟨c, hc, ⟨rfl, by simpa using hne⟩, by simp⟩)))
    exact one_instruction empty_canBe (by decide) rfl (show (56 : U64) ≠ 1 by decide) (by simpa using hn) this
  | type code c i hc hk =>
    simp only [List.mem_cons, List.not_mem_nil, or_false] at hk
    rcases hk with rfl | rfl
    · exact one_instruction empty_canBe (by decide) (r := ⟨none, 2, [0, i, 0, 0]⟩) rfl (by simp) (by simp)
        (.later (fails_not (known hc)) (.later (halts_not (by simp)) (.later (naming_not fun _ h => by simp at h) (.later (naming_not fun _ h => by simp at h)
          (.here ⟨c, hc, ⟨by simp, by simp⟩, rfl⟩)))))
    · exact one_instruction empty_canBe (by decide) (r := ⟨none, 56, [0, i, 0]⟩) rfl (by simp) (by simp)
        (.later (fails_not (known hc)) (.later (halts_not (by simp)) (.later (naming_not fun _ h => by simp at h) (.later (naming_not fun _ h => by simp at h)
          (.here ⟨c, hc, ⟨by simp, by simp⟩, rfl⟩)))))
  | unary op h =>
    have h0 : op.toNat ≠ 0 := fun hv => h (BitVec.eq_of_toNat_eq hv)
    exact one_instruction hxFn_canBe (by decide) (r := ⟨none, 56, [0, 0, op]⟩) rfl (by simp) (by simp)
        (.later (fails_not fun h => h .instUnop (show (56, FunctionCode.instUnop) ∈ functionCodeTable by decide)) (.later (halts_not (by simp)) (.later (naming_not fun _ h => by simp at h)
          (.later (naming_not fun _ h => by simp at h) (.later (naming_not fun _ h => by simp [hxFn, field] at h) (.here ⟨⟨rfl, h0⟩, rfl⟩))))))
  | binary op h =>
    exact one_instruction hxFn_canBe (by decide) (r := ⟨none, 2, [0, 0, 0, op]⟩) rfl (by simp) (by simp)
        (.later (fails_not fun h => h .instBinop (show (2, FunctionCode.instBinop) ∈ functionCodeTable by decide)) (.later (halts_not (by simp)) (.later (naming_not fun _ h => by simp at h)
          (.later (naming_not fun _ h => by simp at h) (.later (naming_not fun _ h => by simp [hxFn, field] at h) (.later (fails_not (by simp))
          (.here ⟨⟨rfl, h⟩, rfl⟩)))))))
  | @operand t h =>
    obtain ⟨ts, hts, ht, hw⟩ := h
    have hp : field [0, tyPlace ts t, 0, 0] 1 = ts.idxOf t := place_toNat hts.few t
    have hlt := List.idxOf_lt_length_iff.2 ht
    exact one_instruction hts (by omega) (r := ⟨none, 2, [0, tyPlace ts t, 0, 0]⟩) rfl (by simp) (by simp)
        (.later (fails_not fun h => h .instBinop (show (2, FunctionCode.instBinop) ∈ functionCodeTable by decide)) (.later (halts_not (by simp)) (.later (naming_not fun _ h => by simp at h)
          (.later (naming_not fun _ h => by simp at h) (.later (naming_not fun _ h => by rw [hp] at h; omega) (.later (fails_not (by simp))
          (.later (fails_not (by simp [field])) (.here ⟨rfl, t, by rw [hp]; exact idxOf_get ht, rfl⟩))))))))

/-! ### Modules -/

theorem each_module {e : ModuleError} (h : ModulesError (· ≤ 2 ^ 20) e) : Happens pf target (.map (.module e)) := by
  cases h with
  | noVersion => exact items_happen target (its := fileOf .nil) (by cases pf <;> decide +kernel) (by decide +kernel)
  | emptyVersion => exact items_happen target (its := fileOf (.unabbrev 1 [] .nil)) (by cases pf <;> decide +kernel) (by decide +kernel)
  | records code h =>
    have : code = 1 ∨ code = 2 ∨ code = 3 ∨ code = 4 := by
      simp only [List.mem_cons, List.not_mem_nil, or_false] at h
      rcases h with h | h | h | h
      · exact .inl (BitVec.eq_of_toNat_eq h)
      · exact .inr (.inl (BitVec.eq_of_toNat_eq h))
      · exact .inr (.inr (.inl (BitVec.eq_of_toNat_eq h)))
      · exact .inr (.inr (.inr (BitVec.eq_of_toNat_eq h)))
    rcases this with rfl | rfl | rfl | rfl
    · exact items_happen target (its := fileOf (.unabbrev 1 [2] (.unabbrev 1 [2] .nil))) (by cases pf <;> decide +kernel) (by decide +kernel)
    · exact items_happen target (its := fileOf (moduleOf (.unabbrev 2 [97, 98] (.unabbrev 2 [97, 98] .nil)))) (by cases pf <;> decide +kernel) (by decide +kernel)
    · exact items_happen target (its := fileOf (.unabbrev 1 [2] (.unabbrev 3 [] (.unabbrev 3 [] .nil)))) (by cases pf <;> decide +kernel) (by decide +kernel)
    · exact items_happen target (its := fileOf (moduleOf (.unabbrev 4 [97, 98] (.unabbrev 4 [97, 98] .nil)))) (by cases pf <;> decide +kernel) (by decide +kernel)
  | noTypes => exact items_happen target (its := fileOf (.unabbrev 1 [2] .nil)) (by cases pf <;> decide +kernel) (by decide +kernel)
  | noSymbols =>
    exact items_happen target (its := fileOf (.unabbrev 1 [2] (.block 17 4 (.unabbrev 1 [0] .nil) .nil))) (by cases pf <;> decide +kernel) (by decide +kernel)
  | blocks id h =>
    have : id = 9 ∨ id = 10 ∨ id = 14 ∨ id = 17 := by
      simp only [List.mem_cons, List.not_mem_nil, or_false] at h
      rcases h with h | h | h | h
      · exact .inl (BitVec.eq_of_toNat_eq h)
      · exact .inr (.inl (BitVec.eq_of_toNat_eq h))
      · exact .inr (.inr (.inl (BitVec.eq_of_toNat_eq h)))
      · exact .inr (.inr (.inr (BitVec.eq_of_toNat_eq h)))
    rcases this with rfl | rfl | rfl | rfl
    · exact items_happen target (its := fileOf (moduleOf (.block 9 3 .nil (.block 9 3 .nil .nil)))) (by cases pf <;> decide +kernel) (by decide +kernel)
    · exact items_happen target (its := fileOf (moduleOf (.block 10 3 .nil (.block 10 3 .nil .nil)))) (by cases pf <;> decide +kernel) (by decide +kernel)
    · exact items_happen target (its := fileOf (moduleOf (.block 14 3 .nil .nil))) (by cases pf <;> decide +kernel) (by decide +kernel)
    · exact items_happen target (its := fileOf (moduleOf (.block 17 3 .nil .nil))) (by cases pf <;> decide +kernel) (by decide +kernel)
  | text h => exact each_text h
  | layout h => exact each_layout h
  | types h => exact each_type h
  | attributes h => exact each_attribute h
  | comdat h => exact each_comdat h
  | function h => exact each_function h
  | body h => exact each_body h
  | alias h => exact each_alias h

end

end Verif
