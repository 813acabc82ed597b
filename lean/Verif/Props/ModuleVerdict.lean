import Verif.Props.Verdict

/-! C67: what mapping ends in if several things are wrong with the input: modules. -/

namespace Verif
open Spec

section
variable {ε α β : Type} {x : Out ε α} {cs ds : List (Check ε)}

theorem first_append {b : Bad ε} : First (cs ++ ds) b ↔ First cs b ∨ ((∀ x, ¬ First cs x) ∧ First ds b) := by
  induction cs with
  | nil => simp [first_nil]
  | cons c cs ih =>
    simp only [List.cons_append, first_cons, ih]
    constructor
    · rintro (h | ⟨h, h' | ⟨h1, h2⟩⟩)
      · exact .inl (.inl h)
      · exact .inl (.inr ⟨h, h'⟩)
      · exact .inr ⟨fun x hx => hx.elim (h x) fun hx => h1 x hx.2, h2⟩
    · rintro ((h | ⟨h, h'⟩) | ⟨h1, h2⟩)
      · exact .inl h
      · exact .inr ⟨h, .inl h'⟩
      · have h0 : ∀ x, ¬ c x := fun x hx => h1 x (.inl hx)
        exact .inr ⟨h0, .inr ⟨fun x hx => h1 x (.inr ⟨h0, hx⟩), h2⟩⟩

/-- Several steps that may fail, and then the rest. -/
theorem Judges.append {f : α → Out ε β} (h : Judges x (First cs)) (hf : ∀ a, x = .ok a → Judges (f a) (First ds)) :
    Judges (x >>= f) (First (cs ++ ds)) := by
  intro b
  rw [first_append, ← first_cons]
  exact h.bind hf b

end

/-! ## One or none -/

theorem oneOrNone_cases {rs : List BRecord} {code : U64} {o : Option BRecord}
    (h : inconsistent (Records.oneOrNone rs code) = .ok o) : withCode rs code.toNat = o.toList := by
  unfold inconsistent Records.oneOrNone at h
  rw [byCode_withCode, Out.mapErr_eq_ok] at h
  generalize withCode rs code.toNat = l at h
  match l, h with
  | [], h => cases h; rfl
  | [r], h => cases h; rfl
  | _ :: _ :: _, h => cases h

/-- A check of a record that need not be there. -/
theorem judges_record {α : Type} {rs : List BRecord} {code : U64} {o : Option BRecord}
    (ho : inconsistent (Records.oneOrNone rs code) = .ok o) {missing : α} {f : BRecord → Out ModuleError α}
    {c : BRecord → Check ModuleError} (h : ∀ r, Judges (f r) (c r)) :
    Judges (orElse o missing f) (All c (withCode rs code.toNat)) := by
  rw [oneOrNone_cases ho]
  cases o with
  | none => exact judges_ok
  | some r => exact judges_only rfl (h r)

/-- A check of a block that need not be there. -/
theorem judges_block {α : Type} {id : U64} {t : Forest} {u : UBlock} (hu : Unrolled id t u) {k : U64} {o : Option UBlock}
    (ho : inconsistent (Blocks.oneOrNone u.blocks (.ofU64 k)) = .ok o) {missing : α} {f : UBlock → Out ModuleError α}
    {c : List BRecord → Check ModuleError} (h : ∀ v, Judges (f v) (c v.records)) :
    Judges (orElse o missing f) (All (fun b => c b.2.records) (t.withId k)) := by
  unfold inconsistent Blocks.oneOrNone at ho
  rw [Out.mapErr_eq_ok] at ho
  rcases byId_cases hu k with ⟨h1, h2⟩ | ⟨c, v, h1, h2, h3⟩ | ⟨c, c', l, v, v', m, h1, h2⟩
  · rw [h2] at ho; cases ho
    rw [h1]; exact judges_ok
  · rw [h2] at ho; cases ho
    rw [h1]
    refine (h v).congr fun b => ?_
    rw [all_singleton, h3]
  · rw [h2] at ho; cases ho

theorem strings_judges (pf : Profile) (rs : List BRecord) (code : ModuleCode) : Judges (moduleStrings pf rs code)
    (All (fun r => under (fun e => .map (.recordString e)) (TextBad pf r)) (withCode rs code.code.toNat)) := by
  unfold moduleStrings
  rw [byCode_withCode]
  refine Judges.congr (Judges.mapErr (judges_mapOut fun r _ => text_judges pf r)) fun b => ?_
  exact under_all b

theorem version_judges (u : UBlock) : Judges (moduleVersion u) (First [
    under (fun e => .map (.inconsistent e)) (OneRecord u.records 1),
    All (fun r => fails (r.fields = []) .missingVersion) (withCode u.records 1)]) := by
  unfold moduleVersion inconsistent
  refine (oneRecord_judges u.records _).mapErr.bind fun r hr => judges_one ?_
  rw [Out.mapErr_eq_ok, exactlyOne_iff] at hr
  exact judges_only hr (judges_ofOption List.head?_eq_none_iff)

/-- A check that depends on what is known by then. -/
theorem judges_given {ε α γ : Type} {P : γ → Prop} {g : γ} (hg : P g) (huniq : ∀ g', P g' → g' = g) {x : Out ε α}
    {c : γ → Check ε} (h : Judges x (c g)) : Judges x fun b => ∃ g, P g ∧ c g b := by
  refine h.congr fun b => ⟨fun h => ⟨g, hg, h⟩, ?_⟩
  rintro ⟨g', hg', h⟩
  cases huniq g' hg'
  exact h

/-! ## Modules -/

/-- The checks before the tables are complete. -/
def tableChecks (pf : Profile) (strtab : Strtab) (t : Forest) : List (Check ModuleError) := [
  under (fun e => .map (.inconsistent e)) (OneRecord t.records 1),
  All (fun r => fails (r.fields = []) .missingVersion) (withCode t.records 1),
  under (fun e => .map (.inconsistent e)) (AtMostOneRecord t.records 3),
  All (fun r => under .dataLayoutRecord (LayoutBad pf r)) (withCode t.records 3),
  All (fun r => under (fun e => .map (.recordString e)) (TextBad pf r)) (withCode t.records 5),
  All (fun r => under (fun e => .map (.recordString e)) (TextBad pf r)) (withCode t.records 11),
  under (fun e => .map (.inconsistent e)) (OneBlock t 17),
  All (fun c => under .typeTableBlock (TypesBad pf c.2.records)) (t.withId 17),
  under (fun e => .map (.inconsistent e)) (OneBlock t 14),
  under (fun e => .map (.inconsistent e)) (AtMostOneBlock t 10),
  All (fun c => under .attributeBlock (All GroupBad c.2.records)) (t.withId 10),
  under (fun e => .map (.inconsistent e)) (AtMostOneBlock t 9),
  fun b => ∃ g, Optionally (fun c g => GroupsSay c.2.records g) [] (t.withId 10) g ∧
    All (fun c => under .attributeBlock (All (ListBad g) c.2.records)) (t.withId 9) b,
  fun b => ∃ r version rest, withCode t.records 1 = [r] ∧ r.fields = version :: rest ∧
    All (fun r => under .comdatRecord (ComdatBad pf version strtab.bytes r.fields)) (withCode t.records 12) b]

/-- The checks after it. -/
def moduleChecks (pf : Profile) (strtab : Strtab) (t : Forest) : List (Check ModuleError) := [
  under (fun e => .map (.inconsistent e)) (AtMostOneRecord t.records 2),
  All (fun r => under (fun e => .map (.recordString e)) (TextBad pf r)) (withCode t.records 2),
  under (fun e => .map (.inconsistent e)) (AtMostOneRecord t.records 4),
  All (fun r => under (fun e => .map (.recordString e)) (TextBad pf r)) (withCode t.records 4),
  All (fun r => under (fun e => .map (.recordString e)) (TextBad pf r)) (withCode t.records 6),
  fun b => ∃ ctx, TablesSay pf strtab t ctx ∧
    All (fun r => under .functionRecord (FunctionBad pf ctx r.fields)) (withCode t.records 8) b,
  fun b => ∃ ctx, TablesSay pf strtab t ctx ∧
    All (fun c => under .functionBlock (BodyBad ctx.typeTable c.2.records)) (t.withId 12) b,
  fun b => ∃ ctx, TablesSay pf strtab t ctx ∧
    All (fun r => under .alias (AliasBad pf ctx r.fields)) (withCode t.records 14) b]

theorem groups_unique {id : U64} {t : Forest} {u : UBlock} (hu : Unrolled id t u) {g g' : AttributeGroups}
    (h : Optionally (fun c g => GroupsSay c.2.records g) [] (t.withId 10) g)
    (h' : Optionally (fun c g => GroupsSay c.2.records g) [] (t.withId 10) g') : g' = g := by
  have hgr := fun g => block_oneOrNone hu 10 [] (fun v => (AttributeGroups.tryFrom v).mapErr .attributeBlock)
    GroupsSay (fun v ts => by rw [Out.mapErr_eq_ok]; exact C43_exact v ts) g
  obtain ⟨o, ho, h⟩ := (hgr g).2 h
  obtain ⟨o', ho', h'⟩ := (hgr g').2 h'
  cases ho.symm.trans ho'
  cases h.symm.trans h'
  rfl

theorem fill_judges (pf : Profile) {id : U64} {t : Forest} {u : UBlock} (hu : Unrolled id t u) (strtab : Strtab)
    (hs : strtab.bytes.length < 2 ^ 64) :
    Judges (Module.fill pf u { PartialMapCtx.default with strtab }) (First (tableChecks pf strtab t)) := by
  have hr : u.records = t.records := by obtain ⟨-, h, -, -⟩ := hu; exact h
  have hgr := fun g => block_oneOrNone hu 10 [] (fun v => (AttributeGroups.tryFrom v).mapErr .attributeBlock)
    GroupsSay (fun v ts => by rw [Out.mapErr_eq_ok]; exact C43_exact v ts) g
  have hver := version_judges u
  unfold Module.fill
  rw [hr] at hver ⊢
  refine hver.append fun v hv => ?_
  rw [moduleVersion_iff, hr] at hv
  obtain ⟨vr, vrest, hvr, hvf⟩ := hv
  refine (atMostOneRecord_judges t.records _).mapErr.bind fun o ho => ?_
  refine (judges_record ho fun r => (C67_layout pf r).mapErr).bind fun d _ => ?_
  refine (strings_judges pf t.records .sectionName).bind fun _ _ => ?_
  refine (strings_judges pf t.records .gcName).bind fun _ _ => ?_
  refine (oneBlock_judges hu 17).mapErr.bind fun tb htb => ?_
  obtain ⟨c, hc, hcr⟩ := blocks_exactlyOne_ok hu 17 htb
  refine Judges.bind (c := All _ (t.withId 17)) ?_ fun types _ => ?_
  · rw [hc]
    refine (C67_types pf tb).mapErr.congr fun b => ?_
    rw [all_singleton, hcr]
  refine (oneBlock_judges hu 14).mapErr.bind fun _ _ => ?_
  refine (atMostOneBlock_judges hu 10).mapErr.bind fun gb hgb => ?_
  refine (judges_block hu hgb (c := fun rs => under .attributeBlock (All GroupBad rs)) fun v => (C67_groups v).mapErr).bind
    fun g hg => ?_
  have hgs := (hgr g).1 ⟨gb, hgb, hg⟩
  refine (atMostOneBlock_judges hu 9).mapErr.bind fun ab hab => ?_
  refine Judges.bind (judges_given hgs (fun g' h => groups_unique hu hgs h)
    (c := fun g => All (fun c => under ModuleError.attributeBlock (All (ListBad g) c.2.records)) (t.withId 9))
    (judges_block hu hab (c := fun rs => under .attributeBlock (All (ListBad g) rs))
      fun v => (C67_lists v g (optionally_sorted hgs)).mapErr)) fun as _ => judges_one ?_
  refine Judges.andThen ?_
  rw [byCode_withCode]
  refine Judges.congr (Judges.mapErr (judges_mapOut fun r _ => C67_comdat pf r _ v rfl hs)) fun b => ?_
  rw [under_all]
  constructor
  · intro h; exact ⟨vr, v, vrest, hvr, hvf, h⟩
  · rintro ⟨vr', v', rest, h1, h2, h⟩
    cases hvr.symm.trans h1
    cases hvf.symm.trans h2
    exact h

theorem byId_each {id : U64} {t : Forest} {u : UBlock} (hu : Unrolled id t u) (k : U64) :
    Each (fun (v : UBlock) c => v.records = c.2.records) (Blocks.byId u.blocks (.ofU64 k)) (t.withId k) := by
  obtain ⟨-, -, hc, hs⟩ := hu
  refine ⟨(hc k).symm, fun i v c hv hcc => ?_⟩
  obtain ⟨-, h, -, -⟩ := hs k i c v hcc hv
  exact h

theorem finish_judges (pf : Profile) (target : Str) {id : U64} {t : Forest} {u : UBlock} (hu : Unrolled id t u) (strtab : Strtab)
    (hs : strtab.bytes.length < 2 ^ 64) {ctx : MapCtx} (hctx : TablesSay pf strtab t ctx) :
    Judges (Module.finish pf target u ctx) (First (moduleChecks pf strtab t)) := by
  have hr : u.records = t.records := by obtain ⟨-, h, -, -⟩ := hu; exact h
  have hs' : ctx.strtab.bytes.length < 2 ^ 64 := by rw [hctx.strtab]; exact hs
  have huniq : ∀ ctx', TablesSay pf strtab t ctx' → ctx' = ctx := by
    intro ctx' h
    rw [← fill_iff pf hu strtab hs] at h hctx
    obtain ⟨c, h1, h2⟩ := hctx
    obtain ⟨c', h1', h2'⟩ := h
    cases h1.symm.trans h1'
    cases h2.symm.trans h2'
    rfl
  unfold Module.finish
  rw [hr]
  refine (atMostOneRecord_judges t.records _).mapErr.bind fun o ho => ?_
  refine (judges_record ho fun r => (text_judges pf r).mapErr).bind fun d _ => ?_
  refine (atMostOneRecord_judges t.records _).mapErr.bind fun o ho => ?_
  refine (judges_record ho fun r => (text_judges pf r).mapErr.andThen).bind fun d _ => ?_
  refine (strings_judges pf t.records .depLib).bind fun _ _ => ?_
  simp only [byCode_withCode]
  refine Judges.bind (judges_given hctx huniq
    (c := fun ctx => All (fun r => under ModuleError.functionRecord (FunctionBad pf ctx r.fields)) (withCode t.records 8)) ?_) fun _ _ => ?_
  · refine Judges.congr (Judges.mapErr (judges_mapOut fun r _ => C67_function pf r ctx hs')) fun b => ?_
    exact under_all b
  refine Judges.bind (judges_given hctx huniq
    (c := fun ctx => All (fun c => under ModuleError.functionBlock (BodyBad ctx.typeTable c.2.records)) (t.withId 12)) ?_) fun _ _ => ?_
  · refine Judges.congr (Judges.mapErr (judges_mapOut fun v _ => C67_body v ctx.typeTable)) fun b => ?_
    rw [under_all]
    refine all_congr ((byId_each hu 12).imp ?_) b
    intro v c h b
    rw [h]
  refine judges_one (judges_given hctx huniq
    (c := fun ctx => All (fun r => under ModuleError.alias (AliasBad pf ctx r.fields)) (withCode t.records 14)) (Judges.andThen ?_))
  refine Judges.congr (Judges.mapErr (judges_mapOut fun r _ => C67_alias pf r ctx hs')) fun b => ?_
  exact under_all b

/-- C67, for modules: what mapping a module block ends in, unless it is mapped, is what the first check finds that finds
anything. -/
theorem C67_module (pf : Profile) (target : Str) {id : U64} {t : Forest} {u : UBlock} (hu : Unrolled id t u) (strtab : Strtab)
    (hs : strtab.bytes.length < 2 ^ 64) (b : Bad ModuleError) :
    (Module.tryFrom pf target u { PartialMapCtx.default with strtab }).Ends b ↔ ModuleBad pf strtab t b := by
  suffices h : Judges (Module.tryFrom pf target u { PartialMapCtx.default with strtab })
      (First (tableChecks pf strtab t ++ moduleChecks pf strtab t)) from h b
  unfold Module.tryFrom
  refine Judges.andThen ?_
  unfold Module.tryFromFull
  refine (fill_judges pf hu strtab hs).append fun c hc => ?_
  have hre : ∃ ctx, c.reify = .ok ctx := by
    unfold Module.fill at hc
    simp only [Out.bind_eq_ok, Out.ok.injEq] at hc
    obtain ⟨v, hv, o, ho, d, hd, ss, hss, gs, hgs, tb, htb, ts, hts, vb, hvb, o2, ho2, g, hg, o3, ho3, as, has, cs, hcs, rfl⟩ := hc
    unfold PartialMapCtx.reify
    simp only [Out.ofOption_some, Out.ok_bind]
    exact ⟨_, rfl⟩
  obtain ⟨ctx, hctx⟩ := hre
  rw [hctx, Out.mapErr_ok, Out.ok_bind]
  exact (finish_judges pf target hu strtab hs ((fill_iff pf hu strtab hs ctx).1 ⟨c, hc, hctx⟩)).andThen

end Verif
