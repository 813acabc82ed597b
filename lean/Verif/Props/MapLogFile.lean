import Verif.Props.MapLogModule
import Verif.Props.File

/-! What is logged for files, and where the log ends if mapping fails. -/

namespace Verif
open Spec Logged

/-! ## Errors -/

/-- Only errors like these. -/
def Errs {ε α : Type} (P : ε → Prop) (x : Out ε α) : Prop := ∀ e, x = .err e → P e

section Errs
variable {ε δ α β : Type} {P : ε → Prop}

theorem Errs.bind {x : Out ε α} {f : α → Out ε β} (h : Errs P x) (hf : ∀ a, Errs P (f a)) : Errs P (x >>= f) := by
  intro e he
  rcases bind_eq_err.1 he with he | ⟨a, -, he⟩
  · exact h e he
  · exact hf a e he

theorem Errs.ok (a : α) : Errs P (.ok a) := by intro e he; cases he

theorem Errs.mapErr {g : δ → ε} (h : ∀ e, P (g e)) (x : Out δ α) : Errs P (x.mapErr g) := by
  intro e he
  obtain ⟨e', -, rfl⟩ := mapErr_eq_err.1 he
  exact h e'

theorem Errs.ofOption {e : ε} (h : P e) (o : Option α) : Errs P (Out.ofOption e o) := by
  intro e' he
  obtain ⟨-, rfl⟩ := ofOption_eq_err.1 he
  exact h

theorem Errs.orElse {o : Option α} {b : β} {f : α → Out ε β} (h : ∀ a, Errs P (f a)) : Errs P (Verif.orElse o b f) := by
  cases o with
  | none => exact .ok _
  | some a => exact h a

/-- A step that cannot be the reason for the error succeeds. -/
theorem step_err {x : Out ε α} {f : α → Logged ε β} {e : ε} (hx : Errs P x) (hP : ¬ P e) (h : (of x >>= f).out = .err e) :
    ∃ a, x = .ok a ∧ (of x >>= f) = f a := by
  cases x with
  | ok a => exact ⟨a, rfl, rfl⟩
  | err e' => cases h; exact absurd (hx _ rfl) hP
  | panic p => cases h
  | diverge => cases h

end Errs

theorem inconsistent_errs {P : ModuleError → Prop} (h : ∀ e, P (.map e)) {α : Type} (x : Out ConsistencyError α) :
    Errs P (inconsistent x) := .mapErr (fun _ => h _) x

theorem strings_errs {P : ModuleError → Prop} (h : ∀ e, P (.map e)) (pf : Profile) (rs : Records) (code : ModuleCode) :
    Errs P (moduleStrings pf rs code) := .mapErr (fun _ => h _) _

theorem version_errs {P : ModuleError → Prop} (h : ∀ e, P (.map e)) (h' : P .missingVersion) (b : UBlock) :
    Errs P (moduleVersion b) := (inconsistent_errs h _).bind fun _ => .ofOption h' _

/-- Errors about the tables of a module, and others that are not about functions, bodies and aliases. -/
def OfTables : ModuleError → Prop
  | .functionRecord _ | .functionBlock _ | .alias _ => False
  | _ => True

theorem fill_errs (pf : Profile) (u : UBlock) (ctx : PartialMapCtx) : Errs OfTables (Module.fill pf u ctx) := by
  have hi : ∀ e, OfTables (.map e) := fun _ => trivial
  unfold Module.fill
  refine (version_errs hi trivial u).bind fun _ => (inconsistent_errs hi _).bind fun _ => ?_
  refine (Errs.orElse fun _ => .mapErr (fun _ => trivial) _).bind fun _ => (strings_errs hi _ _ _).bind fun _ => ?_
  refine (strings_errs hi _ _ _).bind fun _ => (inconsistent_errs hi _).bind fun _ => ?_
  refine (Errs.mapErr (fun _ => trivial) _).bind fun _ => (inconsistent_errs hi _).bind fun _ => ?_
  refine (inconsistent_errs hi _).bind fun _ => (Errs.orElse fun _ => .mapErr (fun _ => trivial) _).bind fun _ => ?_
  refine (inconsistent_errs hi _).bind fun _ => (Errs.orElse fun _ => .mapErr (fun _ => trivial) _).bind fun _ => ?_
  exact (Errs.mapErr (fun _ => trivial) _).bind fun _ => .ok _

/-- Errors that are not about aliases. -/
def NotAlias : ModuleError → Prop
  | .alias _ => False
  | _ => True

/-- Errors that are about functions, bodies or aliases, or not about tables. -/
def NotTables : ModuleError → Prop
  | .typeTableBlock _ | .attributeBlock _ | .dataLayoutRecord _ | .comdatRecord _ | .missingVersion => False
  | _ => True

theorem finish_errs (pf : Profile) (target : Str) (u : UBlock) (ctx : MapCtx) : Errs NotTables (Module.finish pf target u ctx) := by
  have hi : ∀ e, NotTables (.map e) := fun _ => trivial
  unfold Module.finish
  refine (inconsistent_errs hi _).bind fun _ => (Errs.orElse fun _ => .mapErr (fun _ => trivial) _).bind fun _ => ?_
  refine (inconsistent_errs hi _).bind fun _ =>
    (Errs.orElse fun _ => (Errs.mapErr (fun _ => trivial) _).bind fun _ => .ok _).bind fun _ => ?_
  refine (strings_errs hi _ _ _).bind fun _ => (Errs.mapErr (fun _ => trivial) _).bind fun _ => ?_
  exact (Errs.mapErr (fun _ => trivial) _).bind fun _ => (Errs.mapErr (fun _ => trivial) _).bind fun _ => .ok _

/-- Where the log of the second half of a module ends. -/
theorem finish_last (pf : Profile) (target : Str) (u : UBlock) (ctx : MapCtx) :
    (∀ e, Module.finish pf target u ctx = .err (.alias e) → ∃ fs, (MapLog.finish pf target u ctx).lines = [.functions fs]) ∧
    (∀ e, Module.finish pf target u ctx = .err e → NotAlias e → (MapLog.finish pf target u ctx).lines = []) ∧
    ∀ m, Module.finish pf target u ctx = .ok m → (MapLog.finish pf target u ctx).lines = [.functions m.2.1, .aliases m.2.2] := by
  rw [← log_finish]
  have nothing : ∀ {α : Type} {x : Out ModuleError α} {f : α → Logged ModuleError (Module × List FunctionRecord × List Alias)},
      Errs NotAlias x → (∀ a, x ≠ .ok a) → (of x >>= f).lines = [] →
      (∀ e, (of x >>= f).out = .err (.alias e) → ∃ fs, (of x >>= f).lines = [.functions fs]) ∧
      (∀ e, (of x >>= f).out = .err e → NotAlias e → (of x >>= f).lines = []) ∧
      ∀ m, (of x >>= f).out = .ok m → (of x >>= f).lines = [.functions m.2.1, .aliases m.2.2] := by
    intro α x f hx hn hl
    refine ⟨fun e h => ?_, fun _ _ _ => hl, fun m h => ?_⟩
    · obtain ⟨a, ha, -⟩ := step_err (P := NotAlias) hx (e := .alias e) (fun h => h) h
      exact absurd ha (hn a)
    · rw [out_bind, Out.bind_eq_ok] at h
      obtain ⟨a, ha, -⟩ := h
      exact absurd ha (hn a)
  have hi : ∀ e, NotAlias (.map e) := fun _ => trivial
  unfold MapLog.finish
  rcases of_cases (inconsistent (Records.oneOrNone u.records ModuleCode.triple.code)) _ with ⟨_, -, h⟩ | ⟨h, hn⟩
  rotate_left
  · exact nothing (inconsistent_errs hi _) hn h
  rw [h]; clear h
  rcases of_cases (Verif.orElse _ target _) _ with ⟨_, -, h⟩ | ⟨h, hn⟩
  rotate_left
  · exact nothing (Errs.orElse fun _ => .mapErr (fun _ => trivial) _) hn h
  rw [h]; clear h
  rcases of_cases (inconsistent (Records.oneOrNone u.records ModuleCode.asm.code)) _ with ⟨_, -, h⟩ | ⟨h, hn⟩
  rotate_left
  · exact nothing (inconsistent_errs hi _) hn h
  rw [h]; clear h
  rcases of_cases (Verif.orElse _ [] _) _ with ⟨_, -, h⟩ | ⟨h, hn⟩
  rotate_left
  · exact nothing (Errs.orElse fun _ => (Errs.mapErr (fun _ => trivial) _).bind fun _ => .ok _) hn h
  rw [h]; clear h
  rcases of_cases (moduleStrings pf u.records .depLib) _ with ⟨_, -, h⟩ | ⟨h, hn⟩
  rotate_left
  · exact nothing (strings_errs hi _ _ _) hn h
  rw [h]; clear h
  rcases of_cases ((mapOut (fun r => FunctionRecord.tryMap pf r ctx) (Records.byCode u.records ModuleCode.function.code)).mapErr
    ModuleError.functionRecord) _ with ⟨fs, -, h⟩ | ⟨h, hn⟩
  rotate_left
  · exact nothing (.mapErr (fun _ => trivial) _) hn h
  rw [h]; clear h
  rcases of_cases ((mapOut (fun f => FunctionBlock.tryFrom f ctx.typeTable) (Blocks.byId u.blocks (.ir .function))).mapErr
    ModuleError.functionBlock) _ with ⟨_, -, h⟩ | ⟨h, hn⟩
  rotate_left
  · exact nothing (.mapErr (fun _ => trivial) _) hn h
  rw [h]; clear h
  rw [lines_tell_bind, out_bind, out_tell, Out.ok_bind]
  cases ha : (mapOut (fun r => Alias.tryMap pf r ctx) (Records.byCode u.records ModuleCode.alias.code)).mapErr ModuleError.alias with
  | ok as => exact ⟨fun e h => (by cases h), fun e h => (by cases h), fun m h => (by cases h; rfl)⟩
  | err e =>
    refine ⟨fun e h => ⟨fs, rfl⟩, fun e' h hne => ?_, fun m h => (by cases h)⟩
    cases h
    obtain ⟨e', -, rfl⟩ := mapErr_eq_err.1 ha
    exact hne.elim
  | panic p => exact ⟨fun e h => (by cases h), fun e h => (by cases h), fun m h => (by cases h)⟩
  | diverge => exact ⟨fun e h => (by cases h), fun e h => (by cases h), fun m h => (by cases h)⟩

/-- Any other error. -/
def Other (e x : ModuleError) : Prop := x ≠ e

theorem step_other {α β : Type} {x : Out ModuleError α} {f : α → Logged ModuleError β} {e : ModuleError} (hx : Errs (Other e) x)
    (h : (of x >>= f).out = .err e) : ∃ a, x = .ok a ∧ (of x >>= f) = f a := step_err hx (fun h => h rfl) h

theorem comdat_tail {α β : Type} (x : Out ComdatError α) (k : α → β) {e : ModuleError} (he : ∀ e', ModuleError.comdatRecord e' ≠ e) :
    (of (x.mapErr ModuleError.comdatRecord) >>= fun c => of (.ok (k c))).out ≠ .err e := by
  intro h
  rw [out_bind, bind_eq_err, out_of, mapErr_eq_err] at h
  rcases h with ⟨e', -, h⟩ | ⟨_, -, h⟩
  · exact he e' h
  · cases h

/-- Where the log of the tables of a module ends. -/
theorem fill_last (pf : Profile) (u : UBlock) (ctx : PartialMapCtx) :
    (∀ e, Module.fill pf u ctx = .err (.typeTableBlock e) → ∃ tb, inconsistent (Blocks.exactlyOne u.blocks (.ir .type)) = .ok tb ∧
      TypeTable.tryFrom pf tb = .err e ∧ (MapLog.fill pf u ctx).lines = (MapLog.types pf tb).lines) ∧
    ∀ i, Module.fill pf u ctx = .err (.attributeBlock (.badAttributeGroup i)) →
      (MapLog.fill pf u ctx).lines.getLast? = some (.groupId i) := by
  rw [← log_fill]
  constructor
  · intro e h
    have hi : ∀ e', Other (.typeTableBlock e) (.map e') := fun _ h => by cases h
    unfold MapLog.fill at h ⊢
    obtain ⟨_, -, h1⟩ := step_other (version_errs hi (fun h => by cases h) _) h
    rw [h1] at h ⊢; clear h1
    obtain ⟨_, -, h1⟩ := step_other (inconsistent_errs hi _) h
    rw [h1] at h ⊢; clear h1
    obtain ⟨_, -, h1⟩ := step_other (Errs.orElse fun _ => .mapErr (fun _ h => by cases h) _) h
    rw [h1] at h ⊢; clear h1
    obtain ⟨_, -, h1⟩ := step_other (strings_errs hi _ _ _) h
    rw [h1] at h ⊢; clear h1
    obtain ⟨_, -, h1⟩ := step_other (strings_errs hi _ _ _) h
    rw [h1] at h ⊢; clear h1
    obtain ⟨tb, htb, h1⟩ := step_other (inconsistent_errs hi _) h
    rw [h1] at h ⊢; clear h1
    refine ⟨tb, htb, ?_⟩
    by_cases hts : ∃ ts, ((MapLog.types pf tb).mapErr ModuleError.typeTableBlock).out = .ok ts
    · obtain ⟨ts, hts⟩ := hts
      rw [out_bind, hts, Out.ok_bind] at h
      obtain ⟨_, -, h1⟩ := step_other (inconsistent_errs hi _) h
      rw [h1] at h; clear h1
      obtain ⟨_, -, h1⟩ := step_other (inconsistent_errs hi _) h
      rw [h1] at h; clear h1
      obtain ⟨_, -, h1⟩ := step_other (Errs.orElse fun _ => .mapErr (fun _ h => by cases h) _) h
      rw [h1] at h; clear h1
      obtain ⟨_, -, h1⟩ := step_other (inconsistent_errs hi _) h
      rw [h1] at h; clear h1
      rw [out_bind, out_orElse, bind_eq_err] at h
      rcases h with h | ⟨_, -, h⟩
      · obtain ⟨a, -, h⟩ := orElse_err h
        rw [out_mapErr, mapErr_eq_err] at h
        obtain ⟨_, -, h⟩ := h
        cases h
      · exact absurd h (comdat_tail _ _ fun _ h => by cases h)
    · rw [lines_bind_not _ fun ts h => hts ⟨ts, h⟩, lines_mapErr]
      refine ⟨?_, rfl⟩
      rw [out_bind, bind_eq_err] at h
      rcases h with h | ⟨a, ha, -⟩
      · rw [out_mapErr, mapErr_eq_err, log_types] at h
        obtain ⟨e', h, he⟩ := h
        cases he
        exact h
      · exact absurd ⟨a, ha⟩ hts
  · intro i h
    have hi : ∀ e', Other (.attributeBlock (.badAttributeGroup i)) (.map e') := fun _ h => by cases h
    unfold MapLog.fill at h ⊢
    obtain ⟨_, -, h1⟩ := step_other (version_errs hi (fun h => by cases h) _) h
    rw [h1] at h ⊢; clear h1
    obtain ⟨_, -, h1⟩ := step_other (inconsistent_errs hi _) h
    rw [h1] at h ⊢; clear h1
    obtain ⟨_, -, h1⟩ := step_other (Errs.orElse fun _ => .mapErr (fun _ h => by cases h) _) h
    rw [h1] at h ⊢; clear h1
    obtain ⟨_, -, h1⟩ := step_other (strings_errs hi _ _ _) h
    rw [h1] at h ⊢; clear h1
    obtain ⟨_, -, h1⟩ := step_other (strings_errs hi _ _ _) h
    rw [h1] at h ⊢; clear h1
    obtain ⟨tb, -, h1⟩ := step_other (inconsistent_errs hi _) h
    rw [h1] at h ⊢; clear h1
    have hts : ∃ ts, ((MapLog.types pf tb).mapErr ModuleError.typeTableBlock).out = .ok ts := by
      rw [out_bind, bind_eq_err] at h
      rcases h with h | ⟨a, ha, -⟩
      · rw [out_mapErr, mapErr_eq_err] at h
        obtain ⟨_, -, h⟩ := h
        cases h
      · exact ⟨a, ha⟩
    obtain ⟨ts, hts⟩ := hts
    rw [out_bind, hts, Out.ok_bind] at h
    rw [lines_bind_ok _ hts, List.getLast?_append]
    obtain ⟨_, -, h1⟩ := step_other (inconsistent_errs hi _) h
    rw [h1] at h ⊢; clear h1
    obtain ⟨_, -, h1⟩ := step_other (inconsistent_errs hi _) h
    rw [h1] at h ⊢; clear h1
    have hgroups : ∀ b : UBlock, Errs (Other (.attributeBlock (.badAttributeGroup i)))
        ((AttributeGroups.tryFrom b).mapErr .attributeBlock) := by
      intro b e he hx
      subst hx
      obtain ⟨e', he', hx⟩ := mapErr_eq_err.1 he
      cases hx
      obtain ⟨_, _, _, -, -, hf⟩ := (C43_errors _ _).1 he'
      cases hf with
      | «attribute» _ _ _ h => cases h
    obtain ⟨g, -, h1⟩ := step_other (Errs.orElse hgroups) h
    rw [h1] at h ⊢; clear h1
    obtain ⟨o, -, h1⟩ := step_other (inconsistent_errs hi _) h
    rw [h1] at h ⊢; clear h1
    cases o with
    | none =>
      exact absurd h (comdat_tail _ _ fun _ h => by cases h)
    | some a =>
      simp only [Logged.orElse] at h ⊢
      by_cases hat : ∃ as, ((MapLog.attributes a g).mapErr ModuleError.attributeBlock).out = .ok as
      · obtain ⟨as, has⟩ := hat
        rw [out_bind, has, Out.ok_bind] at h
        exact absurd h (comdat_tail _ _ fun _ h => by cases h)
      · rw [lines_bind_not _ fun as h => hat ⟨as, h⟩, lines_mapErr]
        rw [out_bind, bind_eq_err] at h
        rcases h with h | ⟨as, has, -⟩
        · rw [out_mapErr, mapErr_eq_err, log_attributes] at h
          obtain ⟨e', h, he⟩ := h
          cases he
          rw [attributes_last a g h]; rfl
        · exact absurd ⟨as, has⟩ hat

/-! ## Where the log of a module block ends -/

/-- C86, continued. If a module block is refused for its types, the log ends with what led to the type that is refused (or with nothing
if the types are not even declared as they should be). If a list refers to a group that is not there, the last message is its number. If
a function or its body is refused, the last message shows the tables of the module. If an alias is refused, the last message shows the
functions. -/
theorem C86_module_ends (pf : Profile) (target : Str) {id : U64} {t : Forest} {u : UBlock} (hu : Unrolled id t u) (strtab : Strtab)
    (hs : strtab.bytes.length < 2 ^ 64) (e : ModuleError) (ls : List MapLine)
    (he : Module.tryFromFull pf target u { PartialMapCtx.default with strtab } = .err e)
    (hl : (MapLog.moduleFull pf target u { PartialMapCtx.default with strtab }).lines = ls) :
    LogEnds pf strtab t e ls := by
  have hlog := C86_module pf target hu strtab hs
  rw [hl] at hlog
  by_cases hfill : ∃ c, Module.fill pf u { PartialMapCtx.default with strtab } = .ok c
  · obtain ⟨c, hc⟩ := hfill
    obtain ⟨ctx, hctx, rfl⟩ := fill_shows pf hc
    have hfin : Module.finish pf target u ctx = .err e := by
      unfold Module.tryFromFull at he
      rw [hc, Out.ok_bind, hctx] at he
      simp only [Out.mapErr, Out.ok_bind] at he
      rcases bind_eq_err.1 he with h | ⟨_, -, h⟩
      · exact h
      · cases h
    have hne := finish_errs pf target u ctx e hfin
    have hlines : ls = (MapLog.fill pf u { PartialMapCtx.default with strtab }).lines ++
        ([.reifying (tablesShown ctx)] ++ (MapLog.finish pf target u ctx).lines) := by
      rw [← hl]
      unfold MapLog.moduleFull
      rw [lines_bind_ok _ (show (MapLog.fill pf u { PartialMapCtx.default with strtab }).out = .ok (tablesShown ctx) by
        rw [log_fill]; exact hc)]
      rw [lines_bind_ok (a := ctx) _ (show ((MapLog.reify (tablesShown ctx)).mapErr fun e => ModuleError.map (.context e)).out = .ok ctx by
        simp only [out_mapErr, MapLog.reify, out_bind, out_tell, Out.ok_bind, out_of, hctx]; rfl), lines_bind_of]
      rfl
    have htab := (fill_iff pf hu strtab hs ctx).1 ⟨_, hc, hctx⟩
    have hs' : ctx.strtab.bytes.length < 2 ^ 64 := by rw [htab.strtab]; exact hs
    obtain ⟨l1, l2, -⟩ := finish_last pf target u ctx
    have hfun : NotAlias e → ∃ ctx, TablesSay pf strtab t ctx ∧ ls.getLast? = some (.reifying (tablesShown ctx)) := by
      intro hna
      refine ⟨ctx, htab, ?_⟩
      rw [hlines, l2 e hfin hna]
      simp
    cases e with
    | functionRecord _ => exact hfun trivial
    | functionBlock _ => exact hfun trivial
    | alias _ =>
      obtain ⟨fs, hfs⟩ := l1 _ hfin
      refine ⟨ctx, fs, htab, ?_, by rw [hlines, hfs]; simp⟩
      rcases finish_lines pf target hu ctx hs' with ⟨-, h2⟩ | ⟨fs', h1, ⟨-, h3⟩ | ⟨as, -, h3⟩⟩
      · rw [hfs] at h2; cases h2
      · rw [hfs] at h3; cases h3; exact h1
      · rw [hfs] at h3; cases h3
    | typeTableBlock _ => exact hne.elim
    | attributeBlock _ => exact hne.elim
    | _ => trivial
  · have hno : ∀ c, Module.fill pf u { PartialMapCtx.default with strtab } ≠ .ok c := fun c hc => hfill ⟨c, hc⟩
    have hfe : Module.fill pf u { PartialMapCtx.default with strtab } = .err e := by
      unfold Module.tryFromFull at he
      rcases bind_eq_err.1 he with h | ⟨c, h, -⟩
      · exact h
      · exact absurd h (hno c)
    have hlines : ls = (MapLog.fill pf u { PartialMapCtx.default with strtab }).lines := by
      rw [← hl]
      unfold MapLog.moduleFull
      rw [lines_bind_not _ (by rw [log_fill]; exact hno)]
    have hne := fill_errs pf u _ e hfe
    obtain ⟨f1, f2⟩ := fill_last pf u { PartialMapCtx.default with strtab }
    cases e with
    | functionRecord _ => exact hne.elim
    | functionBlock _ => exact hne.elim
    | alias _ => exact hne.elim
    | typeTableBlock e =>
      obtain ⟨tb, h1, h2, h3⟩ := f1 e hfe
      obtain ⟨d, hd, hrec⟩ := (oneType_iff hu 17).1 tb h1
      refine ⟨d, hd, ?_⟩
      rw [hlines, h3, ← hrec]
      exact C86_types_fail pf tb e h2
    | attributeBlock e =>
      cases e with
      | badAttributeGroup i => rw [hlines]; exact f2 i hfe
      | _ => trivial
    | _ => trivial

/-! ## Files -/

/-- The messages for one module of a file. -/
theorem parts_log (pf : Profile) (target : Str) {p : Parts (BBlock × Forest)} {q : PartialModule}
    (hs : ∀ c bs, p.strtab = some c → TableSays pf c.2.records bs → bs.length < 2 ^ 64)
    (hi : StandsFor p.identification q.identification)
    (hm : OptEach StandsFor p.module q.module) (hst : OptEach StandsFor p.strtab q.strtab) :
    PartsLog pf p (MapLog.«module» pf target q).lines := by
  unfold MapLog.«module»
  rcases of_cases (Out.ofOption (MapperError.unroll .missingStrtab) q.strtab) _ with ⟨sb, hsb, h⟩ | ⟨h, hn⟩
  rotate_left
  · rw [h]
    refine .nothing (.inl fun c bs hc => ?_)
    rw [hc] at hst
    cases hq : q.strtab with
    | none => rw [hq] at hst; exact hst.elim
    | some sb => rw [hq] at hn; exact absurd rfl (hn sb)
  rw [h]; clear h
  rw [ofOption_eq_ok] at hsb
  rw [hsb] at hst
  obtain ⟨c, hc, hcs⟩ := optEach_some hst
  rcases of_cases ((Strtab.tryFrom pf sb).mapErr fun e => MapperError.map (.strtab e)) _ with ⟨strtab, hstr, h⟩ | ⟨h, hn⟩
  rotate_left
  · rw [h]
    refine .nothing (.inl fun c' bs hc' hbs => hn ⟨bs⟩ ?_)
    rw [hc] at hc'
    cases hc'
    rw [(strtab_says pf hcs ⟨bs⟩).2 hbs]; rfl
  rw [h]; clear h
  rw [Out.mapErr_eq_ok, strtab_says pf hcs] at hstr
  rcases of_cases ((Identification.tryFrom pf q.identification).mapErr fun e => MapperError.map (.identification e)) _ with
    ⟨i, hid, h⟩ | ⟨h, hn⟩
  rotate_left
  · rw [h]
    refine .nothing (.inr (.inl fun i hi' => hn i ?_))
    rw [(identification_says pf hi i).2 hi']; rfl
  rw [h]; clear h
  rw [Out.mapErr_eq_ok, identification_says pf hi] at hid
  rcases of_cases (Out.ofOption (MapperError.unroll .missingModule) q.module) _ with ⟨mb, hmb, h⟩ | ⟨h, hn⟩
  rotate_left
  · rw [h]
    refine .nothing (.inr (.inr ?_))
    cases hp : p.module with
    | none => rfl
    | some d =>
      rw [hp] at hm
      cases hq : q.module with
      | none => rw [hq] at hm; exact hm.elim
      | some mb => rw [hq] at hn; exact absurd rfl (hn mb)
  rw [h]; clear h
  rw [ofOption_eq_ok] at hmb
  rw [hmb] at hm
  obtain ⟨d, hd, hds⟩ := optEach_some hm
  refine .block hc hstr hid hd ?_
  have hlog := C86_module pf target hds strtab (hs c _ hc hstr)
  by_cases ho : ∃ m, ((MapLog.moduleFull pf target mb { PartialMapCtx.default with strtab }).mapErr fun e =>
      MapperError.map (.module e)).out = .ok m
  · obtain ⟨m, ho⟩ := ho
    rw [lines_bind_ok _ ho, lines_mapErr]
    rw [show ((of ((optSymtab pf q.symtab).mapErr fun e => MapperError.map (.symtab e)) >>= fun symtab =>
      of (.ok { identification := i, module := m.1, strtab, symtab } : Out MapperError BitcodeModule)).lines) = [] by
        cases (optSymtab pf q.symtab) <;> rfl, List.append_nil]
    exact hlog
  · rw [lines_bind_not _ (fun m h => ho ⟨m, h⟩), lines_mapErr]
    exact hlog

theorem modules_log (pf : Profile) (target : Str) {ps : List (Parts (BBlock × Forest))} {qs : List PartialModule}
    (hs : ∀ p ∈ ps, ∀ c bs, p.strtab = some c → TableSays pf c.2.records bs → bs.length < 2 ^ 64)
    (h : Each (fun p q => StandsFor p.identification q.identification ∧ OptEach StandsFor p.module q.module ∧
      OptEach StandsFor p.strtab q.strtab ∧ OptEach StandsFor p.symtab q.symtab) ps qs) :
    FileLog pf target ps (mapAll (MapLog.«module» pf target) qs).lines := by
  induction ps generalizing qs with
  | nil => rw [each_nil_left] at h; subst h; exact .nil
  | cons p ps ih =>
    obtain ⟨q, qs, rfl, ⟨g1, g2, g3, g4⟩, h2⟩ := each_cons_left.1 h
    have hp := parts_log pf target (hs p (by simp)) g1 g2 g3
    have hiff := fun m => reify_iff pf target (m := m) (hs p (by simp)) g1 g2 g3 g4
    have hih := ih (fun p hp => hs p (by simp [hp])) h2
    unfold mapAll
    by_cases ho : ∃ m, (MapLog.«module» pf target q).out = .ok m
    · obtain ⟨m, ho⟩ := ho
      rw [lines_bind_ok _ ho]
      refine .cons ⟨m, (hiff m).1 (by rw [← log_module]; exact ho)⟩ hp ?_
      by_cases hos : ∃ ms, (mapAll (MapLog.«module» pf target) qs).out = .ok ms
      · obtain ⟨ms, hos⟩ := hos
        rw [lines_bind_ok _ hos, lines_of, List.append_nil]
        exact hih
      · rw [lines_bind_not _ fun ms h => hos ⟨ms, h⟩]
        exact hih
    · rw [lines_bind_not _ fun m h => ho ⟨m, h⟩]
      refine .stop (fun m h => ho ⟨m, ?_⟩) hp
      rw [log_module]
      exact (hiff m).2 h

/-- C86, continued. If a stream delivers complete blocks in the right order, the log is that of its modules, one after the other, up to
the first that does not map. -/
theorem C86_file (pf : Profile) (target : Str) (bytes : List U8) (hlen : bytes.length ≤ 2 ^ 61) {w : Option BitcodeWrapper}
    {b : Bitstream} (hb : Bitstream.from pf bytes = .ok (w, b)) {tops : List (BBlock × Forest)}
    (hd : Delivers pf b (completeEntries tops)) (ho : InOrder tops) :
    FileLog pf target (parts tops) (MapLog.file pf target bytes).lines := by
  have hop : Opened pf b := .auto hb
  have hbl := from_len hb
  obtain ⟨us, hl, hu, hok, -⟩ := C28_all_complete pf hop hd
  have h : Each StandsFor tops us := ⟨hl, hu⟩
  unfold MapLog.file
  rw [lines_of_bind_ok _ (show (Bitstream.from pf bytes).mapErr MapperError.parse = .ok (w, b) by rw [hb]; rfl),
    lines_of_bind_ok _ (show (unroll pf b).mapErr UErr.toMapperError = .ok (pairs us) by rw [hok ((orderly_inOrder h).2 ho)]; rfl)]
  rw [lines_bind_of]
  exact modules_log pf target (fun p hp c bs hc hbs =>
    Nat.lt_of_lt_of_le (table_small hop (delivers_iterate hd) (parts_strtab_mem hp hc) hbs) (by omega)) (parts_pairs h)

/-- C86, continued. Otherwise nothing is logged: the whole file is read before anything of it is mapped. -/
theorem C86_unread (pf : Profile) (target : Str) (bytes : List U8)
    (h : ∀ w b tops, Bitstream.from pf bytes = .ok (w, b) → Delivers pf b (completeEntries tops) → ¬ InOrder tops) :
    (MapLog.file pf target bytes).lines = [] := by
  unfold MapLog.file
  rcases of_cases ((Bitstream.from pf bytes).mapErr MapperError.parse) _ with ⟨⟨w, b⟩, hb, h1⟩ | ⟨h1, -⟩
  rotate_left
  · exact h1
  rw [h1]; clear h1
  rw [Out.mapErr_eq_ok] at hb
  rcases of_cases ((unroll pf b).mapErr UErr.toMapperError) _ with ⟨ps, hps, h1⟩ | ⟨h1, -⟩
  rotate_left
  · exact h1
  rw [Out.mapErr_eq_ok] at hps
  obtain ⟨tops, us, hd, hl, hu, hord, rfl⟩ := C29_pairing pf (.auto hb) hps
  exact absurd ((orderly_inOrder (⟨hl, hu⟩ : Each StandsFor tops us)).1 hord) (h w b tops hb hd)

/-- C86, continued. If a file is refused for one of its module blocks, the log is that of the modules before, which all map, then that
of the module block, which ends as it should for the reason that is given. -/
theorem C86_file_ends (pf : Profile) (target : Str) (bytes : List U8) (hlen : bytes.length ≤ 2 ^ 61) (e : ModuleError)
    (he : Bitcode.tryFrom pf target bytes = .err (.map (.module e))) :
    ∃ w b tops pre p post c d strtab ls ms, Bitstream.from pf bytes = .ok (w, b) ∧ Delivers pf b (completeEntries tops) ∧
      InOrder tops ∧ parts tops = pre ++ p :: post ∧ p.strtab = some c ∧ TableSays pf c.2.records strtab.bytes ∧ p.module = some d ∧
      (∀ q ∈ pre, ∃ m, PartsSay pf target q m) ∧ FileLog pf target pre ls ∧ LogEnds pf strtab d.2 e ms ∧
      (MapLog.file pf target bytes).lines = ls ++ ms := by
  unfold Bitcode.tryFrom at he
  rcases bind_eq_err.1 he with h | ⟨⟨w, b⟩, hb, he⟩
  · obtain ⟨_, -, h⟩ := mapErr_eq_err.1 h; cases h
  rw [Out.mapErr_eq_ok] at hb
  unfold Bitcode.ofStream at he
  rcases bind_eq_err.1 he with h | ⟨ps, hps, he⟩
  · obtain ⟨x, -, h⟩ := mapErr_eq_err.1 h; cases x <;> cases h
  rw [Out.mapErr_eq_ok] at hps
  rcases bind_eq_err.1 he with he | ⟨_, -, h⟩
  rotate_left
  · cases h
  have hop : Opened pf b := .auto hb
  have hbl := from_len hb
  obtain ⟨tops, us, hd, hl, hu, hord, rfl⟩ := C29_pairing pf hop hps
  have hst : Each StandsFor tops us := ⟨hl, hu⟩
  have hpp := parts_pairs hst
  have hsmall : ∀ p ∈ parts tops, ∀ c bs, p.strtab = some c → TableSays pf c.2.records bs → bs.length < 2 ^ 64 :=
    fun p hp c bs hc hbs => Nat.lt_of_lt_of_le (table_small hop (delivers_iterate hd) (parts_strtab_mem hp hc) hbs) (by omega)
  obtain ⟨qre, q, qost, heq, hpre, hq⟩ := (mapOut_eq_err _ _ _).1 he
  replace hpre := mapOut_exists.1 hpre
  rw [heq] at hpp
  obtain ⟨pre, rest, hparts, h1, h2⟩ := each_append_left.1 hpp.flip
  obtain ⟨p, post, rfl, ⟨g1, g2, g3, g4⟩, -⟩ := each_cons_left.1 h2
  have hpm : p ∈ parts tops := by rw [hparts]; simp
  have hlines : (MapLog.file pf target bytes).lines =
      (mapAll (MapLog.«module» pf target) qre).lines ++ (MapLog.«module» pf target q).lines := by
    unfold MapLog.file
    rw [lines_of_bind_ok _ (show (Bitstream.from pf bytes).mapErr MapperError.parse = .ok (w, b) by rw [hb]; rfl),
      lines_of_bind_ok _ (show (unroll pf b).mapErr UErr.toMapperError = .ok (pairs us) by rw [hps]; rfl), lines_bind_of, heq]
    have hpre' : ∀ x ∈ qre, ∃ m, (MapLog.«module» pf target x).out = .ok m := fun x hx => by
      rw [log_module]; exact hpre x hx
    rw [lines_mapAll_not hpre' (by rw [log_module, hq]; intro m h; cases h)]
    obtain ⟨ms, hms⟩ := mapOut_exists.2 hpre'
    rw [← out_mapAll] at hms
    rw [lines_mapAll_ok hms]
  unfold PartialModule.reify at hq
  rcases bind_eq_err.1 hq with h | ⟨sb, hsb, hq⟩
  · obtain ⟨-, h⟩ := ofOption_eq_err.1 h; cases h
  rw [ofOption_eq_ok] at hsb
  rw [hsb] at g3
  obtain ⟨c, hc, hcs⟩ := optEach_some g3
  rcases bind_eq_err.1 hq with h | ⟨strtab, hstr, hq⟩
  · obtain ⟨_, -, h⟩ := mapErr_eq_err.1 h; cases h
  have hstr' := hstr
  rw [Out.mapErr_eq_ok, strtab_says pf hcs] at hstr'
  rcases bind_eq_err.1 hq with h | ⟨i, hid, hq⟩
  · obtain ⟨_, -, h⟩ := mapErr_eq_err.1 h; cases h
  rcases bind_eq_err.1 hq with h | ⟨mb, hmb, hq⟩
  · obtain ⟨-, h⟩ := ofOption_eq_err.1 h; cases h
  rw [ofOption_eq_ok] at hmb
  rw [hmb] at g2
  obtain ⟨d, hd', hds⟩ := optEach_some g2
  rcases bind_eq_err.1 hq with h | ⟨_, -, hq⟩
  rotate_left
  · rcases bind_eq_err.1 hq with h | ⟨_, -, h⟩
    · obtain ⟨_, -, h⟩ := mapErr_eq_err.1 h; cases h
    · cases h
  obtain ⟨e', h, hx⟩ := mapErr_eq_err.1 h
  cases hx
  have hfull : Module.tryFromFull pf target mb { PartialMapCtx.default with strtab } = .err e := by
    unfold Module.tryFrom at h
    rcases bind_eq_err.1 h with h | ⟨_, -, h⟩
    · exact h
    · cases h
  refine ⟨w, b, tops, pre, p, post, c, d, strtab, _, _, hb, hd, (orderly_inOrder hst).1 hord, hparts, hc, hstr', hd', ?_,
    modules_log pf target (fun p hp => hsmall p (by rw [hparts]; simp [hp])) h1.flip, ?_, hlines⟩
  · intro x hx
    obtain ⟨k, hk⟩ := List.getElem?_of_mem hx
    have hlt : k < qre.length := by rw [← h1.1]; exact (List.getElem?_eq_some_iff.1 hk).1
    obtain ⟨k1, k2, k3, k4⟩ := h1.2 k _ x (List.getElem?_eq_getElem hlt) hk
    obtain ⟨m, hm⟩ := hpre _ (List.getElem_mem hlt)
    exact ⟨m, (reify_iff pf target (hsmall x (by rw [hparts]; simp [hx])) k1 k2 k3 k4).1 hm⟩
  · refine C86_module_ends pf target hds strtab (hsmall p hpm c _ hc hstr') e _ hfull ?_
    unfold MapLog.«module»
    rw [hsb, lines_of_bind_ok _ (show Out.ofOption (MapperError.unroll .missingStrtab) (some sb) = .ok sb from rfl),
      lines_of_bind_ok _ hstr, lines_of_bind_ok _ hid, hmb,
      lines_of_bind_ok _ (show Out.ofOption (MapperError.unroll .missingModule) (some mb) = .ok mb from rfl),
      lines_bind_not _ (by rw [out_mapErr, log_moduleFull, hfull]; intro m h; cases h), lines_mapErr]

/-! ## Examples -/

/-- Two modules, and the string table of both: what the first has after its types, and the records at the end of the second. -/
def exLogFile (lists1 end2 : Items) : Items :=
  .block 13 5 (.unabbrev 1 [76, 76, 86, 77] (.unabbrev 2 [0] .nil)) <|
  .block 8 4 (
    .unabbrev 1 [2] <|
    .block 17 4 (.unabbrev 1 [2] <| .unabbrev 7 [32] <| .unabbrev 21 [0, 0, 0] .nil) <|
    .block 10 3 (.unabbrev 3 [1, 0xffffffff, 0, 18, 3, 97, 98, 0] .nil) <|
    .block 9 3 lists1 <|
    .block 14 4 .nil .nil) <|
  .block 13 5 (.unabbrev 1 [76, 76, 86, 77] (.unabbrev 2 [0] .nil)) <|
  .block 8 4 (
    .unabbrev 1 [2] <|
    .block 17 4 (.unabbrev 1 [3] <| .unabbrev 7 [32] <| .unabbrev 21 [0, 0, 0] <| .unabbrev 8 [0, 0] .nil) <|
    .block 14 4 .nil end2) <|
  .block 23 3 (.define { scalars := [.lit 1], tail := .blob } (.abbrev 4 1 [99, 102, 103] .nil)) .nil

/-- What is easily told of a message. -/
def exLogShow : MapLine → String × List Nat × List Str
  | .vector n e => ("vector", [n.toNat, e.toNat], [])
  | .element _ => ("element", [], [])
  | .resolves r _ => ("resolves", [r.toNat], [])
  | .groupId i => ("group", [i.toNat], [])
  | .reifying c => ("tables", [c.attributes.length], [])
  | .functions fs => ("functions", [], fs.map (·.name))
  | .aliases as => ("aliases", [], as.map (·.name))

/-- The bytes of such a file. -/
def exLogBytes (lists1 end2 : Items) : List U8 := ((streamBytes 0xdec04342 (exLogFile lists1 end2)).map (·.1)).getD []

/-- Both modules map: each has messages about its types, its lists, its tables, its functions and its aliases. -/
example :
    let bytes := exLogBytes (.unabbrev 2 [1] .nil) (.unabbrev 8 [1, 1, 1, 0, 1, 0, 0, 3, 0, 0] (.unabbrev 14 [0, 1, 2, 0, 0] .nil))
    (match Bitcode.tryFrom .debug [] bytes with | .ok f => f.modules.length | _ => 0) = 2 ∧
    (MapLog.file .debug [] bytes).lines.map exLogShow = [
      ("resolves", [0], []), ("resolves", [0], []), ("group", [1], []), ("tables", [1], []), ("functions", [], []),
      ("aliases", [], []),
      ("resolves", [0], []), ("resolves", [0], []), ("resolves", [0], []), ("tables", [0], []), ("functions", [], [['f']]),
      ("aliases", [], [['c']])] := by
  decide +kernel

/-- The first refers to a group that is not there. -/
example :
    let bytes := exLogBytes (.unabbrev 2 [1, 7] .nil) .nil
    Bitcode.tryFrom .debug [] bytes = .err (.map (.module (.attributeBlock (.badAttributeGroup 7)))) ∧
    (MapLog.file .debug [] bytes).lines.map exLogShow = [
      ("resolves", [0], []), ("resolves", [0], []), ("group", [1], []), ("group", [7], [])] := by
  decide +kernel

/-- An alias of the second has a type that is not there. -/
example :
    let bytes := exLogBytes .nil (.unabbrev 8 [1, 1, 1, 0, 1, 0, 0, 3, 0, 0] (.unabbrev 14 [0, 1, 9, 0, 0] .nil))
    (match Bitcode.tryFrom .debug [] bytes with | .err (.map (.module (.alias _))) => true | _ => false) = true ∧
    (MapLog.file .debug [] bytes).lines.map exLogShow = [
      ("resolves", [0], []), ("resolves", [0], []), ("tables", [0], []), ("functions", [], []), ("aliases", [], []),
      ("resolves", [0], []), ("resolves", [0], []), ("resolves", [0], []), ("tables", [0], []), ("functions", [], [['f']])] := by
  decide +kernel

/-- A module without an identification before it, after a module that has one: the stream does not deliver blocks in the right order. -/
example : ∀ w b tops, Bitstream.from .debug ((streamBytes 0xdec04342 (.block 13 5 (.unabbrev 1 [76, 76] (.unabbrev 2 [0] .nil)) <|
      .block 8 4 (.unabbrev 1 [2] .nil) <| .block 8 4 (.unabbrev 1 [2] .nil) .nil)).map (·.1) |>.getD []) = .ok (w, b) →
    Delivers .debug b (completeEntries tops) → ¬ InOrder tops := by
  intro w b tops hb hd ho
  obtain ⟨us, hl, hu, hok, -⟩ := C28_all_complete .debug (.auto hb) hd
  have h := hok ((orderly_inOrder (⟨hl, hu⟩ : Each StandsFor tops us)).2 ho)
  have hno : (match Bitstream.from .debug ((streamBytes 0xdec04342 (.block 13 5 (.unabbrev 1 [76, 76] (.unabbrev 2 [0] .nil)) <|
      .block 8 4 (.unabbrev 1 [2] .nil) <| .block 8 4 (.unabbrev 1 [2] .nil) .nil)).map (·.1) |>.getD []) with
    | .ok (_, b) => (match unroll .debug b with | .ok _ => false | _ => true)
    | _ => true) = true := by decide +kernel
  rw [hb] at hno
  simp only [h] at hno
  cases hno

end Verif
