import Verif.Mapper.ContentSpec
import Verif.Props.File

/-! C58: mapping a file depends on its contents only, and on those parts of them that are looked at. -/

namespace Verif
open Spec

/-! ## Outcomes that agree -/

/-- Both return, with results that are related, or both end in the same other way. -/
def OutRel {ε α β : Type} (R : α → β → Prop) : Out ε α → Out ε β → Prop
  | .ok a, .ok b => R a b
  | .err e, .err e' => e = e'
  | .panic p, .panic q => p = q
  | .diverge, .diverge => True
  | _, _ => False

theorem OutRel.eq {ε α : Type} {x y : Out ε α} (h : OutRel Eq x y) : x = y := by
  cases x <;> cases y <;> simp_all [OutRel]

theorem OutRel.refl {ε α : Type} {x : Out ε α} : OutRel Eq x x := by
  cases x <;> simp [OutRel]

theorem OutRel.bind {ε α β γ δ : Type} {R : α → β → Prop} {S : γ → δ → Prop} {x : Out ε α} {y : Out ε β}
    {f : α → Out ε γ} {g : β → Out ε δ} (h : OutRel R x y) (hfg : ∀ a b, R a b → OutRel S (f a) (g b)) :
    OutRel S (x >>= f) (y >>= g) := by
  cases x <;> cases y <;> simp only [OutRel] at h
  · exact hfg _ _ h
  · exact h
  · exact h
  · trivial

theorem OutRel.bind_eq {ε α β γ : Type} {R : α → β → Prop} {x : Out ε α} {y : Out ε β}
    {f : α → Out ε γ} {g : β → Out ε γ} (h : OutRel R x y) (hfg : ∀ a b, R a b → f a = g b) : (x >>= f) = (y >>= g) :=
  (h.bind (S := Eq) fun a b hab => by rw [hfg a b hab]; exact .refl).eq

theorem OutRel.mapErr {ε δ α β : Type} {R : α → β → Prop} {x : Out ε α} {y : Out ε β} {f : ε → δ} (h : OutRel R x y) :
    OutRel R (x.mapErr f) (y.mapErr f) := by
  cases x <;> cases y <;> simp only [OutRel] at h <;> simp_all [OutRel, Out.mapErr]

theorem OutRel.ofOption {ε α β : Type} {R : α → β → Prop} {e : ε} {x : Option α} {y : Option β} (h : OptEach R x y) :
    OutRel R (Out.ofOption e x) (Out.ofOption e y) := by
  cases x <;> cases y <;> simp_all [OutRel, Out.ofOption, OptEach]

theorem mapOut_congr {ε α α' β : Type} {R : α → α' → Prop} {f : α → Out ε β} {g : α' → Out ε β}
    (hfg : ∀ a b, R a b → f a = g b) {l : List α} {m : List α'} (h : Each R l m) : mapOut f l = mapOut g m := by
  induction l generalizing m with
  | nil => rw [each_nil_left] at h; subst h; rfl
  | cons a l ih =>
    obtain ⟨b, m, rfl, h1, h2⟩ := each_cons_left.1 h
    unfold mapOut
    rw [hfg a b h1, ih h2]

theorem foldlM_congr {ε α α' β : Type} {R : α → α' → Prop} {f : β → α → Out ε β} {g : β → α' → Out ε β}
    (hfg : ∀ s a b, R a b → f s a = g s b) {l : List α} {m : List α'} (h : Each R l m) (s : β) :
    l.foldlM f s = m.foldlM g s := by
  induction l generalizing m s with
  | nil => rw [each_nil_left] at h; subst h; rfl
  | cons a l ih =>
    obtain ⟨b, m, rfl, h1, h2⟩ := each_cons_left.1 h
    rw [List.foldlM_cons, List.foldlM_cons, hfg s a b h1]
    congr 1
    funext s'
    exact ih h2 s'

theorem each_reverse {α β : Type} {P : α → β → Prop} {l : List α} {m : List β} (h : Each P l m) :
    Each P l.reverse m.reverse := by
  induction l generalizing m with
  | nil => rw [each_nil_left] at h; subst h; exact each_nil_left.2 rfl
  | cons a l ih =>
    obtain ⟨b, m, rfl, h1, h2⟩ := each_cons_left.1 h
    rw [List.reverse_cons, List.reverse_cons]
    exact each_append_left.2 ⟨_, _, rfl, ih h2, each_cons.2 ⟨h1, each_nil_left.2 rfl⟩⟩

theorem each_append {α β : Type} {P : α → β → Prop} {l l' : List α} {m m' : List β} (h : Each P l m) (h' : Each P l' m') :
    Each P (l ++ l') (m ++ m') := each_append_left.2 ⟨_, _, rfl, h, h'⟩

theorem each_filter {α β : Type} {P : α → β → Prop} {f : α → Bool} {g : β → Bool} (hfg : ∀ a b, P a b → f a = g b)
    {l : List α} {m : List β} (h : Each P l m) : Each P (l.filter f) (m.filter g) := by
  induction l generalizing m with
  | nil => rw [each_nil_left] at h; subst h; exact each_nil_left.2 rfl
  | cons a l ih =>
    obtain ⟨b, m, rfl, h1, h2⟩ := each_cons_left.1 h
    simp only [List.filter_cons, hfg a b h1]
    cases g b with
    | true => exact each_cons.2 ⟨h1, ih h2⟩
    | false => exact ih h2

/-! ## Records -/

theorem Spec.SameRecord.congr {r s : BRecord} (h : SameRecord r s) {α : Type} (f : BRecord → α)
    (hf : ∀ a a' c fs, f ⟨a, c, fs⟩ = f ⟨a', c, fs⟩) : f r = f s := by
  obtain ⟨a, c, fs⟩ := r
  obtain ⟨a', c', fs'⟩ := s
  obtain ⟨rfl, rfl⟩ := h
  exact hf _ _ _ _

theorem Spec.SameRecord.string {r s : BRecord} (h : SameRecord r s) (pf : Profile) (i : U64) :
    r.tryString pf i = s.tryString pf i := h.congr (·.tryString pf i) fun _ _ _ _ => rfl

theorem Spec.SameRecord.blob {r s : BRecord} (h : SameRecord r s) (pf : Profile) (i : U64) :
    r.tryBlob pf i = s.tryBlob pf i := h.congr (·.tryBlob pf i) fun _ _ _ _ => rfl

theorem Spec.SameRecords.withCode {rs ss : List BRecord} (h : SameRecords rs ss) (code : Nat) :
    SameRecords (Spec.withCode rs code) (Spec.withCode ss code) :=
  each_filter (fun a b hab => by rw [hab.1]) h

theorem Spec.SameFirst.one {rs ss : List BRecord} {code : U64} (h : SameFirst code.toNat rs ss) :
    OptEach SameRecord (Records.one rs code) (Records.one ss code) := by
  unfold Records.one
  rw [byCode_withCode, byCode_withCode]
  unfold SameFirst SameRecords at h
  cases hr : Spec.withCode rs code.toNat <;> cases hs : Spec.withCode ss code.toNat <;> rw [hr, hs] at h
  · trivial
  · exact absurd h.1 (by simp)
  · exact absurd h.1 (by simp)
  · exact (each_cons.1 h).1

theorem exactlyOne_rel {rs ss : List BRecord} {code : U64}
    (h : SameRecords (withCode rs code.toNat) (withCode ss code.toNat)) :
    OutRel SameRecord (Records.exactlyOne rs code) (Records.exactlyOne ss code) := by
  unfold Records.exactlyOne
  rw [byCode_withCode, byCode_withCode]
  rcases hr : withCode rs code.toNat with _ | ⟨a, _ | ⟨a', l⟩⟩ <;>
    rcases hs : withCode ss code.toNat with _ | ⟨b, _ | ⟨b', m⟩⟩ <;> rw [hr, hs] at h <;>
    first
    | rfl
    | exact (each_cons.1 h).1
    | exact absurd h.1 (by simp)

theorem oneOrNone_rel {rs ss : List BRecord} {code : U64}
    (h : SameRecords (withCode rs code.toNat) (withCode ss code.toNat)) :
    OutRel (OptEach SameRecord) (Records.oneOrNone rs code) (Records.oneOrNone ss code) := by
  unfold Records.oneOrNone
  rw [byCode_withCode, byCode_withCode]
  rcases hr : withCode rs code.toNat with _ | ⟨a, _ | ⟨a', l⟩⟩ <;>
    rcases hs : withCode ss code.toNat with _ | ⟨b, _ | ⟨b', m⟩⟩ <;> rw [hr, hs] at h <;>
    first
    | rfl
    | exact True.intro
    | exact (each_cons.1 h).1
    | exact absurd h.1 (by simp)

theorem orElse_congr {ε α α' β : Type} {R : α → α' → Prop} {x : Option α} {y : Option α'} {missing : β} {f : α → Out ε β}
    {g : α' → Out ε β} (h : OptEach R x y) (hfg : ∀ a b, R a b → f a = g b) : orElse x missing f = orElse y missing g := by
  cases x <;> cases y <;> simp only [OptEach] at h
  · rfl
  · exact hfg _ _ h

/-! ## Tables -/

theorem strtab_congr (pf : Profile) {u v : UBlock} (h : SameFirst 1 u.records v.records) :
    Strtab.tryFrom pf u = Strtab.tryFrom pf v :=
  OutRel.bind_eq (OutRel.ofOption (SameFirst.one (code := StrtabCode.blob.code) h)) fun a b hab => by rw [hab.blob]

theorem symtab_congr (pf : Profile) {u v : UBlock} (h : SameFirst 1 u.records v.records) :
    Symtab.tryFrom pf u = Symtab.tryFrom pf v :=
  OutRel.bind_eq (OutRel.ofOption (SameFirst.one (code := SymtabCode.blob.code) h)) fun a b hab => by rw [hab.blob]

theorem identification_congr (pf : Profile) {u v : UBlock} (h1 : SameFirst 1 u.records v.records)
    (h2 : SameFirst 2 u.records v.records) : Identification.tryFrom pf u = Identification.tryFrom pf v :=
  OutRel.bind_eq (OutRel.ofOption (SameFirst.one (code := IdentificationCode.producerString.code) h1)) fun a b hab => by
    rw [hab.string]
    congr 1
    funext s
    exact OutRel.bind_eq (OutRel.ofOption (SameFirst.one (code := IdentificationCode.epoch.code) h2)) fun a b hab => by
      rw [hab.2]

theorem types_congr (pf : Profile) {u v : UBlock} (h : SameRecords u.records v.records) :
    TypeTable.tryFrom pf u = TypeTable.tryFrom pf v := by
  unfold TypeTable.tryFrom
  refine OutRel.bind_eq (OutRel.ofOption (R := SameRecord) (SameFirst.one ?_)) fun a b hab => ?_
  · have := SameRecords.withCode h (TypeCode.numEntry.code).toNat
    unfold SameFirst SameRecords
    generalize withCode u.records _ = l at this
    generalize withCode v.records _ = m at this
    cases l <;> cases m
    · exact each_nil_left.2 rfl
    · exact absurd this.1 (by simp)
    · exact absurd this.1 (by simp)
    · exact each_cons.2 ⟨(each_cons.1 this).1, each_nil_left.2 rfl⟩
  · rw [hab.2, foldlM_congr (fun s _ _ hab => hab.congr (typeStep pf s) fun _ _ _ _ => rfl) h]

theorem groups_congr {u v : UBlock} (h : SameRecords u.records v.records) :
    AttributeGroups.tryFrom u = AttributeGroups.tryFrom v :=
  foldlM_congr (fun s _ _ hab => hab.congr (groupStep s) fun _ _ _ _ => rfl) h _

theorem attributes_congr {u v : UBlock} (g : AttributeGroups) (h : SameRecords u.records v.records) :
    Attributes.tryFrom u g = Attributes.tryFrom v g :=
  mapOut_congr (fun _ _ hab => hab.congr (attrsStep g) fun _ _ _ _ => rfl) h

theorem functionLoop_congr (types : TypeTable) {rs ss : List BRecord} (h : SameRecords rs ss) :
    functionLoop types rs = functionLoop types ss := by
  unfold SameRecords at h
  induction rs generalizing ss with
  | nil => rw [each_nil_left] at h; subst h; rfl
  | cons a l ih =>
    obtain ⟨b, m, rfl, h1, h2⟩ := each_cons_left.1 h
    unfold functionLoop
    rw [h1.congr (functionStep types) fun _ _ _ _ => rfl, ih h2]

theorem body_congr (types : TypeTable) {u v : UBlock} (h : SameRecords u.records v.records) :
    FunctionBlock.tryFrom u types = FunctionBlock.tryFrom v types := by
  unfold FunctionBlock.tryFrom
  refine OutRel.bind_eq (OutRel.mapErr (exactlyOne_rel (SameRecords.withCode h _))) fun a b hab => ?_
  rw [hab.2, functionLoop_congr types h]

theorem strings_congr (pf : Profile) {rs ss : List BRecord} (code : ModuleCode)
    (h : SameRecords (withCode rs code.code.toNat) (withCode ss code.code.toNat)) :
    moduleStrings pf rs code = moduleStrings pf ss code := by
  unfold moduleStrings
  rw [byCode_withCode, byCode_withCode, mapOut_congr (fun a b hab => hab.string pf 0) h]

/-! ## Modules -/

/-- Unrolled blocks of one id in two modules. -/
theorem byId_rel {P : BBlock × Forest → BBlock × Forest → Prop} {id id' : U64} {t t' : Forest} {u u' : UBlock}
    (hu : Unrolled id t u) (hu' : Unrolled id' t' u') (k : U64) (h : Each P (t.withId k) (t'.withId k)) :
    Each (fun v v' => ∃ c c', StandsFor c v ∧ StandsFor c' v' ∧ P c c') (Blocks.byId u.blocks (.ofU64 k))
      (Blocks.byId u'.blocks (.ofU64 k)) := by
  obtain ⟨-, -, n, s⟩ := hu
  obtain ⟨-, -, n', s'⟩ := hu'
  refine ⟨by rw [n, n', h.1], fun i v v' hv hv' => ?_⟩
  have hi : i < (t.withId k).length := by rw [← n]; exact (List.getElem?_eq_some_iff.1 hv).1
  have hi' : i < (t'.withId k).length := by rw [← n']; exact (List.getElem?_eq_some_iff.1 hv').1
  have e := List.getElem?_eq_getElem hi
  have e' := List.getElem?_eq_getElem hi'
  exact ⟨_, _, s k i _ v e hv, s' k i _ v' e' hv', h.2 i _ _ e e'⟩

theorem block_exactlyOne_rel {R : UBlock → UBlock → Prop} {bs bs' : Blocks} {id : BlockId}
    (h : Each R (Blocks.byId bs id) (Blocks.byId bs' id)) :
    OutRel R (Blocks.exactlyOne bs id) (Blocks.exactlyOne bs' id) := by
  unfold Blocks.exactlyOne
  rcases hr : Blocks.byId bs id with _ | ⟨a, _ | ⟨a', l⟩⟩ <;>
    rcases hs : Blocks.byId bs' id with _ | ⟨b, _ | ⟨b', m⟩⟩ <;> rw [hr, hs] at h <;>
    first
    | rfl
    | exact (each_cons.1 h).1
    | exact absurd h.1 (by simp)

theorem block_oneOrNone_rel {R : UBlock → UBlock → Prop} {bs bs' : Blocks} {id : BlockId}
    (h : Each R (Blocks.byId bs id) (Blocks.byId bs' id)) :
    OutRel (OptEach R) (Blocks.oneOrNone bs id) (Blocks.oneOrNone bs' id) := by
  unfold Blocks.oneOrNone
  rcases hr : Blocks.byId bs id with _ | ⟨a, _ | ⟨a', l⟩⟩ <;>
    rcases hs : Blocks.byId bs' id with _ | ⟨b, _ | ⟨b', m⟩⟩ <;> rw [hr, hs] at h <;>
    first
    | rfl
    | exact True.intro
    | exact (each_cons.1 h).1
    | exact absurd h.1 (by simp)

/-- C58. Mapping a module block gives the same outcome for blocks that agree in what is looked at: the same module, the
same context, functions and aliases, the same error, the same panic. -/
theorem C58_module (pf : Profile) (target : Str) {id id' : U64} {t t' : Forest} {u u' : UBlock} (hu : Unrolled id t u)
    (hu' : Unrolled id' t' u') (h : SameModule t t') (ctx : PartialMapCtx) :
    Module.tryFromFull pf target u ctx = Module.tryFromFull pf target u' ctx := by
  have hrec : u.records = t.records := by obtain ⟨-, h, -, -⟩ := hu; exact h
  have hrec' : u'.records = t'.records := by obtain ⟨-, h, -, -⟩ := hu'; exact h
  have hr : ∀ c : ModuleCode, c.code.toNat ∈ moduleCodes →
      SameRecords (withCode u.records c.code.toNat) (withCode u'.records c.code.toNat) := by
    intro c hc
    rw [hrec, hrec']
    exact h.records _ hc
  have hb : ∀ k, k ∈ moduleBlocks → Each (fun v v' : UBlock => SameRecords v.records v'.records)
      (Blocks.byId u.blocks (.ofU64 k)) (Blocks.byId u'.blocks (.ofU64 k)) := by
    intro k hk
    refine (byId_rel hu hu' k (h.blocks k hk)).imp ?_
    rintro v v' ⟨c, c', hc, hc', hs⟩
    rw [hc.records, hc'.records]
    exact hs
  have hv : Each (fun _ _ : UBlock => True) (Blocks.byId u.blocks (.ofU64 14)) (Blocks.byId u'.blocks (.ofU64 14)) :=
    (byId_rel (P := fun _ _ => True) hu hu' 14 ⟨h.symbols.symm, fun _ _ _ _ _ => trivial⟩).imp fun _ _ _ => trivial
  have hfill : Module.fill pf u ctx = Module.fill pf u' ctx := by
    unfold Module.fill
    rw [show moduleVersion u = moduleVersion u' from
      OutRel.bind_eq (OutRel.mapErr (exactlyOne_rel (hr .version (by decide)))) fun a b hab => by rw [hab.2]]
    congr 1
    funext version
    refine OutRel.bind_eq (OutRel.mapErr (oneOrNone_rel (hr .dataLayout (by decide)))) fun dl dl' hdl => ?_
    rw [orElse_congr hdl fun a b hab => by rw [hab.congr (DataLayout.tryMap pf) fun _ _ _ _ => rfl],
      strings_congr pf .sectionName (hr .sectionName (by decide)), strings_congr pf .gcName (hr .gcName (by decide))]
    congr 1
    funext datalayout
    congr 1
    funext sections
    congr 1
    funext gcs
    refine OutRel.bind_eq (OutRel.mapErr (block_exactlyOne_rel (hb 17 (by decide)))) fun tb tb' htb => ?_
    rw [types_congr pf htb]
    congr 1
    funext types
    refine OutRel.bind_eq (OutRel.mapErr (block_exactlyOne_rel hv)) fun _ _ _ => ?_
    refine OutRel.bind_eq (OutRel.mapErr (block_oneOrNone_rel (hb 10 (by decide)))) fun gb gb' hgb => ?_
    rw [orElse_congr hgb fun a b hab => by rw [groups_congr hab]]
    congr 1
    funext groups
    refine OutRel.bind_eq (OutRel.mapErr (block_oneOrNone_rel (hb 9 (by decide)))) fun ab ab' hab => ?_
    rw [orElse_congr hab fun a b hab => by rw [attributes_congr groups hab]]
    congr 1
    funext attributes
    dsimp only
    rw [byCode_withCode, byCode_withCode, mapOut_congr
      (fun a b hab => hab.congr (fun r => Comdat.tryMap pf r _) fun _ _ _ _ => rfl) (hr .comdat (by decide))]
  have hfin : ∀ c : MapCtx, Module.finish pf target u c = Module.finish pf target u' c := by
    intro c
    unfold Module.finish
    refine OutRel.bind_eq (OutRel.mapErr (oneOrNone_rel (hr .triple (by decide)))) fun tr tr' htr => ?_
    rw [orElse_congr htr fun a b hab => by rw [hab.string pf 0]]
    congr 1
    funext triple
    refine OutRel.bind_eq (OutRel.mapErr (oneOrNone_rel (hr .asm (by decide)))) fun ar ar' har => ?_
    rw [orElse_congr har fun a b hab => by rw [hab.string pf 0], strings_congr pf .depLib (hr .depLib (by decide)),
      byCode_withCode, byCode_withCode, byCode_withCode, byCode_withCode,
      mapOut_congr (fun _ _ hab => hab.congr (fun r => FunctionRecord.tryMap pf r c) fun _ _ _ _ => rfl)
        (hr .function (by decide)),
      mapOut_congr (fun _ _ hab => hab.congr (fun r => Alias.tryMap pf r c) fun _ _ _ _ => rfl) (hr .alias (by decide)),
      mapOut_congr (f := fun f => FunctionBlock.tryFrom f c.typeTable) (fun a b hab => body_congr c.typeTable hab)
        (show Each _ (Blocks.byId u.blocks (.ir .function)) (Blocks.byId u'.blocks (.ir .function)) from hb 12 (by decide))]
  unfold Module.tryFromFull
  rw [hfill]
  simp only [hfin]

theorem each_refl {α : Type} {P : α → α → Prop} (h : ∀ a, P a a) (l : List α) : Each P l l :=
  ⟨rfl, fun i a b ha hb => by rw [ha] at hb; cases hb; exact h a⟩

theorem SameRecords.refl (rs : List BRecord) : SameRecords rs rs := each_refl (fun _ => ⟨rfl, rfl⟩) rs

theorem sameBlocks_refl (cs : List (BBlock × Forest)) :
    Each (fun c d => SameRecords c.2.records d.2.records) cs cs :=
  each_refl (P := fun c d => SameRecords c.2.records d.2.records) (fun c => SameRecords.refl c.2.records) cs

theorem before_records (l : List (BRecord ⊕ (BBlock × Forest))) (t : Forest) :
    (Forest.before l t).records = (Forest.before l .nil).records ++ t.records := by
  induction l with
  | nil => rfl
  | cons x l ih => cases x <;> simp [Forest.before, Forest.records, ih]

theorem before_blocks (l : List (BRecord ⊕ (BBlock × Forest))) (t : Forest) :
    (Forest.before l t).blocks = (Forest.before l .nil).blocks ++ t.blocks := by
  induction l with
  | nil => rfl
  | cons x l ih => cases x <;> simp [Forest.before, Forest.blocks, ih]

/-- What is before does not matter. -/
theorem sameModule_before (l : List (BRecord ⊕ (BBlock × Forest))) {t u : Forest} (h : SameModule t u) :
    SameModule (.before l t) (.before l u) where
  records code hc := by
    rw [before_records l t, before_records l u]
    unfold withCode
    rw [List.filter_append, List.filter_append]
    exact each_append (SameRecords.refl _) (h.records code hc)
  blocks id hi := by
    unfold Forest.withId
    rw [before_blocks l t, before_blocks l u, List.filter_append, List.filter_append]
    exact each_append (sameBlocks_refl _) (h.blocks id hi)
  symbols := by
    unfold Forest.withId
    rw [before_blocks l t, before_blocks l u, List.filter_append, List.filter_append, List.length_append,
      List.length_append]
    congr 1
    exact h.symbols

/-- C58. None of the changes listed in `Unseen` is seen: with `C58_module`, mapping a module block gives the same outcome
before and after it. -/
theorem C58_unseen {t u : Forest} (h : Unseen t u) : SameModule t u := by
  cases h with
  | record l r t hr =>
    refine sameModule_before l ⟨fun code hc => ?_, fun id _ => ?_, ?_⟩
    · have : (r.code.toNat == code) = false := by
        rw [beq_eq_false_iff_ne]
        rintro rfl
        exact hr hc
      unfold withCode
      rw [Forest.records, List.filter_cons, this]
      exact SameRecords.refl _
    · exact sameBlocks_refl _
    · rfl
  | block l s body t h1 h2 =>
    refine sameModule_before l ⟨fun code hc => SameRecords.refl _, fun id hi => ?_, ?_⟩
    · have : (s.blockId == id) = false := by
        rw [beq_eq_false_iff_ne]
        rintro rfl
        exact h1 hi
      unfold Forest.withId
      rw [Forest.blocks, List.filter_cons, this]
      exact sameBlocks_refl _
    · have : (s.blockId == 14) = false := by
        rw [beq_eq_false_iff_ne]
        exact h2
      unfold Forest.withId
      rw [Forest.blocks, List.filter_cons, this]
      rfl
  | symbols l s s' body body' t h1 h2 =>
    refine sameModule_before l ⟨fun code hc => SameRecords.refl _, fun id hi => ?_, ?_⟩
    · have : (14 == id) = false := by
        rw [beq_eq_false_iff_ne]
        rintro rfl
        exact absurd hi (by decide)
      unfold Forest.withId
      rw [Forest.blocks, Forest.blocks, List.filter_cons, List.filter_cons, h1, h2, this]
      exact sameBlocks_refl _
    · unfold Forest.withId
      rw [Forest.blocks, Forest.blocks, List.filter_cons, List.filter_cons, h1, h2]
      rfl
  | swapRecords l r r' t hne =>
    refine sameModule_before l ⟨fun code hc => ?_, fun id _ => sameBlocks_refl _, rfl⟩
    unfold withCode
    simp only [Forest.records, List.filter_cons]
    cases h1 : r.code.toNat == code <;> cases h2 : r'.code.toNat == code <;>
      first
      | exact SameRecords.refl _
      | (rw [beq_iff_eq] at h1 h2
         exact absurd (BitVec.eq_of_toNat_eq (h1.trans h2.symm)) hne)
  | swapBlocks l s s' body body' t hne =>
    have key : ∀ id, (Forest.block s body (.block s' body' t)).withId id = (Forest.block s' body' (.block s body t)).withId id := by
      intro id
      unfold Forest.withId
      simp only [Forest.blocks, List.filter_cons]
      cases h1 : s.blockId == id <;> cases h2 : s'.blockId == id <;>
        first
        | rfl
        | (rw [beq_iff_eq] at h1 h2
           exact absurd (h1.trans h2.symm) hne)
    refine sameModule_before l ⟨fun code hc => SameRecords.refl _, fun id _ => ?_, by rw [key]⟩
    rw [key]
    exact sameBlocks_refl _
  | moveRecord l r s body t =>
    exact sameModule_before l ⟨fun code hc => SameRecords.refl _, fun id _ => sameBlocks_refl _, rfl⟩

/-! ## Whole files -/

/-- Unrolled top-level blocks that agree in what is looked at. -/
def TopRel (u v : UBlock) : Prop := ∃ c d, StandsFor c u ∧ StandsFor d v ∧ SameTop c d

theorem TopRel.id {u v : UBlock} (h : TopRel u v) : u.id = v.id := by
  obtain ⟨c, d, hc, hd, hs⟩ := h
  rw [hc.id, hd.id, hs.id]

/-- Modules with their tables that agree in what is looked at. -/
structure PartRel (p q : PartialModule) : Prop where
  identification : TopRel p.identification q.identification ∧ p.identification.id = .ir .identification
  module : OptEach (fun u v => TopRel u v ∧ u.id = .ir .module) p.module q.module
  strtab : OptEach (fun u v => TopRel u v ∧ u.id = .ir .strtab) p.strtab q.strtab
  symtab : OptEach (fun u v => TopRel u v ∧ u.id = .ir .symtab) p.symtab q.symtab

theorem OptEach.isNone {α β : Type} {R : α → β → Prop} {x : Option α} {y : Option β} (h : OptEach R x y) :
    x.isNone = y.isNone := by
  cases x <;> cases y <;> simp_all [OptEach]

theorem setModule_rel {u v : UBlock} (h : TopRel u v) (hm : u.id = .ir .module) {ps qs : List PartialModule}
    (hp : Each PartRel ps qs) : OutRel (Each PartRel) (setModule u ps) (setModule v qs) := by
  induction ps generalizing qs with
  | nil => rw [each_nil_left] at hp; subst hp; rfl
  | cons p ps ih =>
    obtain ⟨q, qs, rfl, h1, h2⟩ := each_cons_left.1 hp
    cases ps with
    | nil =>
      rw [each_nil_left] at h2
      subst h2
      unfold setModule
      have hmod := h1.module
      cases hpm : p.module <;> cases hqm : q.module <;> rw [hpm, hqm] at hmod
      · exact each_cons.2 ⟨⟨h1.identification, ⟨h, hm⟩, h1.strtab, h1.symtab⟩, each_nil_left.2 rfl⟩
      · exact hmod.elim
      · exact hmod.elim
      · rfl
    | cons p' ps =>
      obtain ⟨q', qs, rfl, -, -⟩ := each_cons_left.1 h2
      unfold setModule
      exact (ih h2).bind fun a b hab => each_cons.2 ⟨h1, hab⟩

theorem setWhile_rel {free : PartialModule → Bool} {set set' : PartialModule → PartialModule}
    (hf : ∀ p q, PartRel p q → free p = free q) (hs : ∀ p q, PartRel p q → PartRel (set p) (set' q))
    {ps qs : List PartialModule} (hp : Each PartRel ps qs) : Each PartRel (setWhile free set ps) (setWhile free set' qs) := by
  have go : ∀ {ps qs : List PartialModule}, Each PartRel ps qs → Each PartRel (setWhile.go free set ps) (setWhile.go free set' qs) := by
    intro ps
    induction ps with
    | nil => intro qs h; rw [each_nil_left] at h; subst h; exact each_nil_left.2 rfl
    | cons p ps ih =>
      intro qs h
      obtain ⟨q, qs, rfl, h1, h2⟩ := each_cons_left.1 h
      unfold setWhile.go
      rw [hf p q h1]
      split
      · exact each_cons.2 ⟨hs p q h1, ih h2⟩
      · exact each_cons.2 ⟨h1, h2⟩
  exact each_reverse (go (each_reverse hp))

theorem addTop_rel {u v : UBlock} (h : TopRel u v) {ps qs : List PartialModule} (hp : Each PartRel ps qs) :
    OutRel (Each PartRel) (addTop ps u) (addTop qs v) := by
  unfold addTop
  rw [← h.id]
  split
  · rename_i hid
    exact each_append hp (each_cons.2 ⟨⟨⟨h, hid⟩, trivial, trivial, trivial⟩, each_nil_left.2 rfl⟩)
  · rename_i hid
    exact setModule_rel h hid hp
  · rename_i hid
    exact setWhile_rel (set := ({ · with strtab := some u })) (set' := ({ · with strtab := some v }))
      (fun p q hpq => hpq.strtab.isNone)
      (fun p q hpq => ⟨hpq.identification, hpq.module, show TopRel u v ∧ _ from ⟨h, hid⟩, hpq.symtab⟩) hp
  · rename_i hid
    exact setWhile_rel (set := ({ · with symtab := some u })) (set' := ({ · with symtab := some v }))
      (fun p q hpq => hpq.symtab.isNone)
      (fun p q hpq => ⟨hpq.identification, hpq.module, hpq.strtab, show TopRel u v ∧ _ from ⟨h, hid⟩⟩) hp
  · rfl

theorem foldl_addTop_rel {us vs : List UBlock} (h : Each TopRel us vs) {ps qs : List PartialModule} (hp : Each PartRel ps qs) :
    OutRel (Each PartRel) (us.foldlM addTop ps) (vs.foldlM addTop qs) := by
  induction us generalizing vs ps qs with
  | nil => rw [each_nil_left] at h; subst h; exact hp
  | cons u us ih =>
    obtain ⟨v, vs, rfl, h1, h2⟩ := each_cons_left.1 h
    rw [List.foldlM_cons, List.foldlM_cons]
    exact (addTop_rel h1 hp).bind fun a b hab => ih h2 hab

theorem StandsFor.ofId {c : BBlock × Forest} {u : UBlock} (h : StandsFor c u) {i : BlockId} {k : U64} (hu : u.id = i)
    (hi : i = .ofU64 k) : c.1.blockId = k := by
  rw [h.id, hi] at hu
  exact BlockId.ofU64_injective hu

theorem reify_congr (pf : Profile) (target : Str) {p q : PartialModule} (h : PartRel p q) :
    p.reify pf target = q.reify pf target := by
  unfold PartialModule.reify
  refine OutRel.bind_eq (OutRel.ofOption h.strtab) ?_
  rintro sb sb' ⟨⟨c, d, hc, hd, hs⟩, hid⟩
  rw [strtab_congr pf (u := sb) (v := sb') (by
    rw [hc.records, hd.records]
    exact hs.table (.inl (hc.ofId hid rfl)))]
  congr 1
  funext strtab
  obtain ⟨⟨c, d, hc, hd, hs⟩, hid⟩ := h.identification
  have hi := hs.identification (hc.ofId hid rfl)
  rw [identification_congr pf (u := p.identification) (v := q.identification) (by rw [hc.records, hd.records]; exact hi.1)
    (by rw [hc.records, hd.records]; exact hi.2)]
  congr 1
  funext ident
  refine OutRel.bind_eq (OutRel.ofOption h.module) ?_
  rintro mb mb' ⟨⟨c, d, hc, hd, hs⟩, hid⟩
  rw [show Module.tryFrom pf target mb { PartialMapCtx.default with strtab } =
      Module.tryFrom pf target mb' { PartialMapCtx.default with strtab } by
    unfold Module.tryFrom
    rw [C58_module pf target hc hd (hs.module (hc.ofId hid rfl))]]
  congr 1
  funext m
  have hsym := h.symtab
  rcases hps : p.symtab with _ | a <;> rcases hqs : q.symtab with _ | a' <;> rw [hps, hqs] at hsym
  · exact hsym.elim
  · exact hsym.elim
  · obtain ⟨⟨c, d, hc, hd, hs⟩, hid⟩ := hsym
    have he : Symtab.tryFrom pf a = Symtab.tryFrom pf a' := symtab_congr pf (by
      rw [hc.records, hd.records]
      exact hs.table (.inr (hc.ofId hid rfl)))
    simp only [optSymtab, he]

theorem unrollBlocks_rel {tops tops' : List (BBlock × Forest)} (h : Each SameTop tops tops') :
    Each TopRel (unrollBlocks tops) (unrollBlocks tops') := by
  unfold unrollBlocks
  refine ⟨by simp [h.1], fun i u v hu hv => ?_⟩
  rw [List.getElem?_map, Option.map_eq_some_iff] at hu hv
  obtain ⟨c, hc, rfl⟩ := hu
  obtain ⟨d, hd, rfl⟩ := hv
  exact ⟨c, d, addTo_unrolled _ _, addTo_unrolled _ _, h.2 i c d hc hd⟩

theorem unroll_eq (pf : Profile) {b : Bitstream} (ho : Opened pf b) {tops P : List (BBlock × Forest)} {b₁ b₂ : Bitstream}
    {r : Bitstream.Next} (h : Gives pf b (completeEntries tops ++ openEntries P) b₁)
    (hr : Bitstream.next pf b₁ = (r, b₂)) (hne : ∀ e, r ≠ .item e) :
    unroll pf b = ((unrollBlocks tops).foldlM addTop [] >>= ending P r) := by
  refine unrollLoop_spec tops h hr hne ?_
  have key : ∀ {es : List StreamEntry} {b b₁ : Bitstream}, PInv b.parser → Gives pf b es b₁ →
      b₁.len = b.len ∧ b.pos + es.length ≤ b₁.pos ∧ PInv b₁.parser := by
    intro es
    induction es with
    | nil => intro b b₁ hp h; cases h; exact ⟨rfl, by simp, hp⟩
    | cons e es ih =>
      intro b b₁ hp h
      obtain ⟨b', h1, h2⟩ := h.cons_inv
      obtain ⟨-, g2, g3, g4, -, g6, -⟩ := next_progress (pf := pf) hp
      have hp' := next_pinv (pf := pf) hp
      rw [h1] at g2 g3 g4 g6 hp'
      obtain ⟨k1, k2, k3⟩ := ih hp' h2
      have := g6 e rfl
      simp only [List.length_cons] at *
      refine ⟨?_, ?_, k3⟩ <;> omega
  obtain ⟨k1, k2, k3⟩ := key ho.start.1 h
  obtain ⟨-, g2, g3, g4, -⟩ := next_progress (pf := pf) k3
  have : b.len = b.parser.cursor.bitLen := rfl
  unfold unrollFuel
  omega

theorem delivers_gives {pf : Profile} {es : List StreamEntry} {b : Bitstream} (h : Delivers pf b es) :
    ∃ b₁ b₂, Gives pf b es b₁ ∧ Bitstream.next pf b₁ = (.done, b₂) := by
  induction es generalizing b with
  | nil =>
    obtain ⟨b', h1, -⟩ := h
    exact ⟨b, b', .nil _, h1⟩
  | cons e es ih =>
    obtain ⟨b', h1, h2⟩ := h
    obtain ⟨b₁, b₂, h3, h4⟩ := ih h2
    exact ⟨b₁, b₂, .cons h1 h3, h4⟩

private theorem ofStream_congr (pf : Profile) (target : Str) {b b' b₁ b₂ b₁' b₂' : Bitstream} (ho : Opened pf b)
    (ho' : Opened pf b') {tops tops' P P' : List (BBlock × Forest)} {r : Bitstream.Next}
    (h : Gives pf b (completeEntries tops ++ openEntries P) b₁)
    (h' : Gives pf b' (completeEntries tops' ++ openEntries P') b₁') (hr : Bitstream.next pf b₁ = (r, b₂))
    (hr' : Bitstream.next pf b₁' = (r, b₂')) (hne : ∀ e, r ≠ .item e) (hs : Each SameTop tops tops')
    (hP : P = [] ↔ P' = []) : Bitcode.ofStream pf target b = Bitcode.ofStream pf target b' := by
  unfold Bitcode.ofStream
  rw [unroll_eq pf ho h hr hne, unroll_eq pf ho' h' hr' hne]
  refine OutRel.bind_eq (R := Each PartRel) (OutRel.mapErr ?_) fun ps qs hpq => by
    rw [mapOut_congr (fun p q h => reify_congr pf target h) hpq]
  refine (foldl_addTop_rel (unrollBlocks_rel hs) (each_nil_left.2 rfl)).bind fun ps qs hpq => ?_
  cases r with
  | item e => exact absurd rfl (hne e)
  | done =>
    simp only [ending, hP]
    split
    · exact hpq
    · rfl
  | error e => rfl
  | panic p => rfl
  | diverge => trivial

/-- C58. Two streams of top-level blocks that agree, block by block, in what is looked at are mapped with the same outcome:
the same modules, the same error, the same panic. -/
theorem C58_file (pf : Profile) (target : Str) {b b' : Bitstream} (ho : Opened pf b) (ho' : Opened pf b')
    {tops tops' : List (BBlock × Forest)} (hd : Delivers pf b (completeEntries tops))
    (hd' : Delivers pf b' (completeEntries tops')) (h : Each SameTop tops tops') :
    Bitcode.ofStream pf target b = Bitcode.ofStream pf target b' := by
  obtain ⟨b₁, b₂, g1, g2⟩ := delivers_gives hd
  obtain ⟨b₁', b₂', g1', g2'⟩ := delivers_gives hd'
  exact ofStream_congr pf target ho ho' (P := []) (P' := []) (by simpa [openEntries] using g1)
    (by simpa [openEntries] using g1') g2 g2' (by simp) h Iff.rfl

/-! ## The same contents in another encoding -/

/-- A record, block, entry or block contents without what the encoding adds: abbreviation ids and block lengths. -/
def BRecord.plain (r : BRecord) : BRecord := { r with abbrevId := none }
def BBlock.plain (s : BBlock) : BBlock := { s with len := 0 }
def StreamEntry.plain : StreamEntry → StreamEntry
  | .subBlock s => .subBlock s.plain
  | .record r => .record r.plain
  | .endBlock => .endBlock

def Spec.Forest.plain : Forest → Forest
  | .nil => .nil
  | .record r rest => .record r.plain rest.plain
  | .block s body rest => .block s.plain body.plain rest.plain

def plainTops (l : List (BBlock × Forest)) : List (BBlock × Forest) := l.map fun c => (c.1.plain, c.2.plain)

theorem erase_plain {e e' : StreamEntry} (h : erase e = erase e') : e.plain = e'.plain := by
  cases e <;> cases e' <;> simp_all [erase, StreamEntry.plain, BRecord.plain, BBlock.plain]

theorem erase_plain_list {es es' : List StreamEntry} (h : es.map erase = es'.map erase) :
    es.map StreamEntry.plain = es'.map StreamEntry.plain := by
  induction es generalizing es' with
  | nil => cases es' <;> simp_all
  | cons e es ih =>
    cases es' with
    | nil => simp at h
    | cons e' es' =>
      simp only [List.map_cons, List.cons.injEq] at h ⊢
      exact ⟨erase_plain h.1, ih h.2⟩

theorem plain_entries (t : Forest) : t.plain.entries = t.entries.map StreamEntry.plain := by
  induction t with
  | nil => rfl
  | record r rest ih => simp [Forest.plain, Forest.entries, StreamEntry.plain, ih]
  | block s body rest ih ih' => simp [Forest.plain, Forest.entries, StreamEntry.plain, ih, ih']

theorem plain_complete (l : List (BBlock × Forest)) :
    completeEntries (plainTops l) = (completeEntries l).map StreamEntry.plain := by
  induction l with
  | nil => rfl
  | cons c l ih =>
    simp only [completeEntries, plainTops, List.map_cons, List.flatMap_cons, List.map_append] at ih ⊢
    rw [ih]
    simp [plain_entries, StreamEntry.plain]

theorem plain_open (l : List (BBlock × Forest)) :
    openEntries (plainTops l) = (openEntries l).map StreamEntry.plain := by
  induction l with
  | nil => rfl
  | cons c l ih =>
    simp only [openEntries, plainTops, List.map_cons, List.flatMap_cons, List.map_append] at ih ⊢
    rw [ih]
    simp [plain_entries, StreamEntry.plain]

theorem append_nil (t : Forest) : t.append .nil = t := by
  induction t with
  | nil => rfl
  | record r rest ih => simp [Forest.append, ih]
  | block s body rest _ ih => simp [Forest.append, ih]

theorem append_assoc (t u v : Forest) : (t.append u).append v = t.append (u.append v) := by
  induction t with
  | nil => rfl
  | record r rest ih => simp [Forest.append, ih]
  | block s body rest _ ih => simp [Forest.append, ih]

/-- Reading entries back: complete blocks, and the open ones, innermost first. -/
def readBack : List (BBlock × Forest) × List (BBlock × Forest) → StreamEntry →
    List (BBlock × Forest) × List (BBlock × Forest)
  | (T, S), .subBlock s => (T, (s, .nil) :: S)
  | (T, (s, t) :: S), .record r => (T, (s, t.append (.record r .nil)) :: S)
  | (T, [(s, t)]), .endBlock => (T ++ [(s, t)], [])
  | (T, (s, t) :: (s', t') :: S), .endBlock => (T, (s', t'.append (.block s t .nil)) :: S)
  | x, _ => x

theorem readBack_forest (t : Forest) : ∀ (T S : List (BBlock × Forest)) (s : BBlock) (u : Forest),
    t.entries.foldl readBack (T, (s, u) :: S) = (T, (s, u.append t) :: S) := by
  induction t with
  | nil => intro T S s u; simp [Forest.entries, append_nil]
  | record r rest ih =>
    intro T S s u
    simp [Forest.entries, readBack, ih, append_assoc, Forest.append]
  | block s' body rest ih ih' =>
    intro T S s u
    simp [Forest.entries, readBack, ih, ih', append_assoc, Forest.append]

theorem readBack_complete (l : List (BBlock × Forest)) : ∀ T, (completeEntries l).foldl readBack (T, []) = (T ++ l, []) := by
  induction l with
  | nil => intro T; simp [completeEntries]
  | cons c l ih =>
    intro T
    simp only [completeEntries, List.flatMap_cons, List.foldl_append, List.foldl_cons, readBack, readBack_forest] at ih ⊢
    simp [ih, Forest.append]

theorem readBack_open (P : List (BBlock × Forest)) : ∀ T S, (openEntries P).foldl readBack (T, S) = (T, P.reverse ++ S) := by
  induction P with
  | nil => intro T S; simp [openEntries]
  | cons c P ih =>
    intro T S
    simp only [openEntries, List.flatMap_cons, List.foldl_append, List.foldl_cons, readBack, readBack_forest] at ih ⊢
    simp [ih, Forest.append]

theorem entries_unique {T P T' P' : List (BBlock × Forest)}
    (h : completeEntries T ++ openEntries P = completeEntries T' ++ openEntries P') : T = T' ∧ P = P' := by
  have := congrArg (List.foldl readBack ([], [])) h
  simpa [List.foldl_append, readBack_complete, readBack_open] using this

theorem plain_records {t t' : Forest} (h : t.plain = t'.plain) : SameRecords t.records t'.records := by
  induction t generalizing t' with
  | nil => cases t' <;> simp_all [Forest.plain, Forest.records, SameRecords, each_nil_left]
  | record r rest ih =>
    cases t' <;> simp only [Forest.plain, Forest.record.injEq, reduceCtorEq] at h
    refine each_cons.2 ⟨?_, ih h.2⟩
    simpa [BRecord.plain, SameRecord] using h.1
  | block s body rest _ ih =>
    cases t' <;> simp only [Forest.plain, Forest.block.injEq, reduceCtorEq] at h
    unfold Forest.records
    exact ih h.2.2

theorem plain_blocks {t t' : Forest} (h : t.plain = t'.plain) :
    Each (fun c d => c.1.blockId = d.1.blockId ∧ SameRecords c.2.records d.2.records) t.blocks t'.blocks := by
  induction t generalizing t' with
  | nil => cases t' <;> simp_all [Forest.plain, Forest.blocks, each_nil_left]
  | record r rest ih =>
    cases t' <;> simp only [Forest.plain, Forest.record.injEq, reduceCtorEq] at h
    unfold Forest.blocks
    exact ih h.2
  | block s body rest _ ih =>
    cases t' <;> simp only [Forest.plain, Forest.block.injEq, reduceCtorEq] at h
    refine each_cons.2 ⟨⟨?_, plain_records h.2.1⟩, ih h.2.2⟩
    simpa [BBlock.plain] using h.1

theorem Spec.SameRecords.first {rs ss : List BRecord} (h : SameRecords rs ss) (code : Nat) : SameFirst code rs ss := by
  have := SameRecords.withCode h code
  unfold SameFirst SameRecords at *
  generalize Spec.withCode rs code = l at this
  generalize Spec.withCode ss code = m at this
  cases l <;> cases m
  · exact each_nil_left.2 rfl
  · exact absurd this.1 (by simp)
  · exact absurd this.1 (by simp)
  · exact each_cons.2 ⟨(each_cons.1 this).1, each_nil_left.2 rfl⟩

theorem plain_sameModule {t t' : Forest} (h : t.plain = t'.plain) : SameModule t t' where
  records code _ := (plain_records h).withCode code
  blocks id _ := (each_filter (fun a b hab => by rw [hab.1]) (plain_blocks h)).imp fun _ _ h => h.2
  symbols := (each_filter (fun a b hab => by rw [hab.1]) (plain_blocks h)).1.symm

theorem plain_sameTop {c d : BBlock × Forest} (h : (c.1.plain, c.2.plain) = (d.1.plain, d.2.plain)) : SameTop c d := by
  simp only [Prod.mk.injEq] at h
  have hr := plain_records h.2
  exact ⟨by simpa [BBlock.plain] using h.1, fun _ => plain_sameModule h.2, fun _ => ⟨hr.first 1, hr.first 2⟩,
    fun _ => hr.first 1⟩

/-- C58. How a stream is encoded does not matter for mapping: if two streams yield records with the same codes and fields in
blocks with the same ids, and end in the same way (by the end of the data, inside a block or not, by an error or by a panic),
they are mapped with the same outcome. -/
theorem C58_encoding (pf : Profile) (target : Str) {b b' b₁ b₂ b₁' b₂' : Bitstream} (ho : Opened pf b) (ho' : Opened pf b')
    {es es' : List StreamEntry} {r : Bitstream.Next} (h : iterate pf es.length b = (es.map .item, b₁))
    (h' : iterate pf es'.length b' = (es'.map .item, b₁')) (hr : Bitstream.next pf b₁ = (r, b₂))
    (hr' : Bitstream.next pf b₁' = (r, b₂')) (hne : ∀ e, r ≠ .item e) (heq : es.map erase = es'.map erase) :
    Bitcode.ofStream pf target b = Bitcode.ofStream pf target b' := by
  have hsplit : ∀ {b b₁ : Bitstream} {es : List StreamEntry}, Opened pf b → iterate pf es.length b = (es.map .item, b₁) →
      ∃ tops P, es = completeEntries tops ++ openEntries P := by
    intro b b₁ es ho h
    obtain ⟨h1, h2, -⟩ := ho.start
    have hv := iterate_visible (pf := pf) es.length h1
    rw [show b.parser.visible = [] by simp [Parser.visible, h2, Scope.visibleId], h] at hv
    have hit : ∀ l : List StreamEntry, items (l.map .item) = l := by
      intro l
      induction l with
      | nil => rfl
      | cons e l ih => simp [items, ih]
    rw [hit] at hv
    obtain ⟨tops, P, hes, -⟩ := nested_decomposes es hv
    exact ⟨tops, P, hes⟩
  obtain ⟨tops, P, rfl⟩ := hsplit ho h
  obtain ⟨tops', P', rfl⟩ := hsplit ho' h'
  have hp := erase_plain_list heq
  rw [List.map_append, List.map_append, ← plain_complete, ← plain_complete, ← plain_open, ← plain_open] at hp
  obtain ⟨hT, hP⟩ := entries_unique hp
  refine ofStream_congr pf target ho ho' (gives_of_iterate h) (gives_of_iterate h') hr hr' hne ?_ ?_
  · have hl := congrArg List.length hT
    simp only [plainTops, List.length_map] at hl
    refine ⟨hl.symm, fun i c d hc hd => plain_sameTop ?_⟩
    have := congrArg (·[i]?) hT
    simpa [plainTops, hc, hd] using this
  · have hl := congrArg List.length hP
    simp only [plainTops, List.length_map] at hl
    rw [← List.length_eq_zero_iff, ← List.length_eq_zero_iff, hl]

/-- C58. Two files written with the same contents map to the same outcome, whichever abbreviations, field encodings, id
widths and abbreviation definitions were used to write them. -/
theorem C58_written (pf : Profile) (target : Str) {magic magic' : U32} {its its' : Items} {bytes bytes' : List U8}
    {es es' : List Entry} (h : streamBytes magic its = some (bytes, es)) (h' : streamBytes magic' its' = some (bytes', es'))
    (hm : magic ≠ 0x0B17C0DE) (hm' : magic' ≠ 0x0B17C0DE) (heq : its.events false = its'.events false) :
    Bitcode.tryFrom pf target bytes = Bitcode.tryFrom pf target bytes' := by
  obtain ⟨b, hb, -, hd⟩ := Props.C18_stream_roundtrip_from pf h hm
  obtain ⟨b', hb', -, hd'⟩ := Props.C18_stream_roundtrip_from pf h' hm'
  obtain ⟨b₁, b₂, g1, g2⟩ := delivers_gives hd
  obtain ⟨b₁', b₂', g1', g2'⟩ := delivers_gives hd'
  have key : ∀ l : List Entry, (l.map Entry.toStream).map erase = l.map Entry.event := by
    intro l
    rw [List.map_map]
    refine List.map_congr_left fun e _ => ?_
    cases e <;> rfl
  unfold Bitcode.tryFrom
  rw [hb, hb']
  exact C58_encoding pf target (.auto hb) (.auto hb') g1.iterate g1'.iterate g2 g2' (by simp)
    (by rw [key, key, Props.C18_entries_meaning h, Props.C18_entries_meaning h', heq])

/-- `exFile` with other encodings: records with and without abbreviations exchanged, other id widths, an abbreviation
registered by a BLOCKINFO block. -/
def exRecoded : Items :=
  .block 0 3 (.unabbrev 1 [17] (.define { scalars := [.lit 1, .enc (.vbr 6)], tail := .nothing } .nil)) <|
  .block 13 4 (.define { scalars := [.lit 1], tail := .array .char6 } (.abbrev 4 1 [76, 76, 86, 77] (.unabbrev 2 [0] .nil))) <|
  .block 8 6 (
    .unabbrev 1 [2] <|
    .block 10 4 (.unabbrev 3 [1, 0xffffffff, 0, 18, 3, 97, 98, 0] .nil) <|
    .block 9 5 (.unabbrev 2 [1] .nil) <|
    .block 17 3 (.abbrev 4 1 [3] <| .unabbrev 7 [32] <| .unabbrev 21 [0, 0, 0] <| .unabbrev 8 [1, 0] .nil) <|
    .unabbrev 2 [120, 56, 54] <|
    .unabbrev 3 [101, 45, 112, 58, 51, 50, 58, 51, 50] <|
    .unabbrev 4 [110, 111, 112, 10, 114, 101, 116] <|
    .unabbrev 5 [46, 116] <|
    .unabbrev 6 [109, 109] <|
    .unabbrev 12 [0, 1, 0] <|
    .unabbrev 8 [1, 1, 1, 0, 1, 0, 1, 3, 1, 0] <|
    .block 14 4 .nil <|
    .unabbrev 14 [0, 2, 2, 0, 0] .nil) <|
  .block 25 3 (.unabbrev 1 [7, 8, 9] .nil) <|
  .block 23 3 (.unabbrev 1 [99, 102, 103] .nil) .nil

/-- It meets the hypotheses of `C58_written`, and its bytes are not those of `exFile`. -/
example : exRecoded.events false = exFile.events false ∧
    (streamBytes 0xdec04342 exRecoded).isSome = true ∧ (streamBytes 0xdec04342 exFile).isSome = true ∧
    (streamBytes 0xdec04342 exRecoded).map (·.1) ≠ (streamBytes 0xdec04342 exFile).map (·.1) := by
  decide +kernel

/-- `exFile` with a global variable, metadata, a source file name and symbols in the value symbol table added, and with
records and blocks in another order. -/
def exExtended : Items :=
  .block 13 5 (.unabbrev 2 [0] (.unabbrev 1 [76, 76, 86, 77] .nil)) <|
  .block 8 3 (
    .unabbrev 16 [97] <|
    .unabbrev 14 [0, 2, 2, 0, 0] <|
    .unabbrev 12 [0, 1, 0] <|
    .block 14 4 (.unabbrev 1 [0, 97] .nil) <|
    .block 15 3 (.unabbrev 35 [1, 2, 3] .nil) <|
    .block 17 4 (.unabbrev 1 [3] <| .unabbrev 7 [32] <| .unabbrev 21 [0, 0, 0] <| .unabbrev 8 [1, 0] .nil) <|
    .block 10 3 (.unabbrev 3 [1, 0xffffffff, 0, 18, 3, 97, 98, 0] .nil) <|
    .block 9 3 (.unabbrev 2 [1] .nil) <|
    .unabbrev 2 [120, 56, 54] <|
    .unabbrev 7 [1, 2, 3, 4, 5, 6] <|
    .unabbrev 3 [101, 45, 112, 58, 51, 50, 58, 51, 50] <|
    .unabbrev 4 [110, 111, 112, 10, 114, 101, 116] <|
    .unabbrev 5 [46, 116] <|
    .unabbrev 6 [109, 109] <|
    .unabbrev 8 [1, 1, 1, 0, 1, 0, 1, 3, 1, 0] <|
    .unabbrev 1 [2] .nil) <|
  .block 25 3 (.unabbrev 1 [7, 8, 9] (.unabbrev 1 [1] .nil)) <|
  .block 23 3 (.unabbrev 1 [99, 102, 103] .nil) .nil

example (pf : Profile) :
    (streamBytes 0xdec04342 exExtended).map (fun x => Bitcode.tryFrom pf "t".toList x.1) = some (.ok exBitcode) := by
  cases pf <;> decide +kernel

/-- A record not looked at after other contents: an instance of `C58_unseen`. -/
example : Unseen (.record ⟨none, 1, [2]⟩ (.record ⟨some 4, 7, [1]⟩ (.record ⟨none, 2, [97, 98]⟩ .nil)))
    (.record ⟨none, 1, [2]⟩ (.record ⟨none, 2, [97, 98]⟩ .nil)) :=
  .record [.inl ⟨none, 1, [2]⟩] _ _ (by decide)

end Verif
