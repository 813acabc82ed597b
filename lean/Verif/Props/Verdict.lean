import Verif.Mapper.VerdictSpec
import Verif.Props.Stops

/-! C67: what mapping ends in if several things are wrong with the input: records and tables. -/

namespace Verif
open Spec

/-! ## Checks through the combinators -/

/-- The ways of `x` to have no result are those that the check `c` finds. -/
def Judges {ε α : Type} (x : Out ε α) (c : Check ε) : Prop := ∀ b, x.Ends b ↔ c b

section Judges
variable {ε δ α β : Type} {x : Out ε α} {c : Check ε} {cs : List (Check ε)}

theorem Out.Ends.not_ok {b : Bad ε} (h : x.Ends b) {a : α} : x ≠ .ok a := by
  rintro rfl
  cases b with
  | error e => cases h
  | stop s => exact ok_stops.1 h

theorem Out.Ends.unique {b b' : Bad ε} (h : x.Ends b) (h' : x.Ends b') : b = b' := by
  cases b with
  | error e =>
    cases b' with
    | error e' => cases (h : x = .err e).symm.trans h'; rfl
    | stop s => rw [show x = .err e from h] at h'; exact (err_stops.1 h').elim
  | stop s =>
    cases b' with
    | error e' => rw [show x = .err e' from h'] at h; exact (err_stops.1 h).elim
    | stop s' => cases s <;> cases s' <;> cases (h : x = _).symm.trans h' <;> rfl

theorem Out.ok_or_ends (x : Out ε α) : (∃ a, x = .ok a) ∨ ∃ b, x.Ends b := by
  cases x with
  | ok a => exact .inl ⟨a, rfl⟩
  | err e => exact .inr ⟨.error e, rfl⟩
  | panic p => exact .inr ⟨.stop (.panic p), rfl⟩
  | diverge => exact .inr ⟨.stop .hang, rfl⟩

theorem ok_ends {a : α} {b : Bad ε} : ¬ (Out.ok a : Out ε α).Ends b := fun h => h.not_ok rfl

theorem err_ends {e : ε} {b : Bad ε} : (Out.err e : Out ε α).Ends b ↔ b = .error e := by
  cases b with
  | error e' => simp [Out.Ends, eq_comm]
  | stop s => simp [Out.Ends, err_stops]

theorem panic_ends {p : PanicSite} {b : Bad ε} : (Out.panic p : Out ε α).Ends b ↔ b = .stop (.panic p) := by
  cases b with
  | error e' => simp [Out.Ends]
  | stop s => simp [Out.Ends, panic_stops]

theorem bind_ends {f : α → Out ε β} {b : Bad ε} : (x >>= f).Ends b ↔ x.Ends b ∨ ∃ a, x = .ok a ∧ (f a).Ends b := by
  cases b with
  | error e => exact bind_eq_err
  | stop s => exact bind_stops

theorem first_nil {b : Bad ε} : ¬ First [] b := by intro h; cases h

theorem first_cons {b : Bad ε} : First (c :: cs) b ↔ c b ∨ ((∀ x, ¬ c x) ∧ First cs b) := by
  constructor
  · intro h
    cases h with
    | here h => exact .inl h
    | later h h' => exact .inr ⟨h, h'⟩
  · rintro (h | ⟨h, h'⟩)
    · exact .here h
    · exact .later h h'

theorem first_singleton {b : Bad ε} : First [c] b ↔ c b := by
  rw [first_cons]
  exact ⟨fun h => h.resolve_right fun h => first_nil h.2, .inl⟩

theorem Judges.congr {c' : Check ε} (h : Judges x c) (hc : ∀ b, c b ↔ c' b) : Judges x c' := fun b => (h b).trans (hc b)

theorem Judges.no (h : Judges x c) {a : α} (hx : x = .ok a) (b : Bad ε) : ¬ c b := fun hc => ((h b).2 hc).not_ok hx

/-- A step that may fail, and then the rest. -/
theorem Judges.bind {f : α → Out ε β} (h : Judges x c) (hf : ∀ a, x = .ok a → Judges (f a) (First cs)) :
    Judges (x >>= f) (First (c :: cs)) := by
  intro b
  rw [bind_ends, first_cons, h b]
  constructor
  · rintro (h' | ⟨a, ha, h'⟩)
    · exact .inl h'
    · exact .inr ⟨h.no ha, (hf a ha b).1 h'⟩
  · rintro (h' | ⟨hn, h'⟩)
    · exact .inl h'
    · rcases x.ok_or_ends with ⟨a, ha⟩ | ⟨y, hy⟩
      · exact .inr ⟨a, ha, (hf a ha b).2 h'⟩
      · exact absurd ((h y).1 hy) (hn y)

/-- A last step that cannot fail. -/
theorem Judges.andThen {g : α → β} (h : Judges x c) : Judges (x >>= fun a => .ok (g a)) c := by
  intro b
  rw [bind_ends, h b]
  exact ⟨fun h' => h'.resolve_right fun ⟨_, _, h'⟩ => ok_ends h', .inl⟩

theorem judges_ok {a : α} : Judges (Out.ok a : Out ε α) (First []) :=
  fun _ => ⟨fun h => (ok_ends h).elim, fun h => (first_nil h).elim⟩

theorem judges_one (h : Judges x c) : Judges x (First [c]) := h.congr fun _ => first_singleton.symm

theorem judges_panic {p : PanicSite} : Judges (Out.panic p : Out ε α) (halts True (.panic p)) := by
  intro b
  rw [panic_ends]
  simp [halts]

theorem Judges.mapErr {g : ε → δ} (h : Judges x c) : Judges (x.mapErr g) (under g c) := by
  intro b
  unfold under
  cases b with
  | error e =>
    show x.mapErr g = .err e ↔ _
    rw [mapErr_eq_err]
    constructor
    · rintro ⟨e', h', rfl⟩
      exact ⟨.error e', (h _).1 h', rfl⟩
    · rintro ⟨y, h', he⟩
      cases y with
      | error e' => cases he; exact ⟨e', (h _).2 h', rfl⟩
      | stop s => cases he
  | stop s =>
    show (x.mapErr g).Stops s ↔ _
    rw [mapErr_stops]
    constructor
    · intro h'; exact ⟨.stop s, (h (.stop s)).1 h', rfl⟩
    · rintro ⟨y, h', he⟩
      cases y with
      | error e' => cases he
      | stop s => cases he; exact (h (.stop _)).2 h'

theorem judges_ofOption {o : Option α} {e : ε} {p : Prop} (h : o = none ↔ p) : Judges (Out.ofOption e o) (fails p e) := by
  intro b
  unfold fails
  rw [← h]
  cases o with
  | none => rw [show (Out.ofOption e none : Out ε α) = .err e from rfl, err_ends]; simp
  | some a => simp [ok_ends]

/-- A condition that is an error. -/
theorem judges_if {p : Prop} [Decidable p] {e : ε} (h : ¬ p → Judges x (First cs)) :
    Judges (if p then .err e else x) (First (fails p e :: cs)) := by
  intro b
  rw [first_cons]
  by_cases hp : p
  · rw [if_pos hp, err_ends]
    refine ⟨fun h => .inl ⟨hp, h⟩, ?_⟩
    rintro (⟨-, h⟩ | ⟨h, -⟩)
    · exact h
    · exact absurd ⟨hp, rfl⟩ (h (.error e))
  · rw [if_neg hp, h hp b]
    exact ⟨fun h => .inr ⟨fun _ hf => hp hf.1, h⟩, fun h => h.elim (fun hf => absurd hf.1 hp) (·.2)⟩

/-- A check that finds nothing. -/
theorem judges_skip (hc : ∀ b, ¬ c b) (h : Judges x (First cs)) : Judges x (First (c :: cs)) := by
  intro b
  rw [h b, first_cons]
  exact ⟨fun h => .inr ⟨hc, h⟩, fun h => h.elim (fun h => absurd h (hc b)) (·.2)⟩

/-- A check that finds something. -/
theorem judges_found (h : Judges x c) {b : Bad ε} (hx : x.Ends b) : Judges x (First (c :: cs)) := by
  intro b'
  rw [h b', first_cons]
  exact ⟨.inl, fun h' => h'.elim id fun ⟨hn, _⟩ => absurd ((h b).1 hx) (hn b)⟩

theorem all_cons {c : α → Check ε} {a : α} {l : List α} {b : Bad ε} :
    All c (a :: l) b ↔ c a b ∨ ((∀ x, ¬ c a x) ∧ All c l b) := first_cons

theorem all_nil {c : α → Check ε} {b : Bad ε} : ¬ All c [] b := first_nil

theorem all_singleton {c : α → Check ε} {a : α} {b : Bad ε} : All c [a] b ↔ c a b := first_singleton

/-- `All`, said otherwise: what is found is found in some element, and nothing in those before it. -/
theorem all_iff {c : α → Check ε} {l : List α} {b : Bad ε} :
    All c l b ↔ ∃ pre a post, l = pre ++ a :: post ∧ (∀ x ∈ pre, ∀ y, ¬ c x y) ∧ c a b := by
  induction l with
  | nil => simp [all_nil]
  | cons z l ih =>
    rw [all_cons, ih]
    constructor
    · rintro (h | ⟨hz, pre, a, post, rfl, h1, h2⟩)
      · exact ⟨[], z, l, rfl, by simp, h⟩
      · exact ⟨z :: pre, a, post, rfl, List.forall_mem_cons.2 ⟨hz, h1⟩, h2⟩
    · rintro ⟨pre, a, post, he, h1, h2⟩
      cases pre with
      | nil => cases he; exact .inl h2
      | cons y pre =>
        cases he
        obtain ⟨h0, h1⟩ := List.forall_mem_cons.1 h1
        exact .inr ⟨h0, pre, a, post, rfl, h1, h2⟩

theorem judges_mapOut {f : α → Out ε β} {c : α → Check ε} {l : List α} (h : ∀ a ∈ l, Judges (f a) (c a)) :
    Judges (mapOut f l) (All c l) := by
  induction l with
  | nil => exact judges_ok
  | cons a l ih =>
    unfold mapOut
    refine (h a (by simp)).bind fun y _ => ?_
    exact (ih fun x hx => h x (by simp [hx])).andThen

theorem judges_foldlM {f : β → α → Out ε β} {c : α → Check ε} {l : List α} (h : ∀ acc, ∀ a ∈ l, Judges (f acc a) (c a)) (acc : β) :
    Judges (l.foldlM f acc) (All c l) := by
  induction l generalizing acc with
  | nil => exact judges_ok
  | cons a l ih =>
    rw [List.foldlM_cons]
    exact (h acc a (by simp)).bind fun y _ => ih (fun acc x hx => h acc x (by simp [hx])) y

/-- The same check of elements that correspond to each other. -/
theorem all_congr {γ : Type} {c : α → Check ε} {d : γ → Check ε} {l : List α} {m : List γ}
    (h : Each (fun a e => ∀ b, c a b ↔ d e b) l m) (b : Bad ε) : All c l b ↔ All d m b := by
  induction l generalizing m with
  | nil =>
    cases m with
    | nil => simp [all_nil]
    | cons _ _ => simp [Each] at h
  | cons a l ih =>
    cases m with
    | nil => simp [Each] at h
    | cons e m =>
      obtain ⟨h0, h⟩ := each_cons.1 h
      simp only [all_cons, ih h, h0]

theorem under_under {γ : Type} {g : ε → δ} {k : δ → γ} (b : Bad γ) : under k (under g c) b ↔ under (fun e => k (g e)) c b := by
  unfold under
  constructor
  · rintro ⟨y, ⟨x, h, rfl⟩, rfl⟩
    exact ⟨x, h, by cases x <;> rfl⟩
  · rintro ⟨x, h, rfl⟩
    exact ⟨_, ⟨x, h, rfl⟩, by cases x <;> rfl⟩

theorem under_none {g : ε → δ} (h : ∀ b, ¬ c b) (b : Bad δ) : ¬ under g c b := by
  rintro ⟨x, hx, -⟩
  exact h x hx

theorem under_all {c : α → Check ε} {g : ε → δ} {l : List α} (b : Bad δ) :
    under g (All c l) b ↔ All (fun a => under g (c a)) l b := by
  induction l generalizing b with
  | nil => exact ⟨fun ⟨_, h, _⟩ => (all_nil h).elim, fun h => (all_nil h).elim⟩
  | cons a l ih =>
    rw [all_cons]
    have hno : (∀ x, ¬ under g (c a) x) ↔ ∀ x, ¬ c a x :=
      ⟨fun h x hx => h _ ⟨x, hx, rfl⟩, fun h x => under_none h x⟩
    rw [hno, ← ih]
    unfold under
    simp only [all_cons]
    constructor
    · rintro ⟨x, h | ⟨h1, h2⟩, rfl⟩
      · exact .inl ⟨x, h, rfl⟩
      · exact .inr ⟨h1, x, h2, rfl⟩
    · rintro (⟨x, h, rfl⟩ | ⟨h1, x, h2, rfl⟩)
      · exact ⟨x, .inl h, rfl⟩
      · exact ⟨x, .inr ⟨h1, h2⟩, rfl⟩

end Judges

/-! ## Records and blocks -/

theorem text_judges (pf : Profile) (r : BRecord) : Judges (r.tryString pf 0) (TextBad pf r) := by
  rintro (e | s)
  · exact string_err pf
  · exact string_stops pf

theorem blob_judges (pf : Profile) (r : BRecord) : Judges (r.tryBlob pf 0) (BlobBad pf r) := by
  rintro (e | s)
  · exact blob_err pf
  · exact blob_stops pf

theorem oneRecord_judges (rs : List BRecord) (code : U64) : Judges (Records.exactlyOne rs code) (OneRecord rs code) := by
  intro b
  unfold Records.exactlyOne OneRecord
  rw [byCode_withCode, first_cons, first_singleton]
  split
  · next h => rw [err_ends, h]; simp [fails]
  · next h => rw [h]; simp [fails, ok_ends]
  · next h1 h2 =>
    rw [err_ends, h2]
    simp [fails]

theorem atMostOneRecord_judges (rs : List BRecord) (code : U64) :
    Judges (Records.oneOrNone rs code) (AtMostOneRecord rs code) := by
  intro b
  unfold Records.oneOrNone AtMostOneRecord
  rw [byCode_withCode]
  split
  · next h => rw [h]; simp [fails, ok_ends]
  · next h => rw [h]; simp [fails, ok_ends]
  · next h1 h2 =>
    rw [err_ends, h2]
    simp [fails]

theorem oneBlock_judges {id : U64} {t : Forest} {u : UBlock} (hu : Unrolled id t u) (k : U64) :
    Judges (Blocks.exactlyOne u.blocks (.ofU64 k)) (OneBlock t k) := by
  intro b
  unfold Blocks.exactlyOne OneBlock
  rw [first_cons, first_singleton]
  rcases byId_cases hu k with ⟨h1, h2⟩ | ⟨c, v, h1, h2, h3⟩ | ⟨c, c', l, v, v', m, h1, h2⟩
  · rw [h1, h2]; simp [fails, err_ends]
  · rw [h1, h2]; simp [fails, ok_ends]
  · rw [h1, h2]; simp [fails, err_ends]

theorem atMostOneBlock_judges {id : U64} {t : Forest} {u : UBlock} (hu : Unrolled id t u) (k : U64) :
    Judges (Blocks.oneOrNone u.blocks (.ofU64 k)) (AtMostOneBlock t k) := by
  intro b
  unfold Blocks.oneOrNone AtMostOneBlock
  rcases byId_cases hu k with ⟨h1, h2⟩ | ⟨c, v, h1, h2, h3⟩ | ⟨c, c', l, v, v', m, h1, h2⟩
  · rw [h1, h2]; simp [fails, ok_ends]
  · rw [h1, h2]; simp [fails, ok_ends]
  · rw [h1, h2]; simp [fails, err_ends]

/-! ## String tables, symbol tables and identifications -/

theorem one_none_iff {rs : List BRecord} {code : U64} : Records.one rs code = none ↔ NoRecord code rs := by
  refine ⟨one_none, fun h => ?_⟩
  cases hx : Records.one rs code with
  | none => rfl
  | some r =>
    obtain ⟨pre, post, rfl, hc, -⟩ := (one_iff ..).1 hx
    exact absurd hc (h r (by simp))

theorem firstWith_unique {rs : List BRecord} {code : U64} {r r' : BRecord} (h : FirstWith code rs r) (h' : FirstWith code rs r') :
    r = r' := by
  rw [← one_iff] at h h'
  rw [h] at h'
  exact Option.some.inj h'

/-- A check of the first record of its kind. -/
theorem judges_first {ε α : Type} {rs : List BRecord} {code : U64} {r : BRecord} (hr : Records.one rs code = some r) {x : Out ε α}
    {c : BRecord → Check ε} (h : Judges x (c r)) : Judges x fun b => ∃ r, FirstWith code rs r ∧ c r b := by
  have hr := (one_iff ..).1 hr
  refine h.congr fun b => ⟨fun h => ⟨r, hr, h⟩, ?_⟩
  rintro ⟨r', hr', h⟩
  cases firstWith_unique hr hr'
  exact h

/-- C67, for string tables. -/
theorem C67_strtab (pf : Profile) (b : UBlock) : Judges (Strtab.tryFrom pf b) (StrtabBad pf b.records) := by
  unfold Strtab.tryFrom StrtabBad
  rw [show StrtabCode.blob.code = 1 from rfl]
  refine (judges_ofOption one_none_iff).bind fun r hr => judges_one ?_
  exact judges_first (c := fun r => under StrtabError.badBlob (BlobBad pf r)) (ofOption_eq_ok.1 hr) (blob_judges pf r).mapErr.andThen

/-- C67, for symbol tables. -/
theorem C67_symtab (pf : Profile) (b : UBlock) : Judges (Symtab.tryFrom pf b) (SymtabBad pf b.records) := by
  unfold Symtab.tryFrom SymtabBad
  rw [show SymtabCode.blob.code = 1 from rfl]
  refine (judges_ofOption one_none_iff).bind fun r hr => judges_one ?_
  exact judges_first (c := fun r => under SymtabError.invalidBlob (BlobBad pf r)) (ofOption_eq_ok.1 hr) (blob_judges pf r).mapErr.andThen

/-- C67, for identifications. -/
theorem C67_identification (pf : Profile) (b : UBlock) :
    Judges (Identification.tryFrom pf b) (IdentificationBad pf b.records) := by
  unfold Identification.tryFrom IdentificationBad
  rw [show IdentificationCode.producerString.code = 1 from rfl, show IdentificationCode.epoch.code = 2 from rfl]
  refine (judges_ofOption one_none_iff).bind fun r hr => ?_
  refine Judges.bind (judges_first (c := fun r => under (fun _ => IdentificationError.badProducer) (TextBad pf r)) (ofOption_eq_ok.1 hr)
    (text_judges pf r).mapErr) fun p _ => ?_
  refine (judges_ofOption one_none_iff).bind fun r' hr' => judges_one ?_
  have hr' := (one_iff ..).1 (ofOption_eq_ok.1 hr')
  refine Judges.andThen (judges_ofOption ?_)
  rw [List.head?_eq_none_iff]
  exact ⟨fun h => ⟨r', hr', h⟩, fun ⟨x, hx, h⟩ => firstWith_unique hr' hx ▸ h⟩

/-! ## The tables of a module -/

/-- C67, for datalayouts. -/
theorem C67_layout (pf : Profile) (r : BRecord) : Judges (DataLayout.tryMap pf r) (LayoutBad pf r) := by
  unfold DataLayout.tryMap LayoutBad
  refine (text_judges pf r).mapErr.bind fun s hs => judges_one ?_
  rw [Out.mapErr_eq_ok, holds_iff] at hs
  have huniq : ∀ s', Holds pf r s' → s' = s := by
    intro s' hs'
    rw [← holds_iff] at hs hs'
    rw [hs] at hs'
    exact (Out.ok.inj hs').symm
  rintro (e | st)
  · show DataLayout.fromStr s = .err e ↔ _
    rw [Props.C59_rejects]
    constructor
    · intro h; exact ⟨s, e, hs, h, rfl⟩
    · rintro ⟨s', e', hs', h, he⟩
      cases huniq s' hs'
      cases he
      exact h
  · constructor
    · intro h; exact absurd h (Props.C37_returns s).not_stops
    · rintro ⟨_, _, _, _, h⟩; cases h

/-- C67, for type tables: what C53 and C56 say. -/
theorem C67_types (pf : Profile) (b : UBlock) : Judges (TypeTable.tryFrom pf b) (TypesBad pf b.records) := by
  rintro (e | s)
  · exact C53_types pf b e
  · exact C56_types pf b s

theorem groupStep_judges (g : AttributeGroups) (r : BRecord) : Judges (groupStep g r) (GroupBad r) := by
  rintro (e | s)
  · exact ⟨groupStep_err, groupStep_fault⟩
  · constructor
    · intro h
      rcases groupStep_cases r with ⟨id, param, attrs, h'⟩ | h' | h'
      · have h : (groupStep g r).Stops s := h
        rw [groupStep_group h', ok_stops] at h; exact h.elim
      · have h : (groupStep g r).Stops s := h
        rw [groupStep_cut h', panic_stops] at h; exact ⟨h', h⟩
      · obtain ⟨e, he⟩ := h' g
        have h : (groupStep g r).Stops s := h
        rw [he, err_stops] at h; exact h.elim
    · rintro ⟨h, rfl⟩
      show (groupStep g r).Stops (.panic .attrSlice)
      rw [groupStep_cut h, panic_stops]

/-- C67, for attribute groups. -/
theorem C67_groups (b : UBlock) : Judges (AttributeGroups.tryFrom b) (All GroupBad b.records) :=
  judges_foldlM (fun g r _ => groupStep_judges g r) []

theorem attributeCode_none {k : U64} : (tryFromPrimitive k : Option AttributeCode) = none ↔ k.toNat ∉ [1, 2, 3] := by
  constructor
  · intro h hk
    have : ∃ c : AttributeCode, k = c.code := by
      simp only [List.mem_cons, List.not_mem_nil, or_false] at hk
      rcases hk with hk | hk | hk
      · exact ⟨.entryOld, BitVec.eq_of_toNat_eq hk⟩
      · exact ⟨.entry, BitVec.eq_of_toNat_eq hk⟩
      · exact ⟨.groupCodeEntry, BitVec.eq_of_toNat_eq hk⟩
    obtain ⟨c, rfl⟩ := this
    rw [show (tryFromPrimitive c.code : Option AttributeCode) = some c from tryFromPrimitive_code c] at h
    cases h
  · intro h
    cases hc : (tryFromPrimitive k : Option AttributeCode) with
    | none => rfl
    | some c =>
      rw [(tryFromPrimitive_iff.1 hc).symm] at h
      cases c <;> exact absurd (by decide) h

theorem attrsStep_judges {g : AttributeGroups} (hg : Sorted g) (r : BRecord) : Judges (attrsStep g r) (ListBad g r) := by
  unfold attrsStep ListBad
  refine (judges_ofOption attributeCode_none).bind fun c hc => ?_
  have hc : r.code = c.code := (tryFromPrimitive_iff.1 (ofOption_eq_ok.1 hc)).symm
  rw [hc]
  cases c with
  | entryOld =>
    exact judges_found (b := .stop (.panic .unimplemented)) (judges_panic.congr fun b => by simp [halts, AttributeCode.code]) rfl
  | entry =>
    refine judges_skip (fun b h => absurd h.1 (by decide)) (judges_skip (fun b h => absurd h.1 (by decide)) (judges_one ?_))
    refine judges_mapOut fun f _ => ?_
    unfold groupRef
    refine judges_ofOption ?_
    constructor
    · intro h x hx
      rw [(get_iff hg _ x).2 hx] at h; cases h
    · intro h
      cases hx : g.get (f.setWidth 32) with
      | none => rfl
      | some x => exact absurd ((get_iff hg _ x).1 hx) (h x)
  | groupCodeEntry =>
    refine judges_skip (fun b h => absurd h.1 (by decide)) ?_
    exact judges_found (b := .error _) (c := fails _ _) (fun b => by rw [err_ends]; simp [fails, AttributeCode.code]) rfl

/-- C67, for attribute lists. -/
theorem C67_lists (b : UBlock) (g : AttributeGroups) (hg : Sorted g) :
    Judges (Attributes.tryFrom b g) (All (ListBad g) b.records) :=
  judges_mapOut fun r _ => attrsStep_judges hg r

/-! ## Functions, aliases and COMDATs -/

theorem name_judges (pf : Profile) (t : Strtab) (ht : t.bytes.length < 2 ^ 64) (fs : List U64) :
    Judges (t.tryGet pf ⟨fs[0]?.getD 0, fs[1]?.getD 0⟩) (NameBad pf t.bytes fs) := by
  have hov := (C32_overflow_panics pf t ⟨fs[0]?.getD 0, fs[1]?.getD 0⟩).2
  have hok := fun s => tryGet_iff pf t ht (fs[0]?.getD 0) (fs[1]?.getD 0) s
  unfold NameBad
  by_cases h1 : field fs 1 = 0 ∨ t.bytes.length ≤ field fs 0
  · have : t.tryGet pf ⟨fs[0]?.getD 0, fs[1]?.getD 0⟩ = .err .badRange := by
      unfold Strtab.tryGet
      rcases h1 with h1 | h1
      · rw [if_pos (show fs[1]?.getD 0 = 0 from BitVec.eq_of_toNat_eq h1)]
      · split
        · rfl
        · exact if_pos h1
    rw [this]
    exact judges_found (b := .error .badRange) (fun b => by rw [err_ends]; simp [fails, h1]) rfl
  refine judges_skip (fun b h => h1 h.1) ?_
  obtain ⟨h0, h1⟩ := not_or.1 h1
  by_cases h2 : 2 ^ 64 ≤ field fs 0 + field fs 1
  · rw [hov (by unfold field at h1; exact Nat.lt_of_not_le h1) h2]
    refine judges_found (b := .stop (.panic (nameSite pf))) (fun b => ?_) ?_
    · rw [panic_ends]; cases pf <;> simp [halts, nameSite, h2]
    · cases pf <;> rfl
  refine judges_skip (fun b h => h2 h.1) ?_
  have hn0 : fs[1]?.getD 0 ≠ 0 := fun h => h0 (by unfold field; rw [h]; rfl)
  have hsum : (fs[0]?.getD 0 + fs[1]?.getD 0).toNat = field fs 0 + field fs 1 := by
    rw [BitVec.toNat_add]; unfold field at *; omega
  have hlt : (fs[0]?.getD 0).toNat + (fs[1]?.getD 0).toNat < 2 ^ 64 := by unfold field at h2; omega
  have hle : ¬ (fs[0]?.getD 0).toNat ≥ t.bytes.length := h1
  by_cases h3 : t.bytes.length < field fs 0 + field fs 1
  · have : t.tryGet pf ⟨fs[0]?.getD 0, fs[1]?.getD 0⟩ = .err .badRange := by
      unfold Strtab.tryGet addUsize
      rw [if_neg hn0]
      simp only
      rw [if_neg hle, if_pos hlt, Out.ok_bind, if_pos (by rw [hsum]; exact h3)]
    rw [this]
    exact judges_found (b := .error .badRange) (fun b => by rw [err_ends]; simp [fails, h3]) rfl
  refine judges_skip (fun b h => h3 h.1) (judges_one ?_)
  have heq : ∃ o, t.tryGet pf ⟨fs[0]?.getD 0, fs[1]?.getD 0⟩ = Out.ofOption .badString o := by
    refine ⟨utf8Decode ((t.bytes.take (field fs 0 + field fs 1)).drop (field fs 0)), ?_⟩
    unfold Strtab.tryGet addUsize
    rw [if_neg hn0]
    simp only
    rw [if_neg hle, if_pos hlt, Out.ok_bind, if_neg (by rw [hsum]; exact h3), Out.ok_bind]
    unfold sliceBytes
    rw [hsum, if_pos ⟨by unfold field; omega, by omega⟩, Out.ok_bind]
    rfl
  obtain ⟨o, ho⟩ := heq
  rw [ho] at hok ⊢
  refine judges_ofOption ?_
  simp only [ofOption_eq_ok] at hok
  cases o with
  | none => exact ⟨fun _ s hs => (by cases (hok s).2 hs), fun _ => rfl⟩
  | some s => exact ⟨fun h => (by cases h), fun h => absurd ((hok s).1 rfl) (h s)⟩

theorem functionType_judges {types : TypeTable} {i : U64} {cs : List (Check FunctionRecordError)} {β : Type}
    {f : FunctionType → Out FunctionRecordError β} (hf : ∀ a, functionType types i = .ok a → Judges (f a) (First cs)) :
    Judges (functionType types i >>= f) (First (fails (types.length ≤ i.toNat) (.typeId i) ::
      fails (∀ r ps va, types[i.toNat]? ≠ some (.function r ps va)) .type :: cs)) := by
  unfold functionType TypeTable.get at *
  cases ht : types[i.toNat]? with
  | none =>
    refine judges_found (b := .error (.typeId i)) (fun b => ?_) rfl
    rw [List.getElem?_eq_none_iff] at ht
    show (Out.err _ : Out _ _).Ends b ↔ _
    rw [err_ends]; simp [fails, ht]
  | some t =>
    have hlt := (List.getElem?_eq_some_iff.1 ht).1
    refine judges_skip (fun b h => by have := h.1; omega) ?_
    rw [ht] at hf
    rw [Out.ofOption_some, Out.ok_bind] at *
    have hbad : (∀ r ps va, t ≠ .function r ps va) → Judges ((match (generalizing := false) t with
        | .function returnType paramTypes isVararg => .ok { returnType, paramTypes, isVararg }
        | _ => .err .type : Out FunctionRecordError FunctionType) >>= f) (First (fails
          (∀ r ps va, some t ≠ some (.function r ps va)) .type :: cs)) := by
      intro hn
      refine judges_found (b := .error .type) (c := fails _ _) (fun b => ?_) ?_
      · cases t with
        | function r ps va => exact absurd rfl (hn r ps va)
        | _ => rw [Out.err_bind, err_ends]; simp [fails]
      · cases t with
        | function r ps va => exact absurd rfl (hn r ps va)
        | _ => rfl
    cases t with
    | function r ps va =>
      refine judges_skip (fun b h => h.1 r ps va rfl) ?_
      exact hf _ rfl
    | _ => exact hbad (by intros; simp)

theorem decode_none {α : Type} [NumEnum α] {table : List (Nat × α)} {v : U64}
    (h : ∀ x : α, tryFromPrimitive v = some x ↔ (v.toNat, x) ∈ table) :
    (tryFromPrimitive v : Option α) = none ↔ ∀ x, (v.toNat, x) ∉ table := by
  constructor
  · intro hn x hx
    rw [(h x).2 hx] at hn; cases hn
  · intro hn
    cases hx : (tryFromPrimitive v : Option α) with
    | none => rfl
    | some x => exact absurd ((h x).1 hx) (hn x)

theorem attributes_judges (a : Attributes) (v : U64) :
    Judges (functionAttributes a v) (fails (a.length < v.toNat) (.attribute v)) := by
  unfold functionAttributes
  by_cases h0 : v = 0
  · rw [if_pos h0]
    intro b
    subst h0
    exact ⟨fun h => (ok_ends h).elim, fun h => absurd h.1 (by simp)⟩
  · rw [if_neg h0]
    refine Judges.andThen (judges_ofOption ?_)
    have hs : (v - 1).toNat = v.toNat - 1 := by
      have : v.toNat ≠ 0 := fun h => h0 (BitVec.eq_of_toNat_eq h)
      rw [BitVec.toNat_sub, show (1 : U64).toNat = 1 from rfl]
      omega
    have : v.toNat ≠ 0 := fun h => h0 (BitVec.eq_of_toNat_eq h)
    unfold Attributes.get
    rw [List.getElem?_eq_none_iff, hs]
    omega

theorem table_judges (err : Nat → FunctionRecordError) (l : List Str) (v : U64) :
    Judges (tableEntry err l v) (fails (l.length < v.toNat) (err (v.toNat - 1))) := by
  unfold tableEntry
  by_cases h0 : v = 0
  · rw [if_pos h0]
    intro b
    subst h0
    exact ⟨fun h => (ok_ends h).elim, fun h => absurd h.1 (by simp)⟩
  · rw [if_neg h0]
    refine Judges.andThen (judges_ofOption ?_)
    have : v.toNat ≠ 0 := fun h => h0 (BitVec.eq_of_toNat_eq h)
    rw [List.getElem?_eq_none_iff]
    omega

theorem align_judges (v : U64) : Judges ((MaybeAlign.tryFrom (v.setWidth 8)).mapErr FunctionRecordError.alignment)
    (fails (64 < v.toNat % 256) (.alignment (.shiftTooBig (v.setWidth 8 - 1)))) := by
  have hv : (v.setWidth 8).toNat = v.toNat % 256 := BitVec.toNat_setWidth ..
  unfold MaybeAlign.tryFrom
  by_cases h0 : v.setWidth 8 = 0
  · rw [if_pos h0]
    have : v.toNat % 256 = 0 := by rw [← hv, h0]; rfl
    intro b
    exact ⟨fun h => (ok_ends h).elim, fun h => absurd h.1 (by omega)⟩
  · rw [if_neg h0]
    have : v.toNat % 256 ≠ 0 := fun h => h0 (BitVec.eq_of_toNat_eq (hv.trans h))
    have hs : (v.setWidth 8 - 1).toNat = v.toNat % 256 - 1 := by
      rw [BitVec.toNat_sub, hv, show (1 : U8).toNat = 1 from rfl]
      omega
    unfold Align.fromShift
    by_cases hc : v.setWidth 8 - 1 > Align.maxShift
    · rw [if_pos hc]
      have hc : 63 < (v.setWidth 8 - 1).toNat := hc
      intro b
      show (Out.err _ : Out _ _).Ends b ↔ _
      rw [err_ends]
      simp [fails]
      omega
    · rw [if_neg hc]
      have hc : ¬ 63 < (v.setWidth 8 - 1).toNat := hc
      intro b
      exact ⟨fun h => (ok_ends h).elim, fun h => absurd h.1 (by omega)⟩

/-- C67, for function records. -/
theorem C67_function (pf : Profile) (r : BRecord) (ctx : MapCtx) (ht : ctx.strtab.bytes.length < 2 ^ 64) :
    Judges (FunctionRecord.tryMap pf r ctx) (FunctionBad pf ctx r.fields) := by
  unfold FunctionBad
  by_cases hv : 2 ≤ ctx.version.toNat
  case neg =>
    have hu : ctx.useStrtab = false := by rw [← Bool.not_eq_true, useStrtab_iff]; exact hv
    have : FunctionRecord.tryMap pf r ctx = .err .v1Unsupported := by simp [FunctionRecord.tryMap, hu]
    rw [this]
    exact judges_found (b := .error .v1Unsupported) (fun b => by rw [err_ends]; simp [fails]; omega) rfl
  refine judges_skip (fun b h => absurd h.1 (by omega)) ?_
  by_cases hl : 10 ≤ r.fields.length
  case neg =>
    have hu := (useStrtab_iff ctx).2 hv
    have : FunctionRecord.tryMap pf r ctx = .err (.tooShort r.fields.length) := by
      simp only [FunctionRecord.tryMap, hu, Bool.not_true, Bool.false_eq_true, if_false]
      rw [if_pos (by omega)]
    rw [this]
    exact judges_found (b := .error (.tooShort r.fields.length)) (fun b => by rw [err_ends]; simp [fails]; omega) rfl
  refine judges_skip (fun b h => absurd h.1 (by omega)) ?_
  rw [FunctionRecord.tryMap_eq pf r ctx hv hl]
  refine (name_judges pf _ ht r.fields).mapErr.bind fun _ _ => ?_
  refine functionType_judges fun _ _ => ?_
  refine (judges_ofOption (decode_none (C50_callingConvention _))).bind fun _ _ => ?_
  refine (attributes_judges _ _).bind fun _ _ => ?_
  refine (align_judges _).bind fun _ _ => ?_
  refine (table_judges _ _ _).bind fun _ _ => ?_
  refine (judges_ofOption (decode_none (C50_visibility _))).bind fun _ _ => ?_
  refine (table_judges _ _ _).bind fun _ _ => ?_
  exact (judges_ofOption (decode_none (C50_dllStorageClass _))).bind fun _ _ => judges_ok

/-- C67, for alias records. -/
theorem C67_alias (pf : Profile) (r : BRecord) (ctx : MapCtx) (ht : ctx.strtab.bytes.length < 2 ^ 64) :
    Judges (Alias.tryMap pf r ctx) (AliasBad pf ctx r.fields) := by
  unfold AliasBad
  by_cases hv : 2 ≤ ctx.version.toNat
  case neg =>
    have hu : ctx.useStrtab = false := by rw [← Bool.not_eq_true, useStrtab_iff]; exact hv
    have : Alias.tryMap pf r ctx = .err .v1Unsupported := by simp [Alias.tryMap, hu]
    rw [this]
    exact judges_found (b := .error .v1Unsupported) (fun b => by rw [err_ends]; simp [fails]; omega) rfl
  refine judges_skip (fun b h => absurd h.1 (by omega)) ?_
  by_cases hl : 5 ≤ r.fields.length
  case neg =>
    have hu := (useStrtab_iff ctx).2 hv
    have : Alias.tryMap pf r ctx = .err (.tooShort r.fields.length) := by
      simp only [Alias.tryMap, hu, Bool.not_true, Bool.false_eq_true, if_false]
      rw [if_pos (by omega)]
    rw [this]
    exact judges_found (b := .error (.tooShort r.fields.length)) (fun b => by rw [err_ends]; simp [fails]; omega) rfl
  refine judges_skip (fun b h => absurd h.1 (by omega)) ?_
  rw [Alias.tryMap_eq pf r ctx hv hl]
  refine (name_judges pf _ ht r.fields).mapErr.bind fun _ _ => ?_
  refine (judges_ofOption List.getElem?_eq_none_iff).bind fun _ _ => ?_
  refine (judges_ofOption (decode_none (C50_visibility _))).bind fun _ _ => ?_
  exact (judges_ofOption (decode_none (C50_dllStorageClass _))).bind fun _ _ => judges_ok

theorem selection_none {v : U64} : (tryFromPrimitive v : Option SelectionKind) = none ↔
    ∀ x, (v.toNat, x) ∉ selectionKindTable := decode_none fun x => selectionKind_iff v x

/-- C67, for COMDAT records. -/
theorem C67_comdat (pf : Profile) (r : BRecord) (ctx : PartialMapCtx) (v : U64) (hver : ctx.version = some v)
    (ht : ctx.strtab.bytes.length < 2 ^ 64) : Judges (Comdat.tryMap pf r ctx) (ComdatBad pf v ctx.strtab.bytes r.fields) := by
  unfold ComdatBad
  by_cases hv : 2 ≤ v.toNat
  case neg =>
    rw [Comdat.tryMap_v1 pf r ctx v hver hv]
    exact judges_found (b := .error .v1Unsupported) (fun b => by rw [err_ends]; simp [fails]; omega) rfl
  refine judges_skip (fun b h => absurd h.1 (by omega)) ?_
  by_cases hl : r.fields.length = 3
  case neg =>
    rw [Comdat.tryMap_short pf r ctx v hver hv hl]
    exact judges_found (b := .error (.tooShort r.fields.length)) (fun b => by rw [err_ends]; simp [fails, hl]) rfl
  refine judges_skip (fun b h => absurd hl h.1) ?_
  rw [Comdat.tryMap_eq pf r ctx v hver hv hl]
  refine (name_judges pf _ ht r.fields).mapErr.bind fun _ _ => ?_
  exact (judges_ofOption selection_none).bind fun _ _ => judges_ok

/-! ## Function bodies -/

theorem functionCode_none {v : U64} : (tryFromPrimitive v : Option FunctionCode) = none ↔ ∀ c, (v.toNat, c) ∉ functionCodeTable :=
  decode_none (C50_functionCode v)

theorem functionCode_unique {v : U64} {c c' : FunctionCode} (h : (v.toNat, c) ∈ functionCodeTable)
    (h' : (v.toNat, c') ∈ functionCodeTable) : c = c' := by
  rw [← C50_functionCode] at h h'
  rw [h] at h'
  exact Option.some.inj h'

/-- C67, for records of a function body. -/
theorem C67_instruction (types : TypeTable) (r : BRecord) : Judges (functionStep types r) (InstructionBad types r) := by
  unfold functionStep InstructionBad
  refine (judges_ofOption functionCode_none).bind fun c hc => ?_
  have hc : r.code = c.code := (tryFromPrimitive_iff.1 (ofOption_eq_ok.1 hc)).symm
  have htab : (r.code.toNat, c) ∈ functionCodeTable := by rw [hc]; exact functionCode_table c
  by_cases hk : r.code.toNat ∈ [1, 2, 3, 19, 20, 44, 56]
  case neg =>
    have hp : ∀ b, (Out.panic .unimplemented : Out FunctionBlockError Unit).Ends b ↔
        halts (r.code.toNat ∉ [1, 2, 3, 19, 20, 44, 56]) (.panic .unimplemented) b := fun b => by
      rw [panic_ends]; simp only [halts, hk, not_false_eq_true, true_and]
    rw [hc] at hk
    cases c <;> first
      | exact absurd (by decide) hk
      | exact judges_found (b := .stop (.panic .unimplemented)) hp rfl
  refine judges_skip (fun b h => h.1 hk) ?_
  have hthird : ∀ {g : FunctionCode → Check FunctionBlockError}, Naming r.code g = g c := by
    intro g
    funext b
    refine propext ⟨fun ⟨c', h1, h2⟩ => ?_, fun h => ⟨c, htab, h⟩⟩
    cases functionCode_unique htab h1
    exact h2
  have hunpack : c.code.toNat ∈ [3, 19, 20, 44] → Judges (unpackFields c r 4) (First [
      Naming r.code fun c => fails (r.code.toNat ∈ [2, 3, 19, 20, 44] ∧ r.fields.length ≠ 4)
        (.badInst c (.fields 4 r.fields.length)),
      Naming r.code fun c => fails (r.code = 56 ∧ r.fields.length ≠ 3) (.badInst c (.fields 3 r.fields.length)),
      Naming r.code fun c => fails (r.code.toNat ∈ [2, 56] ∧ types.length ≤ field r.fields 1)
        (.badInst c (.type (value r.fields 1))),
      fails (r.code = 56 ∧ field r.fields 2 ≠ 0) (.badUnOp (.opcode (value r.fields 2))),
      fails (r.code = 2 ∧ 13 ≤ field r.fields 3) (.badBinOp (.opcode (value r.fields 3))),
      fun b => r.code = 2 ∧ ∃ ty, types[field r.fields 1]? = some ty ∧ b = .error (.badBinOp (.invalidType ty))]) := by
    intro hm
    have h1 : r.code.toNat ∈ [2, 3, 19, 20, 44] := by rw [hc]; exact List.mem_cons_of_mem _ hm
    have h56 : r.code ≠ 56 := by rintro h; rw [← hc, h] at hm; revert hm; decide
    have h2 : r.code ≠ 2 := by rintro h; rw [← hc, h] at hm; revert hm; decide
    have h3 : r.code.toNat ∉ [2, 56] := by
      intro h
      simp only [List.mem_cons, List.not_mem_nil, or_false] at h
      rcases h with h | h
      · exact h2 (BitVec.eq_of_toNat_eq h)
      · exact h56 (BitVec.eq_of_toNat_eq h)
    simp only [hthird, h1, h56, h2, h3, false_and, true_and]
    unfold unpackFields
    by_cases hl : r.fields.length = 4
    · rw [if_pos hl]
      refine judges_skip (fun b h => h.1 hl) (judges_skip (fun b h => h.1) (judges_skip (fun b h => h.1) (judges_skip (fun b h => h.1)
        (judges_skip (fun b h => h.1) (judges_skip (fun b h => h) judges_ok)))))
    · rw [if_neg hl]
      exact judges_found (b := .error (.badInst c (.fields 4 r.fields.length))) (fun b => by rw [err_ends]; simp [fails, hl]) rfl
  simp only [hthird] at hunpack ⊢
  cases c with
  | instCast => exact hunpack (by decide)
  | instAlloca => exact hunpack (by decide)
  | instLoad => exact hunpack (by decide)
  | instStore => exact hunpack (by decide)
  | declareBlocks =>
    have hc : r.code = 1 := hc
    rw [hc]
    exact judges_skip (fun b h => absurd h.1.1 (by decide)) (judges_skip (fun b h => absurd h.1.1 (by decide)) (judges_skip
      (fun b h => absurd h.1.1 (by decide)) (judges_skip (fun b h => absurd h.1.1 (by decide)) (judges_skip
      (fun b h => absurd h.1.1 (by decide)) (judges_skip (fun b h => absurd h.1 (by decide)) judges_ok)))))
  | instBinop =>
    have hc : r.code = 2 := hc
    rw [hc]
    rcases hf : r.fields with _ | ⟨f0, _ | ⟨ty, _ | ⟨f2, _ | ⟨opc, _ | ⟨f4, fs⟩⟩⟩⟩⟩
    case cons.cons.cons.cons.nil =>
      have hv : value [f0, ty, f2, opc] 3 = opc := rfl
      show Judges (instType .instBinop types ty >>= fun ty => (BinaryOp.tryFrom opc ty).mapErr .badBinOp >>= fun _ => .ok ()) _
      unfold instType TypeTable.get
      refine judges_skip (fun b h => h.1.2 rfl) (judges_skip (fun b h => absurd h.1.1 (by decide)) ?_)
      refine Judges.bind (judges_ofOption ?_) fun t ht => ?_
      · rw [List.getElem?_eq_none_iff]
        simp [field]
      refine judges_skip (fun b h => absurd h.1.1 (by decide)) ?_
      rw [ofOption_eq_ok] at ht
      by_cases h13 : opc.toNat < 13
      · refine judges_skip (fun b h => absurd h13 (Nat.not_lt.2 h.1.2)) ?_
        rw [(C47_outcome opc t).2 h13]
        refine judges_one fun b => ?_
        show (Out.err _ : Out _ _).Ends b ↔ _
        rw [err_ends]
        constructor
        · rintro rfl; exact ⟨rfl, t, ht, rfl⟩
        · rintro ⟨-, t', ht', rfl⟩
          have ht' : types[ty.toNat]? = some t' := ht'
          rw [ht] at ht'
          cases ht'
          rfl
      · rw [(C47_outcome opc t).1 (by omega)]
        refine judges_found (b := .error (.badBinOp (.opcode opc))) (fun b => ?_) rfl
        show (Out.err _ : Out _ _).Ends b ↔ _
        rw [err_ends, hv]
        have : 13 ≤ field [f0, ty, f2, opc] 3 := Nat.not_lt.1 h13
        simp [fails, this]
    all_goals
      refine judges_found (b := .error (.badInst .instBinop (.fields 4 _))) (fun b => ?_) rfl
      show (Out.err _ : Out _ _).Ends b ↔ _
      rw [err_ends]
      simp [fails]
  | instUnop =>
    have hc : r.code = 56 := hc
    rw [hc]
    rcases hf : r.fields with _ | ⟨f0, _ | ⟨ty, _ | ⟨opc, _ | ⟨f4, fs⟩⟩⟩⟩
    case cons.cons.cons.nil =>
      have hv : value [f0, ty, opc] 2 = opc := rfl
      show Judges (instType .instUnop types ty >>= fun _ => (UnaryOp.tryFrom opc).mapErr .badUnOp >>= fun _ => .ok ()) _
      unfold instType TypeTable.get
      refine judges_skip (fun b h => absurd h.1.1 (by decide)) (judges_skip (fun b h => h.1.2 rfl) ?_)
      refine Judges.bind (judges_ofOption ?_) fun t ht => ?_
      · rw [List.getElem?_eq_none_iff]
        simp [field]
      by_cases h0 : opc = 0
      · rw [(C47_unary opc).1 h0]
        refine judges_skip (fun b h => h.1.2 (by subst h0; rfl)) (judges_skip (fun b h => absurd h.1.1 (by decide))
          (judges_skip (fun b h => absurd h.1 (by decide)) judges_ok))
      · rw [(C47_unary opc).2 h0]
        refine judges_found (b := .error (.badUnOp (.opcode opc))) (fun b => ?_) rfl
        show (Out.err _ : Out _ _).Ends b ↔ _
        rw [err_ends, hv]
        have : field [f0, ty, opc] 2 ≠ 0 := fun h => h0 (BitVec.eq_of_toNat_eq h)
        simp [fails, this]
    all_goals
      refine judges_skip (fun b h => absurd h.1.1 (by decide)) ?_
      refine judges_found (b := .error (.badInst .instUnop (.fields 3 _))) (fun b => ?_) rfl
      show (Out.err _ : Out _ _).Ends b ↔ _
      rw [err_ends]
      simp [fails]
  | _ => exact absurd hk (by rw [hc]; decide)

theorem functionLoop_judges (types : TypeTable) (rs : List BRecord) :
    Judges (functionLoop types rs) (All (InstructionBad types) rs) := by
  induction rs with
  | nil => exact judges_ok
  | cons r rs ih => exact (C67_instruction types r).bind fun _ _ => ih

/-- A check of the only record of its kind. -/
theorem judges_only {ε α : Type} {l : List BRecord} {r : BRecord} (hl : l = [r]) {x : Out ε α} {c : BRecord → Check ε}
    (h : Judges x (c r)) : Judges x (All c l) := by
  subst hl
  exact h.congr fun _ => all_singleton.symm

/-- C67, for function bodies. -/
theorem C67_body (b : UBlock) (types : TypeTable) : Judges (FunctionBlock.tryFrom b types) (BodyBad types b.records) := by
  unfold FunctionBlock.tryFrom BodyBad
  refine (oneRecord_judges b.records _).mapErr.bind fun r hr => ?_
  rw [Out.mapErr_eq_ok, exactlyOne_iff] at hr
  refine Judges.bind (judges_only hr (judges_ofOption List.head?_eq_none_iff)) fun n hn => ?_
  have hn : field r.fields 0 = n.toNat := by
    rw [ofOption_eq_ok, List.head?_eq_getElem?] at hn
    unfold field
    rw [hn]; rfl
  refine Judges.bind (judges_only hr ?_) fun _ _ => ?_
  · unfold blockCapacity basicBlockSize
    intro b
    split
    · exact ⟨fun h => (ok_ends h).elim, fun h => absurd h.1 (by omega)⟩
    · rw [panic_ends]
      simp [halts, hn]; omega
  refine (functionLoop_judges types b.records).bind fun _ _ => judges_one judges_panic

end Verif
