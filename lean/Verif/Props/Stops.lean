import Verif.Mapper.StopSpec
import Verif.Props.ModuleErrors

/-! C56: why mapping panics or runs forever. -/

namespace Verif
open Spec

/-! ## Stops through the combinators -/

section Stops
variable {ε ε' α β : Type} {s : Stop}

theorem Out.Returns.not_stops {x : Out ε α} (h : x.Returns) : ¬ x.Stops s := by
  cases s <;> cases x <;> simp_all [Out.Stops, Out.Returns]

theorem Out.Stops.or_returns (x : Out ε α) : x.Returns ∨ ∃ s, x.Stops s := by
  cases x with
  | ok => exact .inl trivial
  | err => exact .inl trivial
  | panic p => exact .inr ⟨.panic p, rfl⟩
  | diverge => exact .inr ⟨.hang, rfl⟩

theorem ok_stops {a : α} : (Out.ok a : Out ε α).Stops s ↔ False := by cases s <;> simp [Out.Stops]

theorem err_stops {e : ε} : (Out.err e : Out ε α).Stops s ↔ False := by cases s <;> simp [Out.Stops]

theorem panic_stops {p : PanicSite} : (Out.panic p : Out ε α).Stops s ↔ s = .panic p := by
  cases s <;> simp [Out.Stops, eq_comm]

theorem bind_stops {x : Out ε α} {f : α → Out ε β} : (x >>= f).Stops s ↔ x.Stops s ∨ ∃ a, x = .ok a ∧ (f a).Stops s := by
  cases s <;> cases x <;> simp [Out.Stops]

theorem mapErr_stops {x : Out ε α} {g : ε → ε'} : (x.mapErr g).Stops s ↔ x.Stops s := by
  cases s <;> cases x <;> simp [Out.Stops, Out.mapErr]

theorem ofOption_stops {e : ε} {o : Option α} : (Out.ofOption e o).Stops s ↔ False := by
  cases o <;> simp [ok_stops, err_stops]

theorem mapOut_stops {f : α → Out ε β} {l : List α} (h : (mapOut f l).Stops s) : ∃ a ∈ l, (f a).Stops s := by
  induction l with
  | nil => exact (ok_stops.1 h).elim
  | cons a l ih =>
    unfold mapOut at h
    rw [bind_stops] at h
    rcases h with h | ⟨_, -, h⟩
    · exact ⟨a, by simp, h⟩
    · rw [bind_stops] at h
      rcases h with h | ⟨_, -, h⟩
      · obtain ⟨b, hb, h⟩ := ih h
        exact ⟨b, by simp [hb], h⟩
      · exact (ok_stops.1 h).elim

theorem orElse_stops {o : Option α} {missing : β} {f : α → Out ε β} (h : (orElse o missing f).Stops s) :
    ∃ a, o = some a ∧ (f a).Stops s := by
  cases o with
  | none => exact (ok_stops.1 h).elim
  | some a => exact ⟨a, rfl, h⟩

end Stops

variable {s : Stop}

/-! ## Texts and names -/

theorem string_stops (pf : Profile) {r : BRecord} : (r.tryString pf 0).Stops s ↔ EmptyText pf r s := by
  unfold EmptyText
  by_cases hne : r.fields = []
  · cases pf with
    | debug => rw [(C31_empty_record r hne 0).1, panic_stops]; simp [hne]
    | release => rw [((C31_empty_record r hne 0).2.2.1 rfl).1, ok_stops]; simp
  · simp only [hne, false_and, and_false, iff_false]
    exact (C31_string_partial pf r 0 hne).1.not_stops

theorem blob_stops (pf : Profile) {r : BRecord} : (r.tryBlob pf 0).Stops s ↔ EmptyText pf r s := by
  unfold EmptyText
  by_cases hne : r.fields = []
  · cases pf with
    | debug => rw [(C31_empty_record r hne 0).2.1, panic_stops]; simp [hne]
    | release => rw [((C31_empty_record r hne 0).2.2.1 rfl).2, ok_stops]; simp
  · simp only [hne, false_and, and_false, iff_false]
    exact (C31_blob_partial pf r 0 hne).1.not_stops

theorem name_stops (pf : Profile) {t : Strtab} {fs : List U64}
    (h : (t.tryGet pf ⟨fs[0]?.getD 0, fs[1]?.getD 0⟩).Stops s) : NameOverflows t.bytes fs ∧ s = .panic (nameSite pf) := by
  obtain ⟨h1, h2⟩ := C32_overflow_panics pf t ⟨fs[0]?.getD 0, fs[1]?.getD 0⟩
  have hn : ¬ (t.tryGet pf ⟨fs[0]?.getD 0, fs[1]?.getD 0⟩).Returns := fun hr => hr.not_stops h
  obtain ⟨a, b⟩ := h1.1 hn
  rw [h2 a b, panic_stops] at h
  refine ⟨⟨a, b⟩, ?_⟩
  rw [h]
  cases pf <;> rfl

/-! ## Tables -/

theorem strtab_stops (pf : Profile) {b : UBlock} (h : (Strtab.tryFrom pf b).Stops s) :
    ∃ r, FirstWith 1 b.records r ∧ EmptyText pf r s := by
  unfold Strtab.tryFrom at h
  rw [show StrtabCode.blob.code = 1 from rfl] at h
  simp only [bind_stops, ofOption_stops, ofOption_eq_ok, mapErr_stops, ok_stops, and_false, exists_false, or_false, false_or] at h
  obtain ⟨r, hr, h⟩ := h
  exact ⟨r, (one_iff ..).1 hr, (blob_stops pf).1 h⟩

theorem symtab_stops (pf : Profile) {b : UBlock} (h : (Symtab.tryFrom pf b).Stops s) :
    ∃ r, FirstWith 1 b.records r ∧ EmptyText pf r s := by
  unfold Symtab.tryFrom at h
  rw [show SymtabCode.blob.code = 1 from rfl] at h
  simp only [bind_stops, ofOption_stops, ofOption_eq_ok, mapErr_stops, ok_stops, and_false, exists_false, or_false, false_or] at h
  obtain ⟨r, hr, h⟩ := h
  exact ⟨r, (one_iff ..).1 hr, (blob_stops pf).1 h⟩

theorem identification_stops (pf : Profile) {b : UBlock} (h : (Identification.tryFrom pf b).Stops s) :
    ∃ r, FirstWith 1 b.records r ∧ EmptyText pf r s := by
  unfold Identification.tryFrom at h
  rw [show IdentificationCode.producerString.code = 1 from rfl] at h
  simp only [bind_stops, ofOption_stops, ofOption_eq_ok, mapErr_stops, ok_stops, and_false, exists_false, or_false, false_or] at h
  obtain ⟨r, hr, h⟩ := h
  exact ⟨r, (one_iff ..).1 hr, (string_stops pf).1 h⟩

/-! ## Types -/

theorem typeStep_stops (pf : Profile) {st : TypeTableState} {r : BRecord} :
    (typeStep pf st r).Stops s ↔ r.code = 19 ∧ EmptyText pf r s := by
  constructor
  · intro h
    unfold typeStep at h
    simp only [bind_stops, ofOption_stops, false_or] at h
    obtain ⟨c, hc, h⟩ := h
    have hcode : r.code = c.code := (tryFromPrimitive_iff.1 ((ofOption_eq_ok).1 hc)).symm
    have hno : ∀ {n}, ¬ (typeField r n).Stops s := fun h => ofOption_stops.1 h
    cases c <;> dsimp only at h
    case structName =>
      simp only [bind_stops, mapErr_stops, ok_stops, and_false, exists_false, or_false] at h
      exact ⟨hcode, (string_stops pf).1 h⟩
    case structNamed =>
      unfold stepStructNamed at h
      simp only [bind_stops, hno, false_or] at h
      obtain ⟨_, -, h⟩ := h
      split at h
      · split at h
        · exact (err_stops.1 h).elim
        · exact (ok_stops.1 h).elim
      · exact (ok_stops.1 h).elim
    case «opaque» =>
      unfold stepOpaque at h
      split at h
      · exact (err_stops.1 h).elim
      · split at h
        · exact (err_stops.1 h).elim
        · exact (ok_stops.1 h).elim
        · exact (ok_stops.1 h).elim
    all_goals
      have hasp : ∀ a, ¬ (AddressSpace.tryFromU64 a).Stops s := by
        intro a h
        refine absurd h (Out.Returns.not_stops ?_)
        unfold AddressSpace.tryFromU64
        split <;> trivial
      simp only [bind_stops, mapErr_stops, hno, hasp, ok_stops, err_stops, and_false, exists_false, or_false] at h
  · rintro ⟨hc, h⟩
    unfold typeStep
    rw [typeCode_eq hc (c := .structName) (by decide), Out.ofOption_some, Out.ok_bind]
    dsimp only
    rw [bind_stops, mapErr_stops, string_stops]
    exact .inl h

theorem foldlM_stops {ε α β : Type} {f : β → α → Out ε β} {l : List α} {b : β} : (l.foldlM f b).Stops s ↔
    ∃ pre a post c, l = pre ++ a :: post ∧ pre.foldlM f b = .ok c ∧ (f c a).Stops s := by
  induction l generalizing b with
  | nil =>
    simp only [List.nil_eq, List.append_eq_nil_iff, reduceCtorEq, and_false, false_and, exists_false, iff_false]
    exact fun h => ok_stops.1 h
  | cons x l ih =>
    rw [List.foldlM_cons, bind_stops]
    constructor
    · rintro (h | ⟨c, h, h'⟩)
      · exact ⟨[], x, l, b, rfl, rfl, h⟩
      · obtain ⟨pre, a, post, d, rfl, h1, h2⟩ := ih.1 h'
        exact ⟨x :: pre, a, post, d, rfl, by rw [List.foldlM_cons, h, Out.ok_bind, h1], h2⟩
    · rintro ⟨pre, a, post, d, he, h1, h2⟩
      cases pre with
      | nil =>
        obtain ⟨rfl, rfl⟩ := List.cons.inj he
        cases h1
        exact .inl h2
      | cons y pre =>
        obtain ⟨rfl, rfl⟩ := List.cons.inj he
        rw [List.foldlM_cons, Out.bind_eq_ok] at h1
        obtain ⟨c, hc, h1⟩ := h1
        exact .inr ⟨c, hc, ih.2 ⟨pre, a, post, d, rfl, h1, h2⟩⟩

/-- A list is gone through up to the first element that stops. -/
theorem mapOut_stops_iff {ε α β : Type} {f : α → Out ε β} {l : List α} : (mapOut f l).Stops s ↔
    ∃ pre a post, l = pre ++ a :: post ∧ (∀ x ∈ pre, ∃ y, f x = .ok y) ∧ (f a).Stops s := by
  induction l with
  | nil => simp [mapOut, ok_stops]
  | cons x l ih =>
    simp only [mapOut, bind_stops, ok_stops, and_false, exists_false, or_false]
    constructor
    · rintro (h | ⟨y, h, h'⟩)
      · exact ⟨[], x, l, rfl, by simp, h⟩
      · obtain ⟨pre, a, post, rfl, h1, h2⟩ := ih.1 h'
        exact ⟨x :: pre, a, post, rfl, List.forall_mem_cons.2 ⟨⟨y, h⟩, h1⟩, h2⟩
    · rintro ⟨pre, a, post, he, h1, h2⟩
      cases pre with
      | nil =>
        obtain ⟨rfl, rfl⟩ := List.cons.inj he
        exact .inl h2
      | cons z pre =>
        obtain ⟨rfl, rfl⟩ := List.cons.inj he
        obtain ⟨⟨y, hy⟩, h1⟩ := List.forall_mem_cons.1 h1
        exact .inr ⟨y, hy, ih.2 ⟨pre, a, post, rfl, h1, h2⟩⟩

section
variable {table : List PType}

theorem resolve_stops {f : TypeRef → Out TypeTableError Ty} {p : PType} : (p.resolve f).Stops s ↔
    ∃ pre a post, p.refs = pre ++ a :: post ∧ (∀ x ∈ pre, ∃ t, f x = .ok t) ∧ (f a).Stops s := by
  rw [resolve_eq, bind_stops, mapOut_stops_iff]
  refine ⟨fun h => h.resolve_right ?_, .inl⟩
  rintro ⟨ts, -, h⟩
  rw [mapErr_stops] at h
  exact (build_returns p ts).not_stops h

theorem resolveRef_no_panic (n : Nat) (r : TypeRef) (p : PanicSite) : resolveRef table n r ≠ .panic p := by
  induction n generalizing r with
  | zero => intro h; cases h
  | succ n ih =>
    intro h
    unfold resolveRef at h
    split at h
    · obtain ⟨_, a, _, -, -, h⟩ := (resolve_stops (s := .panic p)).1 h
      exact ih a h
    · cases h

theorem entry_no_panic (p : PType) (q : PanicSite) : ¬ (p.resolve (follow table)).Stops (.panic q) := by
  rw [resolve_stops]
  rintro ⟨_, a, _, -, -, h⟩
  exact resolveRef_no_panic _ a q h

/-- Following the references of an entry never ends exactly if they lead into a loop. -/
theorem entry_hangs {i : Nat} {p : PType} (hp : table[i]? = some p) :
    p.resolve (follow table) = .diverge ↔ Endless (table.map PType.toDecl) i := by
  constructor
  · intro h
    refine ⟨fun i => ∃ p, table[i]? = some p ∧ p.resolve (follow table) = .diverge, ?_, p, hp, h⟩
    rintro i ⟨p, hp, h⟩
    obtain ⟨pre, a, post, he, h1, h2⟩ := (resolve_stops (s := .hang)).1 h
    refine ⟨p.toDecl, pre.map (·.toNat), a.toNat, post.map (·.toNat), by rw [List.getElem?_map, hp]; rfl,
      by rw [PType.toDecl_refs, he, List.map_append, List.map_cons], ?_, fun k hk => ?_⟩
    · have h2 : follow table a = .diverge := h2
      rw [follow_eq] at h2
      split at h2
      · next q hq => exact ⟨q, hq, h2⟩
      · cases h2
    · obtain ⟨x, hx, rfl⟩ := List.mem_map.1 hk
      exact follow_sound.1 (h1 x hx)
  · rintro ⟨S, hS, hi⟩
    exact resolve_loop hS _ hi hp fun r hr => resolveRef_loop hS _ r hr

theorem reifyTypes_stops {n : Nat} : (reifyTypes n table).Stops s ↔ s = .hang ∧ table.length = n ∧
    ∃ i < table.length, (∀ k < i, Sound (table.map PType.toDecl) k) ∧ Endless (table.map PType.toDecl) i := by
  unfold reifyTypes
  by_cases hn : table.length = n
  · subst hn
    rw [if_neg (by simp), mapOut_stops_iff]
    rw [split_iff (P := fun (pre : List PType) a => (∀ p ∈ pre, ∃ t, p.resolve (follow table) = .ok t) ∧
      (a.resolve (follow table)).Stops s)]
    constructor
    · rintro ⟨i, p, hp, h1, h2⟩
      have hi := (List.getElem?_eq_some_iff.1 hp).1
      cases s with
      | panic q => exact absurd h2 (entry_no_panic p q)
      | hang => exact ⟨rfl, rfl, i, hi, (take_sound (by omega)).1 h1, (entry_hangs hp).1 h2⟩
    · rintro ⟨rfl, -, i, hi, h1, h2⟩
      have hp := List.getElem?_eq_getElem hi
      exact ⟨i, _, hp, (take_sound (by omega)).2 h1, (entry_hangs hp).2 h2⟩
  · rw [if_pos hn, err_stops]
    simp [hn]

end

/-- C56, for type tables: mapping one ends without a result exactly for these reasons. -/
theorem C56_types (pf : Profile) (b : UBlock) (s : Stop) : (TypeTable.tryFrom pf b).Stops s ↔ TypesStop pf b.records s := by
  rcases types_cases pf b with ⟨h, he⟩ | ⟨n, hn, hcap, he⟩ | ⟨n, hn, hcap⟩
  · rw [he, err_stops, false_iff]
    intro h'
    cases h' with
    | capacity h1 => exact h _ h1
    | name h1 => exact h _ h1
    | circle h1 => obtain ⟨n, _, h1, -⟩ := h1; exact h _ h1
  · rw [he, panic_stops]
    constructor
    · rintro rfl; exact .capacity hn hcap
    · intro h'
      cases h' with
      | capacity _ _ => rfl
      | name h1 h2 => rw [h1.unique hn] at h2; omega
      | circle h1 => obtain ⟨n, _, h1, h2, -⟩ := h1; rw [h1.unique hn] at h2; omega
  · rw [tryFrom_counted pf b hn hcap, bind_stops, foldlM_stops]
    constructor
    · rintro (⟨pre, r, post, st, he, h1, h2⟩ | ⟨st, h1, h2⟩)
      · obtain ⟨hc, h2⟩ := (typeStep_stops pf).1 h2
        exact .name hn hcap he (builds_of_foldl pf _ _ _ h1) hc h2
      · obtain ⟨rfl, hl, i, hi, h3, h4⟩ := reifyTypes_stops.1 h2
        exact .circle ⟨n, _, hn, hcap, builds_of_foldl pf _ _ _ h1, by simpa using hl⟩ (by simpa using hi) h3 h4
    · intro h
      cases h with
      | capacity h1 h2 => rw [h1.unique hn] at h2; omega
      | name _ _ he hb hc ht =>
        obtain ⟨st, h1, rfl, rfl⟩ := (builds_iff pf).1 hb
        exact .inl ⟨_, _, _, st, he, h1, (typeStep_stops pf).2 ⟨hc, ht⟩⟩
      | circle hd hi h3 h4 =>
        obtain ⟨m, nm, h1, -, hb, hl⟩ := hd
        obtain ⟨st, h2, rfl, rfl⟩ := (builds_iff pf).1 hb
        rw [h1.unique hn, List.length_map] at hl
        exact .inr ⟨st, h2, reifyTypes_stops.2 ⟨rfl, hl, _, by simpa using hi, h3, h4⟩⟩

/-! ### Which records lead to circles -/

theorem declared_snoc {rs : List BRecord} {r : BRecord} (hr : r.code.toNat ∉ [1, 19]) : declared (rs ++ [r]) = declared rs + 1 := by
  unfold declared
  rw [List.filter_append, List.length_append, List.filter_cons_of_pos (by simpa using hr)]; rfl

theorem declared_skip {rs : List BRecord} {r : BRecord} (hr : r.code.toNat ∈ [1, 19]) : declared (rs ++ [r]) = declared rs := by
  unfold declared
  rw [List.filter_append, List.length_append, List.filter_cons_of_neg (by simp only [hr, not_true, decide_false]; simp)]; rfl

theorem afterStruct_skip {rs : List BRecord} {r : BRecord} (h : AfterStruct rs) (hr : r.code.toNat ∈ [1, 19]) :
    AfterStruct (rs ++ [r]) := by
  obtain ⟨pre, x, post, rfl, h1, h2⟩ := h
  refine ⟨pre, x, post ++ [r], by simp, h1, fun y hy => ?_⟩
  rcases List.mem_append.1 hy with hy | hy
  · exact h2 y hy
  · simp only [List.mem_cons, List.not_mem_nil, or_false] at hy
    subst hy; exact hr

theorem afterStruct_new {rs : List BRecord} {r : BRecord} (hr : r.code.toNat ∈ [6, 18, 20]) : AfterStruct (rs ++ [r]) :=
  ⟨rs, r, [], rfl, hr, by simp⟩

/-- One entry for each record that declares a type, with references to earlier entries only. -/
structure Tidy (rs : List BRecord) (ds : List TyDecl) : Prop where
  length : ds.length = declared rs
  last : ∀ d, ds.getLast? = some d → d.IsStruct → AfterStruct rs
  refs : ∀ (i : Nat) (d : TyDecl), ds[i]? = some d → ∀ j ∈ d.refs, j < i

theorem Tidy.skip {rs : List BRecord} {ds : List TyDecl} (h : Tidy rs ds) {r : BRecord} (hr : r.code.toNat ∈ [1, 19]) :
    Tidy (rs ++ [r]) ds :=
  ⟨by rw [declared_skip hr]; exact h.length, fun d hd hs => afterStruct_skip (h.last d hd hs) hr, h.refs⟩

theorem Tidy.add {rs post : List BRecord} {ds : List TyDecl} (h : Tidy rs ds) {r : BRecord} {d : TyDecl}
    (hf : ¬ RefersForward (rs ++ r :: post)) (hr : r.code.toNat ∉ [1, 19])
    (hd : ∀ j ∈ d.refs, ∃ f ∈ references r, f.toNat = j) (hs : d.IsStruct → r.code.toNat ∈ [6, 18, 20]) :
    Tidy (rs ++ [r]) (ds ++ [d]) := by
  refine ⟨by rw [declared_snoc hr]; simp [h.length], fun x hx hxs => ?_, fun i x hx j hj => ?_⟩
  · simp only [List.getLast?_concat, Option.some.injEq] at hx
    subst hx
    exact afterStruct_new (hs hxs)
  · rw [List.getElem?_append] at hx
    split at hx
    · exact h.refs i x hx j hj
    · next hlen =>
      have h0 : i - ds.length = 0 := by
        have := (List.getElem?_eq_some_iff.1 hx).1
        simpa using this
      rw [h0] at hx
      simp only [List.getElem?_cons_zero, Option.some.injEq] at hx
      subst hx
      obtain ⟨f, hfr, rfl⟩ := hd j hj
      have : ¬ declared rs ≤ f.toNat := fun hc => hf ⟨rs, r, post, f, rfl, hfr, hc⟩
      have := h.length
      omega

theorem Spec.Adds.refs {r : BRecord} {d : TyDecl} (h : Adds r d) : r.code.toNat ∉ [1, 19] ∧
    (∀ j ∈ d.refs, ∃ f ∈ references r, f.toNat = j) ∧ (d.IsStruct → r.code.toNat ∈ [6, 18, 20]) := by
  cases h with
  | says h =>
    cases h with
    | prim h =>
      refine ⟨fun hc => ?_, by simp [TyDecl.refs], ?_⟩
      · have : ∀ x ∈ primCodes, x.1 ∉ [1, 19] := by decide
        exact this _ h hc
      · rintro ⟨_, _, _, h⟩; cases h
    | integer h =>
      refine ⟨by rw [h]; decide, by simp [TyDecl.refs], ?_⟩
      rintro ⟨_, _, _, h⟩; cases h
    | pointer h hf =>
      refine ⟨by rw [h]; decide, fun j hj => ?_, ?_⟩
      · simp only [TyDecl.refs, List.mem_cons, List.not_mem_nil, or_false] at hj
        exact ⟨_, by simp [references, h, hf], hj.symm⟩
      · rintro ⟨_, _, _, h⟩; cases h
    | opaquePointer h =>
      refine ⟨by rw [h]; decide, by simp [TyDecl.refs], ?_⟩
      rintro ⟨_, _, _, h⟩; cases h
    | array h hf =>
      refine ⟨by rw [h]; decide, fun j hj => ?_, ?_⟩
      · simp only [TyDecl.refs, List.mem_cons, List.not_mem_nil, or_false] at hj
        exact ⟨_, by simp [references, h, hf], hj.symm⟩
      · rintro ⟨_, _, _, h⟩; cases h
    | fixedVector h hf =>
      refine ⟨by rw [h]; decide, fun j hj => ?_, ?_⟩
      · simp only [TyDecl.refs, List.mem_cons, List.not_mem_nil, or_false] at hj
        exact ⟨_, by simp [references, h, hf], hj.symm⟩
      · rintro ⟨_, _, _, h⟩; cases h
    | scalableVector h hf =>
      refine ⟨by rw [h]; decide, fun j hj => ?_, ?_⟩
      · simp only [TyDecl.refs, List.mem_cons, List.not_mem_nil, or_false] at hj
        exact ⟨_, by simp [references, h, hf], hj.symm⟩
      · rintro ⟨_, _, _, h⟩; cases h
    | structAnon h hf =>
      refine ⟨by rw [h]; decide, fun j hj => ?_, fun _ => by rw [h]; decide⟩
      obtain ⟨f, hf', rfl⟩ := List.mem_map.1 hj
      exact ⟨f, by simp [references, h, hf, hf'], rfl⟩
    | function h hf =>
      refine ⟨by rw [h]; decide, fun j hj => ?_, ?_⟩
      · simp only [TyDecl.refs, List.mem_cons, List.mem_map] at hj
        rcases hj with rfl | ⟨f, hf', rfl⟩
        · exact ⟨_, by simp [references, h, hf], rfl⟩
        · exact ⟨f, by simp [references, h, hf, hf'], rfl⟩
      · rintro ⟨_, _, _, h⟩; cases h
  | wide h =>
    refine ⟨by rw [h]; decide, by simp [TyDecl.refs], ?_⟩
    rintro ⟨_, _, _, h⟩; cases h

theorem Spec.Builds.tidy {pf : Profile} {ds out : List TyDecl} {nm nm' : Str} {rs : List BRecord} (h : Builds pf ds nm rs out nm')
    (pre : List BRecord) (hf : ¬ RefersForward (pre ++ rs)) (ha : ¬ AdjacentStructs (pre ++ rs)) (ht : Tidy pre ds) :
    Tidy (pre ++ rs) out := by
  induction h generalizing pre with
  | nil => simpa using ht
  | @count _ _ _ _ r _ hc _ ih =>
    have := ih (pre ++ [r]) (by simpa using hf) (by simpa using ha) (ht.skip (by rw [hc]; decide))
    simpa using this
  | @single _ _ _ _ r _ _ hd _ ih =>
    obtain ⟨h1, h2, h3⟩ := hd.refs
    have := ih (pre ++ [r]) (by simpa using hf) (by simpa using ha) (ht.add hf h1 h2 h3)
    simpa using this
  | @name _ _ _ _ _ r _ hc _ _ ih =>
    have := ih (pre ++ [r]) (by simpa using hf) (by simpa using ha) (ht.skip (by rw [hc]; decide))
    simpa using this
  | @named _ _ _ _ r _ _ _ hc hfs _ _ ih =>
    have := ih (pre ++ [r]) (by simpa using hf) (by simpa using ha) (ht.add hf (by rw [hc]; decide) (fun j hj => by
      obtain ⟨f, hf', rfl⟩ := List.mem_map.1 hj
      exact ⟨f, by simp [references, hc, hfs, hf'], rfl⟩) fun _ => by rw [hc]; decide)
    simpa using this
  | @opaqueStruct _ _ _ _ r _ hc _ _ _ ih =>
    have := ih (pre ++ [r]) (by simpa using hf) (by simpa using ha) (ht.add hf (by rw [hc]; decide) (by simp [TyDecl.refs])
      fun _ => by rw [hc]; decide)
    simpa using this
  | namedOver hc _ _ _ =>
    exact absurd ⟨pre, _, _, rfl, by rw [hc]; decide, ht.last _ List.getLast?_concat ⟨_, _, _, rfl⟩⟩ ha
  | opaqueOver hc _ _ _ =>
    exact absurd ⟨pre, _, _, rfl, by rw [hc]; decide, ht.last _ List.getLast?_concat ⟨_, _, _, rfl⟩⟩ ha

/-- C56. Records that refer back only, with no named structure right after another, never make the mapper run forever. -/
theorem C56_types_terminate (pf : Profile) (b : UBlock) (hf : ¬ RefersForward b.records) (ha : ¬ AdjacentStructs b.records) :
    TypeTable.tryFrom pf b ≠ .diverge := by
  intro h
  have h := (C56_types pf b .hang).1 h
  cases h with
  | name _ _ _ _ _ ht => cases ht.2.2
  | @circle ds i hd hi _ h =>
    obtain ⟨_, _, -, -, hb, -⟩ := hd
    have ht := hb.tidy [] hf ha ⟨rfl, by simp, by simp⟩
    obtain ⟨S, hS, hi⟩ := h
    have : ∀ n, ¬ S n := by
      intro n
      induction n using Nat.strongRecOn with
      | ind n ih =>
        intro hn
        obtain ⟨d, pre, j, post, h1, h2, h3, -⟩ := hS n hn
        exact ih j (ht.refs n d h1 j (by rw [h2]; simp)) h3
    exact this i hi

/-! ## Function bodies -/

/-- C56, for function bodies. -/
theorem C56_body (b : UBlock) (types : TypeTable) (s : Stop) (h : (FunctionBlock.tryFrom b types).Stops s) :
    BodyStop types b.records s := by
  rcases tryFrom_cases b types with ⟨n, hn, heq⟩ | ⟨-, e, heq⟩
  · rw [heq] at h
    unfold blockCapacity basicBlockSize at h
    split at h
    · next hcap =>
      simp only [Out.ok_bind] at h
      rcases functionLoop_cases types b.records with ⟨h1, h2⟩ | ⟨pre, r, post, he, hpre, -, ⟨h1, h2⟩ | ⟨⟨e, h1⟩, -⟩⟩
      · rw [h1, Out.ok_bind, panic_stops] at h
        subst h
        exact .ending hn hcap h2
      · rw [h1, Out.panic_bind, panic_stops] at h
        subst h
        exact .record hn hcap he hpre h2
      · rw [h1, Out.err_bind, err_stops] at h
        exact h.elim
    · rw [Out.panic_bind, panic_stops] at h
      subst h
      exact .capacity hn (by omega)
  · rw [heq, err_stops] at h
    exact h.elim

/-! ## Records of a module -/

theorem Comdat.stops (pf : Profile) {r : BRecord} {ctx : PartialMapCtx} {v : U64} (hver : ctx.version = some v)
    (h : (Comdat.tryMap pf r ctx).Stops s) :
    2 ≤ v.toNat ∧ r.fields.length = 3 ∧ NameOverflows ctx.strtab.bytes r.fields ∧ s = .panic (nameSite pf) := by
  have hno : ¬ (Comdat.tryMap pf r ctx).Returns := fun hr => hr.not_stops h
  rw [C49_comdat_returns_partial pf r ctx v hver, Classical.not_not] at hno
  obtain ⟨hv, hl, ho⟩ := hno
  rw [Comdat.tryMap_eq pf r ctx v hver hv hl] at h
  simp only [bind_stops, mapErr_stops, ofOption_stops, ok_stops, and_false, exists_false, or_false] at h
  exact ⟨hv, hl, name_stops pf h⟩

theorem FunctionRecord.stops (pf : Profile) {r : BRecord} {ctx : MapCtx} (h : (FunctionRecord.tryMap pf r ctx).Stops s) :
    2 ≤ ctx.version.toNat ∧ 10 ≤ r.fields.length ∧ NameOverflows ctx.strtab.bytes r.fields ∧ s = .panic (nameSite pf) := by
  have hno : ¬ (FunctionRecord.tryMap pf r ctx).Returns := fun hr => hr.not_stops h
  rw [C49_function_returns_partial pf r ctx, Classical.not_not] at hno
  obtain ⟨hv, hl, ho⟩ := hno
  refine ⟨hv, hl, ho, ?_⟩
  rw [FunctionRecord.tryMap_eq pf r ctx hv hl, bind_stops, mapErr_stops] at h
  rcases h with h | ⟨n, hn, -⟩
  · exact (name_stops pf h).2
  · rw [Out.mapErr_eq_ok] at hn
    have := (tryGet_returns_iff pf ctx.strtab (r.fields[0]?.getD 0) (r.fields[1]?.getD 0)).1 (by rw [hn]; trivial)
    exact absurd ho this

theorem Alias.stops (pf : Profile) {r : BRecord} {ctx : MapCtx} (h : (Alias.tryMap pf r ctx).Stops s) :
    2 ≤ ctx.version.toNat ∧ 5 ≤ r.fields.length ∧ NameOverflows ctx.strtab.bytes r.fields ∧ s = .panic (nameSite pf) := by
  have hno : ¬ (Alias.tryMap pf r ctx).Returns := fun hr => hr.not_stops h
  rw [C49_alias_returns_partial pf r ctx, Classical.not_not] at hno
  obtain ⟨hv, hl, ho⟩ := hno
  refine ⟨hv, hl, ho, ?_⟩
  rw [Alias.tryMap_eq pf r ctx hv hl, bind_stops, mapErr_stops] at h
  rcases h with h | ⟨n, hn, -⟩
  · exact (name_stops pf h).2
  · rw [Out.mapErr_eq_ok] at hn
    have := (tryGet_returns_iff pf ctx.strtab (r.fields[0]?.getD 0) (r.fields[1]?.getD 0)).1 (by rw [hn]; trivial)
    exact absurd ho this

theorem moduleStrings_stops (pf : Profile) {rs : List BRecord} {code : ModuleCode} (h : (moduleStrings pf rs code).Stops s) :
    ∃ r ∈ rs, r.code = code.code ∧ EmptyText pf r s := by
  unfold moduleStrings at h
  rw [mapErr_stops] at h
  obtain ⟨r, hm, h⟩ := mapOut_stops h
  unfold Records.byCode at hm
  rw [List.mem_filter] at hm
  exact ⟨r, hm.1, by simpa using hm.2, (string_stops pf).1 h⟩

theorem inconsistent_exactlyOne_stops {rs : List BRecord} {code : U64} :
    (inconsistent (Records.exactlyOne rs code)).Stops s ↔ False := by
  unfold inconsistent Records.exactlyOne
  rw [mapErr_stops]
  split <;> simp [ok_stops, err_stops]

theorem inconsistent_oneOrNone_stops {rs : List BRecord} {code : U64} :
    (inconsistent (Records.oneOrNone rs code)).Stops s ↔ False := by
  unfold inconsistent Records.oneOrNone
  rw [mapErr_stops]
  split <;> simp [ok_stops, err_stops]

theorem inconsistent_blocks_stops {bs : Blocks} {id : BlockId} :
    ((inconsistent (Blocks.exactlyOne bs id)).Stops s ↔ False) ∧ ((inconsistent (Blocks.oneOrNone bs id)).Stops s ↔ False) := by
  unfold inconsistent Blocks.exactlyOne Blocks.oneOrNone
  rw [mapErr_stops, mapErr_stops]
  constructor <;> split <;> simp [ok_stops, err_stops]

theorem fill_stops (pf : Profile) {id : U64} {t : Forest} {u : UBlock} (hu : Unrolled id t u) (strtab : Strtab)
    (h : (Module.fill pf u { PartialMapCtx.default with strtab }).Stops s) : ModuleStop pf strtab t s := by
  have hr : u.records = t.records := by obtain ⟨-, h, -, -⟩ := hu; exact h
  unfold Module.fill at h
  simp only [bind_stops, inconsistent_oneOrNone_stops, inconsistent_blocks_stops, mapErr_stops, ok_stops, and_false, exists_false,
    false_or, or_false] at h
  rcases h with h | ⟨v, hv, o, ho, h⟩
  · unfold moduleVersion at h
    simp only [bind_stops, inconsistent_exactlyOne_stops, ofOption_stops, and_false, exists_false, or_false] at h
  rw [moduleVersion_iff, hr] at hv
  obtain ⟨vr, vrest, hvr, hvf⟩ := hv
  rcases h with h | ⟨d, -, h⟩
  · obtain ⟨r, rfl, h'⟩ := orElse_stops h
    clear h
    have h := h'
    rw [hr] at ho
    have hm := withCode_mem (k := 3) (rs := t.records) (r := r) (by rw [show withCode t.records 3 = [r] from oneOrNone_some ho]; simp)
    rw [mapErr_stops] at h
    unfold DataLayout.tryMap at h
    rw [bind_stops, mapErr_stops] at h
    rcases h with h | ⟨x, -, h⟩
    · exact .text hm.1 (by rw [hm.2]; decide) ((string_stops pf).1 h)
    · exact absurd h (Props.C37_returns x).not_stops
  rcases h with h | ⟨ss, -, h⟩
  · obtain ⟨r, h1, h2, h3⟩ := moduleStrings_stops pf h
    exact .text (hr ▸ h1) (by rw [h2]; decide) h3
  rcases h with h | ⟨gs, -, tb, htb, h⟩
  · obtain ⟨r, h1, h2, h3⟩ := moduleStrings_stops pf h
    exact .text (hr ▸ h1) (by rw [h2]; decide) h3
  rcases h with h | ⟨ts, -, vb, -, o2, ho2, h⟩
  · obtain ⟨c, h1, h2⟩ := blocks_exactlyOne_ok hu 17 htb
    have h : (TypeTable.tryFrom pf (.mk (.ir .type) c.2.records [])).Stops s := by rw [← h2]; exact h
    exact .types h1 ((C56_types pf _ _).1 h)
  rcases h with h | ⟨g, -, o3, ho3, h⟩
  · obtain ⟨v, rfl, h'⟩ := orElse_stops h
    clear h
    have h := h'
    rw [mapErr_stops] at h
    obtain ⟨c, h1, h2⟩ := blocks_oneOrNone_some hu 10 ho2
    cases s with
    | hang => exact absurd h (C44_groups_terminates v)
    | panic p =>
      obtain ⟨rfl, pre, r, post, he, hpre, hcut⟩ := (C44_groups_panic_iff v p).1 h
      exact .groups h1 (h2 ▸ he) hpre hcut
  rcases h with h | ⟨as, -, h⟩
  · obtain ⟨v, rfl, h'⟩ := orElse_stops h
    clear h
    have h := h'
    rw [mapErr_stops] at h
    obtain ⟨c, h1, h2⟩ := blocks_oneOrNone_some hu 9 ho3
    have hold : ∃ r ∈ v.records, r.code = 1 := Classical.byContradiction fun hno =>
      (C44_lists_return_partial v g fun r hr hc => hno ⟨r, hr, hc⟩).not_stops h
    obtain ⟨r, hr1, hr2⟩ := hold
    cases s with
    | hang =>
      unfold Attributes.tryFrom at h
      obtain ⟨x, -, h⟩ := mapOut_stops h
      by_cases hx : x.code = 1
      · rw [attrsStep_old g x hx] at h; cases h
      · exact absurd h (attrsStep_returns g x hx).not_stops
    | panic p =>
      obtain ⟨rfl, -⟩ := (C44_lists_panic_iff v g p).1 h
      exact .attributes h1 (h2 ▸ hr1) hr2
  obtain ⟨r, hm, h⟩ := mapOut_stops h
  rw [byCode_withCode, hr] at hm
  obtain ⟨hm, hk⟩ := withCode_mem hm
  obtain ⟨h1, h2, h3, rfl⟩ := Comdat.stops pf rfl h
  exact .comdat hvr hvf h1 hm (code_of_toNat hk) h2 h3

/-- C56, for modules: whatever panic or endless recursion mapping a module block ends in, the block has the listed cause
for it. -/
theorem C56_module (pf : Profile) (target : Str) {id : U64} {t : Forest} {u : UBlock} (hu : Unrolled id t u)
    (strtab : Strtab) (hs : strtab.bytes.length < 2 ^ 64) (s : Stop)
    (h : (Module.tryFrom pf target u { PartialMapCtx.default with strtab }).Stops s) : ModuleStop pf strtab t s := by
  have hr : u.records = t.records := by obtain ⟨-, h, -, -⟩ := hu; exact h
  unfold Module.tryFrom Module.tryFromFull at h
  simp only [bind_stops, mapErr_stops, ok_stops, and_false, exists_false, or_false] at h
  rcases h with h | ⟨c, hc, h | ⟨ctx, hctx, h⟩⟩
  · exact fill_stops pf hu strtab h
  · exfalso
    unfold Module.fill at hc
    simp only [Out.bind_eq_ok, Out.ok.injEq] at hc
    obtain ⟨v, -, o, -, d, -, ss, -, gs, -, tb, -, ts, -, vb, -, o2, -, g, -, o3, -, as, -, cs, -, rfl⟩ := hc
    exact ok_stops.1 h
  rw [Out.mapErr_eq_ok] at hctx
  have htab := (fill_iff pf hu strtab hs ctx).1 ⟨c, hc, hctx⟩
  have hst := htab.strtab
  unfold Module.finish at h
  rw [hr] at h
  simp only [bind_stops, inconsistent_oneOrNone_stops, mapErr_stops, ok_stops, and_false, exists_false, false_or, or_false] at h
  obtain ⟨o, ho, h⟩ := h
  rcases h with h | ⟨tr, -, o2, ho2, h⟩
  · obtain ⟨r, rfl, h'⟩ := orElse_stops h
    clear h
    have h := h'
    have hm := withCode_mem (k := 2) (rs := t.records) (r := r) (by rw [show withCode t.records 2 = [r] from oneOrNone_some ho]; simp)
    rw [mapErr_stops] at h
    exact .text hm.1 (by rw [hm.2]; decide) ((string_stops pf).1 h)
  rcases h with h | ⟨asm, -, h⟩
  · obtain ⟨r, rfl, h'⟩ := orElse_stops h
    clear h
    have h := h'
    have hm := withCode_mem (k := 4) (rs := t.records) (r := r) (by rw [show withCode t.records 4 = [r] from oneOrNone_some ho2]; simp)
    simp only [bind_stops, mapErr_stops, ok_stops, and_false, exists_false, or_false] at h
    exact .text hm.1 (by rw [hm.2]; decide) ((string_stops pf).1 h)
  rcases h with h | ⟨dl, -, h⟩
  · obtain ⟨r, h1, h2, h3⟩ := moduleStrings_stops pf h
    exact .text h1 (by rw [h2]; decide) h3
  rcases h with h | ⟨fs, -, h⟩
  · obtain ⟨r, hm, h⟩ := mapOut_stops h
    rw [byCode_withCode] at hm
    obtain ⟨hm, hk⟩ := withCode_mem hm
    obtain ⟨h1, h2, h3, rfl⟩ := FunctionRecord.stops pf h
    exact .function htab h1 hm (code_of_toNat hk) h2 (hst ▸ h3)
  rcases h with h | ⟨bs, -, h⟩
  · obtain ⟨v, hv, h⟩ := mapOut_stops h
    obtain ⟨c, hc, hv⟩ := byId_mem hu 12 (v := v) hv
    exact .body htab hc (hv ▸ C56_body _ _ _ h)
  obtain ⟨r, hm, h⟩ := mapOut_stops h
  rw [byCode_withCode] at hm
  obtain ⟨hm, hk⟩ := withCode_mem hm
  obtain ⟨h1, h2, h3, rfl⟩ := Alias.stops pf h
  exact .alias htab h1 hm (code_of_toNat hk) h2 (hst ▸ h3)

/-! ## Files -/

theorem reify_stops (pf : Profile) (target : Str) {bytes : List U8} {tops : List (BBlock × Forest)}
    (hb : Begins pf bytes tops [] .done) {p : Parts (BBlock × Forest)} (hp : p ∈ parts tops) {q : PartialModule}
    (hi : StandsFor p.identification q.identification) (hm : OptEach StandsFor p.module q.module)
    (hst : OptEach StandsFor p.strtab q.strtab) (hsy : OptEach StandsFor p.symtab q.symtab)
    (hmem : ∀ c bs, p.strtab = some c → TableSays pf c.2.records bs → bs.length < 2 ^ 64)
    (h : (q.reify pf target).Stops s) : FileStop pf bytes s := by
  unfold PartialModule.reify at h
  simp only [bind_stops, ofOption_stops, ofOption_eq_ok, mapErr_stops, ok_stops, and_false, exists_false, false_or, or_false] at h
  obtain ⟨sb, hsb, h⟩ := h
  rw [hsb] at hst
  obtain ⟨c, hc, hcs⟩ := optEach_some hst
  rcases h with h | ⟨st, hst', h⟩
  · obtain ⟨r, h1, h2⟩ := strtab_stops pf h
    exact .table hb hp (.inl hc) (hcs.records ▸ h1) h2
  rw [Out.mapErr_eq_ok, strtab_says pf hcs] at hst'
  rcases h with h | ⟨i, -, mb, hmb, h⟩
  · obtain ⟨r, h1, h2⟩ := identification_stops pf h
    exact .identification hb hp (hi.records ▸ h1) h2
  rw [hmb] at hm
  obtain ⟨d, hd, hds⟩ := optEach_some hm
  rcases h with h | ⟨m, -, h⟩
  · exact .inModule hb hp hc hst' hd (C56_module pf target hds st (hmem c _ hc hst') _ h)
  cases hq : q.symtab with
  | none => rw [hq] at h; exact (ok_stops.1 h).elim
  | some sy =>
    rw [hq] at h hsy
    obtain ⟨x, hx, hxs⟩ := optEach_some hsy
    simp only [optSymtab, bind_stops, ok_stops, and_false, exists_false, or_false] at h
    obtain ⟨r, h1, h2⟩ := symtab_stops pf h
    exact .table hb hp (.inr hx) (hxs.records ▸ h1) h2

theorem reach_iterate (pf : Profile) {b b₁ : Bitstream} {l : List Bitstream.Next} (n : Nat) (h : Reach pf b)
    (hit : iterate pf n b = (l, b₁)) : Reach pf b₁ := by
  induction n generalizing b l with
  | zero => cases hit; exact h
  | succ n ih =>
    unfold iterate at hit
    cases hit
    exact ih h.next rfl

theorem from_terminates (pf : Profile) (bytes : List U8) : Bitstream.from pf bytes ≠ .diverge := by
  have hc : ∀ c, Cursor.Inv c → Bitstream.fromCursor c ≠ .diverge := by
    intro c hi
    rcases fromCursor_spec hi with ⟨-, -, v, c', e, -⟩ | ⟨-, e⟩ <;> rw [e] <;> simp
  have hraw : Bitstream.fromRaw bytes ≠ .diverge := hc _ (Cursor.inv_new _)
  have hwr : Bitstream.fromWrapped pf bytes ≠ .diverge := by
    rcases fromWrapped_spec pf bytes with ⟨w, -, hs, ho, e⟩ | ⟨w, -, -, e⟩ | ⟨w, -, -, -, e⟩ | ⟨-, e⟩
    · rw [e]
      have := hc _ (inv_window hs ho)
      cases hx : Bitstream.fromCursor (windowCursor bytes (w.size.toNat + 20) w.offset.toNat) with
      | diverge => exact absurd hx this
      | _ => simp [Out.bind]
    · rw [e]; simp
    · rw [e]; simp
    · rw [e]; simp
  rcases from_spec pf bytes with ⟨-, e⟩ | ⟨-, -, e⟩ | ⟨-, -, e⟩
  · rw [e]; simp
  · rw [e]
    cases hx : Bitstream.fromWrapped pf bytes with
    | diverge => exact absurd hx hwr
    | _ => simp [Out.bind]
  · rw [e]
    cases hx : Bitstream.fromRaw bytes with
    | diverge => exact absurd hx hraw
    | _ => simp [Out.bind]

/-- C56: whatever panic or endless recursion mapping bytes ends in, the bytes have the listed cause for it. -/
theorem C56_file (pf : Profile) (target : Str) (bytes : List U8) (s : Stop) (hlen : bytes.length ≤ 2 ^ 61)
    (h : (Bitcode.tryFrom pf target bytes).Stops s) : FileStop pf bytes s := by
  unfold Bitcode.tryFrom at h
  rw [bind_stops, mapErr_stops] at h
  rcases h with h | ⟨⟨w, b⟩, hb, h⟩
  · cases s with
    | panic p => exact absurd h (Props.C23_open_no_panic pf bytes p).2.2
    | hang => exact absurd h (from_terminates pf bytes)
  rw [Out.mapErr_eq_ok] at hb
  obtain ⟨tops, P, us, r, b₁, b₂, ⟨es, hes, hit⟩, hn, hne, hnd, hlen, hun, hok, herr⟩ := C28_unroll pf (.auto hb)
  have hbeg : Begins pf bytes tops P r := ⟨w, b, b₁, b₂, es, hb, hes, hit, hn, hne⟩
  have hs : Each StandsFor tops us := ⟨hlen, hun⟩
  unfold Bitcode.ofStream at h
  rw [bind_stops, mapErr_stops] at h
  rcases orderly_or us with ho | ⟨pre, u, post, m, he, ho, hm⟩
  · rw [hok ho] at h
    cases r with
    | item x => exact absurd rfl (hne x)
    | diverge => exact absurd rfl hnd
    | panic p =>
      simp only [ending, panic_stops, Out.mapErr, reduceCtorEq, false_and, exists_false, or_false] at h
      subst h
      refine .stream hbeg ?_
      have hR : Reach pf b₁ := reach_iterate pf _ (.opened (.auto hb)) hit
      have := Props.C23_panic_sites_partial pf hR p (by rw [hn])
      unfold StreamSite
      rcases this with ⟨rfl, rfl⟩ | ⟨rfl, rfl⟩ | rfl | rfl | rfl <;> simp
    | error x => simp [ending, err_stops, Out.mapErr] at h
    | done =>
      unfold ending at h
      by_cases hP : P = []
      · subst hP
        simp only [if_true, Out.mapErr, ok_stops, false_or, Out.ok.injEq, bind_stops, and_false, exists_false, or_false] at h
        obtain ⟨_, rfl, h⟩ := h
        obtain ⟨q, hq, h⟩ := mapOut_stops h
        have hp := parts_pairs hs
        obtain ⟨k, hk⟩ := List.getElem?_of_mem hq
        have hlt : k < (parts tops).length := by rw [← hp.1]; exact (List.getElem?_eq_some_iff.1 hk).1
        obtain ⟨g1, g2, g3, g4⟩ := hp.2 _ _ q (List.getElem?_eq_getElem hlt) hk
        have hpm := List.getElem_mem hlt
        refine reify_stops pf target hbeg hpm g1 g2 g3 g4 (fun c bs hc hbs => ?_) h
        have hl := from_len hb
        have hds : items (iterate pf es.length b).1 = completeEntries tops := by
          rw [hit]
          simp only [hes, openEntries, List.flatMap_nil, List.append_nil]
          exact items_map _
        have := table_small (.auto hb) hds (parts_strtab_mem hpm hc) hbs
        omega
      · simp [if_neg hP, err_stops, Out.mapErr] at h
  · rw [herr pre u post m he ho hm] at h
    simp [err_stops, Out.mapErr] at h

end Verif
