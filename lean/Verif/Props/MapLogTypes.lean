import Verif.Props.Stops
import Verif.Props.MapLog
import Verif.Props.TypeSizes

/-! What is logged for type tables. -/

namespace Verif
open Spec Logged

namespace Logged
variable {ε α β : Type}

theorem lines_bind_of (x : Logged ε α) (g : α → Out ε β) : (x >>= fun a => of (g a)).lines = x.lines := by
  obtain ⟨ls, o⟩ := x
  cases o with
  | ok a => show ls ++ [] = ls; simp
  | _ => rfl

theorem lines_mapAll_one (f : α → Logged ε β) (a : α) : (mapAll f [a]).lines = (f a).lines := by
  rcases hx : f a with ⟨ls, o⟩
  cases o with
  | ok b => simp only [mapAll, hx]; show ls ++ ([] ++ []) = ls; simp
  | _ => simp only [mapAll, hx]; rfl

end Logged

/-- `around`, for the messages of the model. -/
def aroundLines (table : List PType) : PType → List MapLine → List MapLine
  | .fixedVector n e, ls => .vector n e :: (ls ++ [.element table[e.toNat]?])
  | _, ls => ls

/-- `opened`, for the messages of the model. -/
def openedLines : PType → List MapLine → List MapLine
  | .fixedVector n e, ls => .vector n e :: ls
  | _, ls => ls

theorem mapAll_one_out (f : TypeRef → Logged TypeTableError Ty) (e : TypeRef) {ts : List Ty} (h : (mapAll f [e]).out = .ok ts) :
    ∃ t, (f e).out = .ok t := by
  rw [out_mapAll] at h
  obtain ⟨t, ht⟩ := mapOut_exists.1 ⟨ts, h⟩ e (by simp)
  exact ⟨t, ht⟩

theorem mapAll_one_not (f : TypeRef → Logged TypeTableError Ty) (e : TypeRef) (h : ∀ ts, (mapAll f [e]).out ≠ .ok ts) :
    ∀ t, (f e).out ≠ .ok t := by
  intro t ht
  obtain ⟨ts, hts⟩ := (mapOut_exists (f := fun r => (f r).out) (l := [e])).2 (by simpa using ⟨t, ht⟩)
  exact h ts (by rw [out_mapAll]; exact hts)

theorem lines_function (f : TypeRef → Logged TypeTableError Ty) (r : TypeRef) (ps : List TypeRef) (g : Ty → List Ty → Out TypeTableError Ty) :
    (do let a ← f r; let b ← mapAll f ps; of (g a b) : Logged TypeTableError Ty).lines = (mapAll f (r :: ps)).lines := by
  simp only [mapAll]
  by_cases h : ∃ a, (f r).out = .ok a
  · obtain ⟨a, ha⟩ := h
    rw [lines_bind_ok _ ha, lines_bind_ok _ ha, lines_bind_of, lines_bind_of]
  · rw [lines_bind_not _ fun a ha => h ⟨a, ha⟩, lines_bind_not _ fun a ha => h ⟨a, ha⟩]

theorem lines_resolve_all {table : List PType} {f : TypeRef → Logged TypeTableError Ty} {p : PType} {ts : List Ty}
    (h : (mapAll f p.refs).out = .ok ts) : (MapLog.resolve table f p).lines = aroundLines table p (mapAll f p.refs).lines := by
  cases p with
  | prim p => rfl
  | integer w => rfl
  | opaquePointer a => rfl
  | function r ps v => simp only [MapLog.resolve, PType.refs, aroundLines, lines_function]
  | struct n fs q => simp only [MapLog.resolve, PType.refs, aroundLines, lines_bind_of]
  | pointer e a => simp only [MapLog.resolve, PType.refs, aroundLines, lines_bind_of, lines_mapAll_one]
  | array n e => simp only [MapLog.resolve, PType.refs, aroundLines, lines_bind_of, lines_mapAll_one]
  | scalableVector n e => simp only [MapLog.resolve, PType.refs, aroundLines, lines_bind_of, lines_mapAll_one]
  | fixedVector n e =>
    obtain ⟨t, ht⟩ := mapAll_one_out f e h
    simp only [MapLog.resolve, PType.refs, aroundLines, lines_mapAll_one]
    rw [lines_tell_bind, lines_bind_ok _ ht, lines_tell_bind, lines_of]

theorem lines_resolve_not {table : List PType} {f : TypeRef → Logged TypeTableError Ty} {p : PType}
    (h : ∀ ts, (mapAll f p.refs).out ≠ .ok ts) : (MapLog.resolve table f p).lines = openedLines p (mapAll f p.refs).lines := by
  cases p with
  | prim p => rfl
  | integer w => rfl
  | opaquePointer a => rfl
  | function r ps v => simp only [MapLog.resolve, PType.refs, openedLines, lines_function]
  | struct n fs q => simp only [MapLog.resolve, PType.refs, openedLines, lines_bind_of]
  | pointer e a => simp only [MapLog.resolve, PType.refs, openedLines, lines_bind_of, lines_mapAll_one]
  | array n e => simp only [MapLog.resolve, PType.refs, openedLines, lines_bind_of, lines_mapAll_one]
  | scalableVector n e => simp only [MapLog.resolve, PType.refs, openedLines, lines_bind_of, lines_mapAll_one]
  | fixedVector n e =>
    simp only [MapLog.resolve, PType.refs, openedLines, lines_mapAll_one]
    rw [lines_tell_bind, lines_bind_not _ (mapAll_one_not f e h)]

/-! ## As messages about types -/

/-- The messages of the model are these messages about types. -/
def Typed (ls : List MapLine) (xs : List TypeLine) : Prop := ls.map asTypeLine = xs.map some

theorem Typed.append {ls ms : List MapLine} {xs ys : List TypeLine} (h : Typed ls xs) (h' : Typed ms ys) :
    Typed (ls ++ ms) (xs ++ ys) := by
  simp only [Typed, List.map_append] at *
  rw [h, h']

theorem Typed.nil : Typed [] [] := rfl

theorem Typed.cons {l : MapLine} {ls : List MapLine} {x : TypeLine} {xs : List TypeLine} (h : asTypeLine l = some x)
    (h' : Typed ls xs) : Typed (l :: ls) (x :: xs) := by
  simp only [Typed, List.map_cons] at *
  rw [h, h']

theorem Typed.around (table : List PType) (p : PType) {ls : List MapLine} {xs : List TypeLine} (h : Typed ls xs) :
    Typed (aroundLines table p ls) (around (table.map PType.toDecl) p.toDecl xs) := by
  cases p with
  | fixedVector n e =>
    refine .cons rfl (h.append (.cons ?_ .nil))
    rw [asTypeLine, List.getElem?_map]
  | _ => exact h

theorem Typed.opened (p : PType) {ls : List MapLine} {xs : List TypeLine} (h : Typed ls xs) :
    Typed (openedLines p ls) (opened p.toDecl xs) := by
  cases p with
  | fixedVector n e => exact .cons rfl h
  | _ => exact h

theorem Spec.Walk.append {ds : List TyDecl} {l l' : List Nat} {ls ms : List TypeLine} (h : Walk ds l ls) (h' : Walk ds l' ms) :
    Walk ds (l ++ l') (ls ++ ms) := by
  induction h with
  | nil => exact h'
  | cons h1 h2 h3 _ ih =>
    rw [List.cons_append, List.append_assoc]
    exact .cons h1 h2 ih

theorem Spec.Snag.append {ds : List TyDecl} {l : List Nat} {ls : List TypeLine} {e : TypeTableError} (h : Snag ds l ls e)
    (l' : List Nat) : Snag ds (l ++ l') ls e := by
  induction h with
  | missing h => exact .missing h
  | inside h1 h2 _ => exact .inside h1 h2
  | broken h1 h2 h3 => exact .broken h1 h2 h3
  | later h1 h2 _ ih => exact .later h1 h2 ih

section
variable {ds : List TyDecl} {f : TypeRef → Logged TypeTableError Ty}

/-- What is logged for references that can be followed. -/
theorem walk_all (hok : ∀ r t, (f r).out = .ok t → ∃ xs, Typed (f r).lines xs ∧ Walk ds [r.toNat] xs) {l : List TypeRef}
    (h : ∀ r ∈ l, ∃ t, (f r).out = .ok t) : ∃ xs, Typed (l.flatMap fun r => (f r).lines) xs ∧ Walk ds (l.map (·.toNat)) xs := by
  induction l with
  | nil => exact ⟨[], rfl, .nil⟩
  | cons r l ih =>
    obtain ⟨xs, h1, h2⟩ := ih fun a ha => h a (by simp [ha])
    obtain ⟨t, ht⟩ := h r (by simp)
    obtain ⟨ys, h3, h4⟩ := hok r t ht
    exact ⟨ys ++ xs, h3.append h1, h4.append h2⟩

/-- What is logged for references that cannot all be followed. -/
theorem stuck_all (hok : ∀ r t, (f r).out = .ok t → Sound ds r.toNat ∧ ∃ xs, Typed (f r).lines xs ∧ Walk ds [r.toNat] xs)
    (herr : ∀ r e, (f r).out = .err e → ∃ xs, Typed (f r).lines xs ∧ Snag ds [r.toNat] xs e) {pre post : List TypeRef} {a : TypeRef}
    {e : TypeTableError} (hpre : ∀ r ∈ pre, ∃ t, (f r).out = .ok t) (ha : (f a).out = .err e) :
    ∃ xs, Typed (mapAll f (pre ++ a :: post)).lines xs ∧ Snag ds ((pre ++ a :: post).map (·.toNat)) xs e := by
  rw [lines_mapAll_not hpre (by intro b hb; rw [ha] at hb; cases hb)]
  induction pre with
  | nil =>
    obtain ⟨xs, h1, h2⟩ := herr a e ha
    exact ⟨xs, h1, h2.append _⟩
  | cons r pre ih =>
    obtain ⟨xs, h1, h2⟩ := ih fun x hx => hpre x (by simp [hx])
    obtain ⟨t, ht⟩ := hpre r (by simp)
    obtain ⟨hs, ys, h3, h4⟩ := hok r t ht
    refine ⟨ys ++ xs, ?_, .later hs h4 h2⟩
    rw [List.flatMap_cons, List.append_assoc]
    exact h3.append h1

end

variable {table : List PType}

/-- What is logged for an entry that is resolved. -/
theorem walk_resolve {f : TypeRef → Logged TypeTableError Ty}
    (hok : ∀ r t, (f r).out = .ok t → ∃ xs, Typed (f r).lines xs ∧ Walk (table.map PType.toDecl) [r.toNat] xs) {p : PType}
    (h : ∃ ts, (mapAll f p.refs).out = .ok ts) :
    ∃ xs, Typed (MapLog.resolve table f p).lines (around (table.map PType.toDecl) p.toDecl xs) ∧
      Walk (table.map PType.toDecl) p.toDecl.refs xs := by
  obtain ⟨ts, hts⟩ := h
  have hall : ∀ r ∈ p.refs, ∃ t, (f r).out = .ok t := by
    rw [out_mapAll] at hts
    exact mapOut_exists.1 ⟨ts, hts⟩
  obtain ⟨xs, h1, h2⟩ := walk_all hok hall
  refine ⟨xs, ?_, by rw [PType.toDecl_refs]; exact h2⟩
  rw [lines_resolve_all hts, lines_mapAll_ok hts]
  exact h1.around table p

theorem resolve_refs {f : TypeRef → Logged TypeTableError Ty} {p : PType} {t : Ty} (h : (MapLog.resolve table f p).out = .ok t) :
    ∃ ts, (mapAll f p.refs).out = .ok ts := by
  rw [log_resolve, resolve_eq, Out.bind_eq_ok] at h
  obtain ⟨ts, hts, -⟩ := h
  exact ⟨ts, by rw [out_mapAll]; exact hts⟩

theorem walk_ref (n : Nat) (r : TypeRef) (t : Ty) (h : (MapLog.resolveRef table n r).out = .ok t) :
    ∃ xs, Typed (MapLog.resolveRef table n r).lines xs ∧ Walk (table.map PType.toDecl) [r.toNat] xs := by
  induction n generalizing r t with
  | zero => cases h
  | succ n ih =>
    rw [MapLog.resolveRef] at h ⊢
    cases hp : table[r.toNat]? with
    | none => rw [hp] at h; cases h
    | some p =>
      rw [hp] at h
      simp only [out_bind, out_tell, Out.ok_bind] at h
      obtain ⟨xs, h1, h2⟩ := walk_resolve ih (resolve_refs h)
      refine ⟨.refers r.toNat p.toDecl :: around _ p.toDecl xs ++ [], ?_, .cons (by rw [List.getElem?_map, hp]; rfl) h2 .nil⟩
      rw [List.append_nil]
      exact .cons rfl h1

theorem sound_ref (n : Nat) (r : TypeRef) (t : Ty) (h : (MapLog.resolveRef table n r).out = .ok t) :
    Sound (table.map PType.toDecl) r.toNat := by
  rw [log_resolveRef] at h
  exact ⟨t, resolveRef_sound n r t h⟩

/-- What is logged for an entry that cannot be resolved. -/
theorem stuck_resolve {f : TypeRef → Logged TypeTableError Ty} (hden : ∀ r t, (f r).out = .ok t → Denotes (table.map PType.toDecl) r.toNat t)
    (hok : ∀ r t, (f r).out = .ok t → Sound (table.map PType.toDecl) r.toNat ∧
      ∃ xs, Typed (f r).lines xs ∧ Walk (table.map PType.toDecl) [r.toNat] xs)
    (herr : ∀ r e, (f r).out = .err e → ∃ xs, Typed (f r).lines xs ∧ Snag (table.map PType.toDecl) [r.toNat] xs e) {p : PType}
    {e : TypeTableError} (h : (MapLog.resolve table f p).out = .err e) :
    ∃ xs, (Snag (table.map PType.toDecl) p.toDecl.refs xs e ∧ Typed (MapLog.resolve table f p).lines (opened p.toDecl xs)) ∨
      ∃ e', e = .invalidType e' ∧ EntryFault (table.map PType.toDecl) p.toDecl e' ∧ Walk (table.map PType.toDecl) p.toDecl.refs xs ∧
        Typed (MapLog.resolve table f p).lines (around (table.map PType.toDecl) p.toDecl xs) := by
  rw [log_resolve] at h
  rcases (resolve_err hden).1 h with ⟨pre, a, post, he, hpre, ha⟩ | ⟨hall, e', rfl, hf⟩
  · obtain ⟨xs, h1, h2⟩ := stuck_all hok herr (post := post) hpre ha
    rw [← he] at h1 h2
    refine ⟨xs, .inl ⟨by rw [PType.toDecl_refs]; exact h2, ?_⟩⟩
    rw [lines_resolve_not]
    · exact h1.opened p
    · intro ts hts
      rw [out_mapAll, he] at hts
      obtain ⟨t, ht⟩ := mapOut_exists.1 ⟨ts, hts⟩ a (by simp)
      rw [ha] at ht; cases ht
  · obtain ⟨ts, hts⟩ := mapOut_exists.2 hall
    obtain ⟨xs, h1, h2⟩ := walk_resolve (p := p) (fun r t h => (hok r t h).2) ⟨ts, by rw [out_mapAll]; exact hts⟩
    exact ⟨xs, .inr ⟨e', rfl, hf, h2, h1⟩⟩

theorem stuck_ref (n : Nat) (r : TypeRef) (e : TypeTableError) (h : (MapLog.resolveRef table n r).out = .err e) :
    ∃ xs, Typed (MapLog.resolveRef table n r).lines xs ∧ Snag (table.map PType.toDecl) [r.toNat] xs e := by
  induction n generalizing r e with
  | zero => cases h
  | succ n ih =>
    rw [MapLog.resolveRef] at h ⊢
    cases hp : table[r.toNat]? with
    | none =>
      rw [hp] at h
      cases h
      exact ⟨[], rfl, .missing (by rw [List.getElem?_map, hp]; rfl)⟩
    | some p =>
      rw [hp] at h
      have hd : (table.map PType.toDecl)[r.toNat]? = some p.toDecl := by rw [List.getElem?_map, hp]; rfl
      simp only [out_bind, out_tell, Out.ok_bind] at h
      obtain ⟨xs, ⟨h1, h2⟩ | ⟨e', rfl, h1, h2, h3⟩⟩ := stuck_resolve
        (fun r t h => by rw [log_resolveRef] at h; exact (resolveRef_sound n r t h).1)
        (fun r t h => ⟨sound_ref n r t h, walk_ref n r t h⟩) ih h
      · exact ⟨_, .cons rfl h2, .inside hd h1⟩
      · exact ⟨_, .cons rfl h3, .broken hd h2 h1⟩

/-! ## Tables -/

theorem lines_of_bind_not {ε α β : Type} {x : Out ε α} (f : α → Logged ε β) (h : ∀ a, x ≠ .ok a) : (of x >>= f).lines = [] := by
  rw [lines_bind_not f (by simpa using h)]; rfl

/-- What is logged for records that declare a table: what is logged for its entries. -/
theorem typesWithin_lines (pf : Profile) (d : Nat → Nat) (b : UBlock) {n : U64} {s : TypeTableState} (hn : Counts b.records n)
    (hcap : n.toNat * 56 < 2 ^ 63) (hs : b.records.foldlM (typeStep pf) { inner := [], lastName := [] } = .ok s)
    (hlen : s.inner.length = n.toNat) : MapLog.typesWithin pf d b =
      mapAll (MapLog.resolve s.inner (MapLog.resolveRef s.inner (d s.inner.length))) s.inner := by
  obtain ⟨r, hr, hf⟩ := counts_iff.1 hn
  have hc : typeCapacity n = .ok () := by unfold typeCapacity partialTypeSize; rw [if_pos hcap]
  unfold MapLog.typesWithin
  refine Logged.ext ?_ ?_
  · rw [lines_of_bind_ok _ (by rw [hr]; rfl), lines_of_bind_ok _ (by rw [hf]; rfl), lines_of_bind_ok _ hc, lines_of_bind_ok _ hs]
    unfold MapLog.reifyTypes
    rw [if_neg (by simp [hlen])]
  · simp only [out_bind, out_of, hr, hf, hc, hs, Out.ofOption_some, Out.ok_bind, MapLog.reifyTypes]
    rw [if_neg (by simp [hlen])]

theorem declares_iff (pf : Profile) {b : UBlock} {ds : List TyDecl} : Declares pf b.records ds ↔ ∃ n s, Counts b.records n ∧
    n.toNat * 56 < 2 ^ 63 ∧ b.records.foldlM (typeStep pf) { inner := [], lastName := [] } = .ok s ∧ s.inner.length = n.toNat ∧
    s.inner.map PType.toDecl = ds := by
  constructor
  · rintro ⟨n, nm, h1, h2, h3, h4⟩
    obtain ⟨s, hs, rfl, -⟩ := (builds_iff pf).1 h3
    exact ⟨n, s, h1, h2, hs, by simpa using h4, rfl⟩
  · rintro ⟨n, s, h1, h2, h3, h4, rfl⟩
    exact ⟨n, s.lastName, h1, h2, (builds_iff pf).2 ⟨s, h3, rfl, rfl⟩, by simpa using h4⟩

/-- If the records do not declare a table, nothing is logged. -/
theorem typesWithin_nothing (pf : Profile) (d : Nat → Nat) (b : UBlock) (h : ∀ ds, ¬ Declares pf b.records ds) :
    (MapLog.typesWithin pf d b).lines = [] := by
  unfold MapLog.typesWithin
  cases hr : Records.one b.records TypeCode.numEntry.code with
  | none => exact lines_of_bind_not _ (by intro a ha; cases ha)
  | some r =>
    rw [lines_of_bind_ok _ (Out.ofOption_some ..)]
    cases hf : r.fields.head? with
    | none => exact lines_of_bind_not _ (by intro a ha; cases ha)
    | some n =>
      rw [lines_of_bind_ok _ (Out.ofOption_some ..)]
      by_cases hc : n.toNat * 56 < 2 ^ 63
      · rw [lines_of_bind_ok _ (show typeCapacity n = .ok () by unfold typeCapacity partialTypeSize; rw [if_pos hc])]
        cases hs : b.records.foldlM (typeStep pf) { inner := [], lastName := [] } with
        | ok s =>
          rw [lines_of_bind_ok _ rfl]
          unfold MapLog.reifyTypes
          by_cases hl : s.inner.length = n.toNat
          · exact absurd ((declares_iff pf).2 ⟨n, s, counts_iff.2 ⟨r, hr, hf⟩, hc, hs, hl, rfl⟩) (h _)
          · rw [if_pos hl]; rfl
        | _ => exact lines_of_bind_not _ (by intro a ha; cases ha)
      · rw [show typeCapacity n = .panic .capacity by unfold typeCapacity partialTypeSize; rw [if_neg hc]]
        exact lines_of_bind_not _ (by intro a ha; cases ha)

theorem each_entry (n : Nat) {l : List PType} (h : ∀ p ∈ l, ∃ t, (MapLog.resolve table (MapLog.resolveRef table n) p).out = .ok t) :
    ∃ lss, Each (EntryWalk (table.map PType.toDecl)) (l.map PType.toDecl) lss ∧
      Typed (l.flatMap fun p => (MapLog.resolve table (MapLog.resolveRef table n) p).lines) lss.flatten := by
  induction l with
  | nil => exact ⟨[], ⟨rfl, by simp⟩, rfl⟩
  | cons p l ih =>
    obtain ⟨lss, ⟨h1, h2⟩, h3⟩ := ih fun q hq => h q (by simp [hq])
    obtain ⟨t, ht⟩ := h p (by simp)
    obtain ⟨xs, h4, h5⟩ := walk_resolve (walk_ref n) (resolve_refs ht)
    refine ⟨around (table.map PType.toDecl) p.toDecl xs :: lss, ⟨by simpa using h1, fun i a b ha hb => ?_⟩, ?_⟩
    · cases i with
      | zero => simp at ha hb; subst ha hb; exact ⟨xs, h5, rfl⟩
      | succ i => exact h2 i a b (by simpa using ha) (by simpa using hb)
    · rw [List.flatMap_cons, List.flatten_cons]
      exact h4.append h3

theorem around_count (ds : List TyDecl) (d : TyDecl) (ls : List TypeLine) : (around ds d ls).countP isRefers = ls.countP isRefers := by
  unfold around
  split
  · simp [isRefers]
  · rfl

/-- As many references are followed as there are types to be found. -/
theorem Spec.Walk.count {ds : List TyDecl} {l : List Nat} {ls : List TypeLine} (h : Walk ds l ls) {ts : List Ty}
    (hd : DenoteAll ds l ts) : ls.countP isRefers = nodesAll ts := by
  induction h generalizing ts with
  | nil => rw [DenoteAll.nil_iff.1 hd]; rfl
  | cons h1 _ _ ih1 ih2 =>
    obtain ⟨t, us, rfl, h2, h3⟩ := DenoteAll.cons_iff.1 hd
    rw [List.countP_append, List.countP_cons, around_count, ih1 (h2.partsOf h1), ih2 h3, nodesAll, nodes_eq, nodesAll_eq]
    simp only [isRefers, if_true]
    omega

theorem flatten_count {ds es : List TyDecl} {lss : List (List TypeLine)} (h : Each (EntryWalk ds) es lss) {ts : List Ty}
    (hl : ts.length = es.length)
    (ht : ∀ (i : Nat) (d : TyDecl) (t : Ty), es[i]? = some d → ts[i]? = some t → DenoteAll ds d.refs (components t)) :
    lss.flatten.countP isRefers + ts.length = nodesAll ts := by
  induction es generalizing lss ts with
  | nil =>
    obtain ⟨h1, -⟩ := h
    rw [List.length_eq_zero_iff.1 h1, List.length_eq_zero_iff.1 hl]; rfl
  | cons d es ih =>
    obtain ⟨h1, h2⟩ := h
    cases lss with
    | nil => simp at h1
    | cons ls lss =>
      cases ts with
      | nil => simp at hl
      | cons t ts =>
        obtain ⟨ms, hw, rfl⟩ := h2 0 d ls rfl rfl
        have hc := hw.count (ht 0 d t rfl rfl)
        have := ih (lss := lss) (ts := ts) ⟨by simpa using h1, fun i a b ha hb => h2 (i + 1) a b (by simpa using ha) (by simpa using hb)⟩
          (by simpa using hl) fun i a b ha hb => ht (i + 1) a b (by simpa using ha) (by simpa using hb)
        rw [List.flatten_cons, List.countP_append, around_count, hc, nodesAll, nodes_eq, ← nodesAll_eq, List.length_cons]
        omega

/-- C86, types. If a type block maps, the messages are those for following all references of each entry, in order. One message is for
each reference, so for each type inside of a type of the table, as often as it is there. -/
theorem C86_types (pf : Profile) (b : UBlock) (ts : TypeTable) (h : TypeTable.tryFrom pf b = .ok ts) :
    ∃ ds tl, Declares pf b.records ds ∧ TableWalk ds tl ∧ (MapLog.types pf b).lines.map asTypeLine = tl.map some ∧
      tl.countP isRefers + ts.length = nodesAll ts := by
  obtain ⟨ds, hd, hl, ht⟩ := (C40_exact pf b ts).1 h
  obtain ⟨n, s, h1, h2, h3, h4, rfl⟩ := (declares_iff pf).1 hd
  have hm := typesWithin_lines pf (· + 1) b h1 h2 h3 h4
  have ho : (MapLog.types pf b).out = .ok ts := by rw [log_types]; exact h
  unfold MapLog.types at ho ⊢
  rw [hm] at ho ⊢
  have hall := ho
  rw [out_mapAll] at hall
  obtain ⟨lss, h5, h6⟩ := each_entry _ (mapOut_exists.1 ⟨ts, hall⟩)
  refine ⟨_, lss.flatten, hd, ⟨lss, h5, rfl⟩, ?_, ?_⟩
  · rw [lines_mapAll_ok ho]; exact h6
  · exact flatten_count h5 hl fun i d t hdi hti => (ht i t hti).1.partsOf hdi

/-- C86, types. If it is refused, the messages go as far as the fault that is reported. -/
theorem C86_types_fail (pf : Profile) (b : UBlock) (e : TypeTableError) (h : TypeTable.tryFrom pf b = .err e) :
    ((∀ ds, ¬ Declares pf b.records ds) ∧ (MapLog.types pf b).lines = []) ∨
    ∃ ds tl, Declares pf b.records ds ∧ TableStuck ds tl e ∧ (MapLog.types pf b).lines.map asTypeLine = tl.map some := by
  by_cases hd : ∃ ds, Declares pf b.records ds
  · obtain ⟨ds, hd⟩ := hd
    refine .inr ?_
    obtain ⟨n, s, h1, h2, h3, h4, rfl⟩ := (declares_iff pf).1 hd
    have hm := typesWithin_lines pf (· + 1) b h1 h2 h3 h4
    have ho : (MapLog.types pf b).out = .err e := by rw [log_types]; exact h
    unfold MapLog.types at ho ⊢
    rw [hm] at ho ⊢
    generalize s.inner.length + 1 = k at ho ⊢
    have hall := ho
    rw [out_mapAll, mapOut_eq_err] at hall
    obtain ⟨pre, p, post, he, hpre, hp⟩ := hall
    have hpre' := mapOut_exists.1 hpre
    obtain ⟨lss, h5, h6⟩ := each_entry _ hpre'
    obtain ⟨xs, h7⟩ := stuck_resolve (fun r t h => by rw [log_resolveRef] at h; exact (resolveRef_sound k r t h).1)
      (fun r t h => ⟨sound_ref k r t h, walk_ref k r t h⟩) (stuck_ref k) hp
    have hsound : ∀ j < (pre.map PType.toDecl).length, Sound (s.inner.map PType.toDecl) j := by
      intro j hj
      rw [List.length_map] at hj
      obtain ⟨t, ht⟩ := hpre' pre[j] (List.getElem_mem hj)
      have hg : s.inner[j]? = some pre[j] := by rw [he, List.getElem?_append_left hj, List.getElem?_eq_getElem hj]
      rw [log_resolve] at ht
      refine ⟨t, resolve_sound (fun r t => ?_) ht (by rw [List.getElem?_map, hg]; rfl)⟩
      intro h
      rw [log_resolveRef] at h
      exact resolveRef_sound k r t h
    have hlines : (mapAll (MapLog.resolve s.inner (MapLog.resolveRef s.inner k)) s.inner).lines =
        (pre.flatMap fun p => (MapLog.resolve s.inner (MapLog.resolveRef s.inner k) p).lines) ++
          (MapLog.resolve s.inner (MapLog.resolveRef s.inner k) p).lines := by
      conv => lhs; arg 1; arg 2; rw [he]
      exact lines_mapAll_not hpre' (by intro a ha; rw [hp] at ha; cases ha)
    have hsplit : s.inner.map PType.toDecl = pre.map PType.toDecl ++ p.toDecl :: post.map PType.toDecl := by
      conv => lhs; rw [he]
      simp
    rcases h7 with ⟨h7, h8⟩ | ⟨e', rfl, h7, h8, h9⟩
    · refine ⟨_, lss.flatten ++ opened p.toDecl xs, hd, ⟨_, _, _, lss, xs, hsplit, hsound, h5, .inl ⟨h7, rfl⟩⟩, ?_⟩
      rw [hlines]; exact h6.append h8
    · refine ⟨_, lss.flatten ++ around (s.inner.map PType.toDecl) p.toDecl xs, hd, ⟨_, _, _, lss, xs, hsplit, hsound, h5, .inr ⟨e', rfl, h7, h8, rfl⟩⟩, ?_⟩
      rw [hlines]; exact h6.append h9
  · exact .inl ⟨fun ds h => hd ⟨ds, h⟩, typesWithin_nothing pf _ b fun ds h => hd ⟨ds, h⟩⟩

/-! ## Tables with types that contain themselves -/

/-- The same, or cut off for want of room. -/
def Shorter {ε α : Type} (x y : Logged ε α) : Prop := x = y ∨ (x.out = .diverge ∧ x.lines <+: y.lines)

theorem Shorter.bind {ε α β : Type} {x y : Logged ε α} {f g : α → Logged ε β} (h : Shorter x y) (hf : ∀ a, Shorter (f a) (g a)) :
    Shorter (x >>= f) (y >>= g) := by
  rcases h with rfl | ⟨h1, h2⟩
  · by_cases hx : ∃ a, x.out = .ok a
    · obtain ⟨a, ha⟩ := hx
      rcases hf a with h | ⟨h1, h2⟩
      · refine .inl (Logged.ext ?_ ?_)
        · rw [lines_bind_ok _ ha, lines_bind_ok _ ha, h]
        · rw [out_bind, out_bind, ha, Out.ok_bind, Out.ok_bind, h]
      · refine .inr ⟨by rw [out_bind, ha, Out.ok_bind, h1], ?_⟩
        rw [lines_bind_ok _ ha, lines_bind_ok _ ha]
        exact (List.prefix_append_right_inj _).2 h2
    · refine .inl (Logged.ext ?_ ?_)
      · rw [lines_bind_not _ fun a ha => hx ⟨a, ha⟩, lines_bind_not _ fun a ha => hx ⟨a, ha⟩]
      · rw [out_bind, out_bind]
        cases ho : x.out with
        | ok a => exact absurd ⟨a, ho⟩ hx
        | _ => rfl
  · refine .inr ⟨by rw [out_bind, h1]; rfl, ?_⟩
    rw [lines_bind_not _ (by intro a ha; rw [h1] at ha; cases ha)]
    by_cases hy : ∃ a, y.out = .ok a
    · obtain ⟨a, ha⟩ := hy
      rw [lines_bind_ok _ ha]
      exact h2.trans (List.prefix_append _ _)
    · rw [lines_bind_not _ fun a ha => hy ⟨a, ha⟩]; exact h2

theorem Shorter.refl {ε α : Type} (x : Logged ε α) : Shorter x x := .inl rfl

theorem Shorter.mapAll {ε α β : Type} {f g : α → Logged ε β} (hf : ∀ a, Shorter (f a) (g a)) (l : List α) :
    Shorter (mapAll f l) (mapAll g l) := by
  induction l with
  | nil => exact .refl _
  | cons a l ih => exact (hf a).bind fun b => ih.bind fun _ => .refl _

theorem Shorter.resolve {f g : TypeRef → Logged TypeTableError Ty} (hf : ∀ r, Shorter (f r) (g r)) (p : PType) :
    Shorter (MapLog.resolve table f p) (MapLog.resolve table g p) := by
  cases p with
  | prim p => exact .refl _
  | integer w => exact .refl _
  | opaquePointer a => exact .refl _
  | function r ps v => exact (hf r).bind fun _ => (Shorter.mapAll hf ps).bind fun _ => .refl _
  | struct n fs q => exact (Shorter.mapAll hf fs).bind fun _ => .refl _
  | pointer e a => exact (hf e).bind fun _ => .refl _
  | array n e => exact (hf e).bind fun _ => .refl _
  | scalableVector n e => exact (hf e).bind fun _ => .refl _
  | fixedVector n e => exact (Shorter.refl _).bind fun _ => (hf e).bind fun _ => .refl _

theorem Shorter.resolveRef (n : Nat) (r : TypeRef) : Shorter (MapLog.resolveRef table n r) (MapLog.resolveRef table (n + 1) r) := by
  induction n generalizing r with
  | zero => exact .inr ⟨rfl, List.nil_prefix⟩
  | succ n ih =>
    rw [MapLog.resolveRef, MapLog.resolveRef]
    cases table[r.toNat]? with
    | none => exact .refl _
    | some p => exact (Shorter.refl _).bind fun _ => .resolve ih p

theorem log_mapAll_stops {ε α β : Type} {f : α → Logged ε β} {k : Nat} (hf : ∀ a, (f a).out = .diverge → k ≤ (f a).lines.length)
    {l : List α} (h : (mapAll f l).out = .diverge) : k ≤ (mapAll f l).lines.length := by
  induction l with
  | nil => cases h
  | cons a l ih =>
    simp only [mapAll, out_bind, out_of] at h ⊢
    cases ha : (f a).out with
    | ok b =>
      rw [ha, Out.ok_bind] at h
      rw [lines_bind_ok _ ha, lines_bind_of, List.length_append]
      have : (mapAll f l).out = .diverge := by
        cases ho : (mapAll f l).out with
        | diverge => rfl
        | _ => rw [ho] at h; cases h
      have := ih this
      omega
    | diverge =>
      have := hf a ha
      rw [lines_bind_not _ (by intro b hb; rw [ha] at hb; cases hb)]
      exact this
    | err e => rw [ha] at h; cases h
    | panic e => rw [ha] at h; cases h

theorem opened_length (p : PType) (ls : List MapLine) : ls.length ≤ (openedLines p ls).length := by
  unfold openedLines
  split <;> simp

theorem log_resolve_stops {f : TypeRef → Logged TypeTableError Ty} {k : Nat} (hf : ∀ r, (f r).out = .diverge → k ≤ (f r).lines.length)
    {p : PType} (h : (MapLog.resolve table f p).out = .diverge) : k ≤ (MapLog.resolve table f p).lines.length := by
  have hd : (mapAll f p.refs).out = .diverge := by
    rw [log_resolve, resolve_eq, ← out_mapAll] at h
    cases ho : (mapAll f p.refs).out with
    | diverge => rfl
    | ok ts =>
      rw [ho, Out.ok_bind] at h
      have := build_returns p ts
      cases hb : p.build ts with
      | diverge => rw [hb] at this; exact this.elim
      | _ => rw [hb] at h; cases h
    | _ => rw [ho] at h; cases h
  rw [lines_resolve_not (by intro ts hts; rw [hd] at hts; cases hts)]
  exact Nat.le_trans (log_mapAll_stops hf hd) (opened_length _ _)

theorem log_ref_stops (n : Nat) (r : TypeRef) (h : (MapLog.resolveRef table n r).out = .diverge) :
    n ≤ (MapLog.resolveRef table n r).lines.length := by
  induction n generalizing r with
  | zero => exact Nat.zero_le _
  | succ n ih =>
    rw [MapLog.resolveRef] at h ⊢
    cases hp : table[r.toNat]? with
    | none => rw [hp] at h; cases h
    | some p =>
      rw [hp] at h
      simp only [out_bind, out_tell, Out.ok_bind] at h
      have := log_resolve_stops ih h
      simp only [lines_tell_bind, List.length_cons]
      omega

theorem typeSteps_end (pf : Profile) (rs : List BRecord) (s : TypeTableState) : rs.foldlM (typeStep pf) s ≠ .diverge := by
  induction rs generalizing s with
  | nil => intro h; cases h
  | cons r rs ih =>
    intro h
    rw [List.foldlM_cons] at h
    cases hr : typeStep pf s r with
    | ok s' => rw [hr] at h; exact ih s' h
    | diverge => exact nomatch ((typeStep_stops pf (s := .hang)).1 hr).2.2.2
    | _ => rw [hr] at h; cases h

/-- C86, types. If mapping a type block never ends, then neither does the log: with room for `d` calls inside each other there are at
least `d` messages, and with more room there are the same messages and more. -/
theorem C86_types_endless (pf : Profile) (b : UBlock) (h : TypeTable.tryFrom pf b = .diverge) (d : Nat) :
    TypeTable.tryFromWithin pf d b = .diverge ∧ d ≤ (MapLog.typesWithin pf (fun _ => d) b).lines.length ∧
      (MapLog.typesWithin pf (fun _ => d) b).lines <+: (MapLog.typesWithin pf (fun _ => d + 1) b).lines := by
  have hw : TypeTable.tryFromWithin pf d b = .diverge := by
    rcases C64_types_same pf d b with hd | hd
    · exact hd
    · rw [hd, h]
  have hd : ∃ ds, Declares pf b.records ds := by
    rcases types_cases pf b with ⟨-, he⟩ | ⟨n, -, -, he⟩ | ⟨n, hn, hcap⟩
    · rw [h] at he; cases he
    · rw [h] at he; cases he
    · rw [tryFrom_counted pf b hn hcap] at h
      cases hs : b.records.foldlM (typeStep pf) { inner := [], lastName := [] } with
      | ok s =>
        rw [hs, Out.ok_bind] at h
        unfold reifyTypes at h
        by_cases hl : s.inner.length = n.toNat
        · exact ⟨_, (declares_iff pf).2 ⟨n, s, hn, hcap, hs, hl, rfl⟩⟩
        · rw [if_pos hl] at h; cases h
      | diverge => exact absurd hs (typeSteps_end pf _ _)
      | _ => rw [hs] at h; cases h
  obtain ⟨ds, hd⟩ := hd
  obtain ⟨n, s, h1, h2, h3, h4, rfl⟩ := (declares_iff pf).1 hd
  refine ⟨hw, ?_, ?_⟩
  · rw [← log_typesWithin] at hw
    rw [typesWithin_lines pf (fun _ => d) b h1 h2 h3 h4] at hw ⊢
    exact log_mapAll_stops (fun p hp => log_resolve_stops (log_ref_stops d) hp) hw
  · rw [typesWithin_lines pf (fun _ => d) b h1 h2 h3 h4, typesWithin_lines pf (fun _ => d + 1) b h1 h2 h3 h4]
    rcases Shorter.mapAll (fun p => Shorter.resolve (Shorter.resolveRef (table := s.inner) d) p) s.inner with h | ⟨-, h⟩
    · rw [h]; exact List.prefix_rfl
    · exact h

/-! ## Examples -/

def exLogRecord (code : U64) (fields : List U64) : BRecord := { abbrevId := none, code, fields }

/-- `i32`, four of these as a vector, and an array of two such vectors. -/
def exLogTypes : UBlock := .mk (.ir .type) [exLogRecord 1 [3], exLogRecord 7 [32], exLogRecord 12 [4, 0], exLogRecord 11 [2, 1]] []

example : (∃ ts, TypeTable.tryFrom .debug exLogTypes = .ok ts ∧ ts.length = 3) ∧
    (MapLog.types .debug exLogTypes).lines.map asTypeLine = [
      some (.vector 4 0), some (.refers 0 (.integer 32)), some (.element (some (.integer 32))),
      some (.refers 1 (.vector false 4 0)), some (.vector 4 0), some (.refers 0 (.integer 32)),
      some (.element (some (.integer 32)))] :=
  ⟨⟨_, rfl, rfl⟩, by decide +kernel⟩

/-- The same, but the elements of the vector are an entry that is not there. -/
def exLogStuck : UBlock := .mk (.ir .type) [exLogRecord 1 [3], exLogRecord 7 [32], exLogRecord 11 [2, 2], exLogRecord 12 [4, 5]] []

example : TypeTable.tryFrom .debug exLogStuck = .err (.badIndex 5) ∧
    (MapLog.types .debug exLogStuck).lines.map asTypeLine = [some (.refers 2 (.vector false 4 5)), some (.vector 4 5)] := by
  decide +kernel

/-- An array of itself. -/
def exLogCircle : UBlock := .mk (.ir .type) [exLogRecord 1 [1], exLogRecord 11 [2, 0]] []

example : TypeTable.tryFrom .debug exLogCircle = .diverge := by decide +kernel

end Verif
