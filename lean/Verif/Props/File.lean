import Verif.Props.Module
import Verif.Props.Bitstream
import Verif.Props.Sizes

/-! C51, continued: whole files. -/

namespace Verif
open Spec

/-! ## Lists that agree element by element -/

theorem each_nil_left {α β : Type} {P : α → β → Prop} {m : List β} : Each P [] m ↔ m = [] := by
  unfold Each
  cases m <;> simp

theorem each_cons_left {α β : Type} {P : α → β → Prop} {a : α} {l : List α} {m : List β} :
    Each P (a :: l) m ↔ ∃ b m', m = b :: m' ∧ P a b ∧ Each P l m' := by
  unfold Each
  constructor
  · rintro ⟨h1, h2⟩
    cases m with
    | nil => simp at h1
    | cons b m =>
      exact ⟨b, m, rfl, h2 0 a b rfl rfl, by simpa using h1, fun i a b ha hb => h2 (i + 1) a b (by simpa using ha) (by simpa using hb)⟩
  · rintro ⟨b, m', rfl, h1, h2, h3⟩
    refine ⟨by simpa using h2, fun i a' b' ha hb => ?_⟩
    cases i with
    | zero => cases ha; cases hb; exact h1
    | succ i => exact h3 i a' b' (by simpa using ha) (by simpa using hb)

theorem each_cons {α β : Type} {P : α → β → Prop} {a : α} {b : β} {l : List α} {m : List β} :
    Each P (a :: l) (b :: m) ↔ P a b ∧ Each P l m := by
  rw [each_cons_left]
  constructor
  · rintro ⟨b', m', h, h1, h2⟩; cases h; exact ⟨h1, h2⟩
  · rintro ⟨h1, h2⟩; exact ⟨b, m, rfl, h1, h2⟩

theorem each_append_left {α β : Type} {P : α → β → Prop} {l l' : List α} {m : List β} :
    Each P (l ++ l') m ↔ ∃ x y, m = x ++ y ∧ Each P l x ∧ Each P l' y := by
  induction l generalizing m with
  | nil => simp only [List.nil_append, each_nil_left]; exact ⟨fun h => ⟨[], m, rfl, rfl, h⟩, by rintro ⟨x, y, rfl, rfl, h⟩; exact h⟩
  | cons a l ih =>
    rw [List.cons_append, each_cons_left]
    simp only [ih, each_cons_left]
    constructor
    · rintro ⟨b, m', rfl, h, x, y, rfl, h1, h2⟩
      exact ⟨b :: x, y, rfl, ⟨b, x, rfl, h, h1⟩, h2⟩
    · rintro ⟨x, y, rfl, ⟨b, x', rfl, h, h1⟩, h2⟩
      exact ⟨b, x' ++ y, rfl, h, x', y, rfl, h1, h2⟩

theorem Spec.Each.flip {α β : Type} {P : α → β → Prop} {l : List α} {m : List β} (h : Each P l m) :
    Each (fun b a => P a b) m l := ⟨h.1.symm, fun i a b ha hb => h.2 i b a hb ha⟩

theorem Spec.Each.imp {α β : Type} {P Q : α → β → Prop} {l : List α} {m : List β} (h : Each P l m) (hi : ∀ a b, P a b → Q a b) :
    Each Q l m := ⟨h.1, fun i a b ha hb => hi a b (h.2 i a b ha hb)⟩

/-- Nothing on both sides, or things that agree. -/
def OptEach {α β : Type} (P : α → β → Prop) : Option α → Option β → Prop
  | none, none => True
  | some a, some b => P a b
  | _, _ => False

theorem each_find {α β : Type} {P : α → β → Prop} {f : α → Bool} {g : β → Bool} (hfg : ∀ a b, P a b → f a = g b) {l : List α}
    {m : List β} (h : Each P l m) : OptEach P (l.find? f) (m.find? g) := by
  induction l generalizing m with
  | nil => rw [each_nil_left] at h; subst h; trivial
  | cons a l ih =>
    obtain ⟨b, m, rfl, h1, h2⟩ := each_cons_left.1 h
    simp only [List.find?_cons, hfg a b h1]
    cases g b with
    | true => exact h1
    | false => exact ih h2

theorem each_takeWhile {α β : Type} {P : α → β → Prop} {f : α → Bool} {g : β → Bool} (hfg : ∀ a b, P a b → f a = g b)
    {l : List α} {m : List β} (h : Each P l m) : Each P (l.takeWhile f) (m.takeWhile g) := by
  induction l generalizing m with
  | nil => rw [each_nil_left] at h; subst h; exact each_nil_left.2 rfl
  | cons a l ih =>
    obtain ⟨b, m, rfl, h1, h2⟩ := each_cons_left.1 h
    simp only [List.takeWhile_cons, hfg a b h1]
    cases g b with
    | true => exact each_cons.2 ⟨h1, ih h2⟩
    | false => exact each_nil_left.2 rfl

/-! ## From blocks in the stream to unrolled blocks -/

/-- The unrolled block stands for the block in the stream. -/
def StandsFor (c : BBlock × Forest) (u : UBlock) : Prop := Unrolled c.1.blockId c.2 u

theorem StandsFor.id {c : BBlock × Forest} {u : UBlock} (h : StandsFor c u) : u.id = .ofU64 c.1.blockId := by
  obtain ⟨h, -, -, -⟩ := h; exact h

theorem StandsFor.records {c : BBlock × Forest} {u : UBlock} (h : StandsFor c u) : u.records = c.2.records := by
  obtain ⟨-, h, -, -⟩ := h; exact h

theorem ofU64_beq (a k : U64) (i : BlockId) (hi : i = .ofU64 k) : (BlockId.ofU64 a == i) = (a == k) := by
  rw [Bool.eq_iff_iff]
  simp only [beq_iff_eq, hi]
  exact ⟨fun h => BlockId.ofU64_injective h, fun h => by rw [h]⟩

theorem StandsFor.kinds {c : BBlock × Forest} {u : UBlock} (h : StandsFor c u) :
    (isIdentification u = (c.1.blockId == 13)) ∧ (isModule u = (c.1.blockId == 8)) ∧ (isStrtab u = (c.1.blockId == 23)) ∧
    (isSymtab u = (c.1.blockId == 25)) := by
  unfold isIdentification isModule isStrtab isSymtab
  rw [h.id]
  exact ⟨ofU64_beq _ 13 _ rfl, ofU64_beq _ 8 _ rfl, ofU64_beq _ 23 _ rfl, ofU64_beq _ 25 _ rfl⟩

theorem parts_pairs {tops : List (BBlock × Forest)} {us : List UBlock} (h : Each StandsFor tops us) :
    Each (fun p q => StandsFor p.identification q.identification ∧ OptEach StandsFor p.module q.module ∧
      OptEach StandsFor p.strtab q.strtab ∧ OptEach StandsFor p.symtab q.symtab) (parts tops) (pairs us) := by
  induction tops generalizing us with
  | nil => rw [each_nil_left] at h; subst h; exact each_nil_left.2 rfl
  | cons c cs ih =>
    obtain ⟨u, us, rfl, h1, h2⟩ := each_cons_left.1 h
    unfold parts pairs
    rw [h1.kinds.1]
    by_cases hc : c.1.blockId = 13
    · rw [if_pos hc, if_pos (by simp [hc]), each_cons]
      refine ⟨⟨h1, ?_, ?_, ?_⟩, ih h2⟩
      · exact each_find (fun a b hab => hab.kinds.2.1.symm)
          (each_takeWhile (fun a b hab => by rw [hab.kinds.1]; rfl) h2)
      · exact each_find (fun a b hab => hab.kinds.2.2.1.symm) h2
      · exact each_find (fun a b hab => hab.kinds.2.2.2.symm) h2
    · rw [if_neg hc, if_neg (by rw [beq_iff_eq]; exact hc)]
      exact ih h2

/-- The last element with a property, and what comes after it. -/
theorem last_with {α : Type} (p : α → Bool) (l : List α) :
    l.all (fun x => !p x) = true ∨ ∃ a i b, l = a ++ i :: b ∧ p i = true ∧ b.all (fun x => !p x) = true := by
  induction l with
  | nil => exact .inl rfl
  | cons x l ih =>
    rcases ih with h | ⟨a, i, b, rfl, h1, h2⟩
    · cases hx : p x with
      | true => exact .inr ⟨[], x, l, rfl, hx, h⟩
      | false => left; simp only [List.all_cons, hx, h]; rfl
    · exact .inr ⟨x :: a, i, b, rfl, h1, h2⟩

theorem takeWhile_reverse_last {α : Type} (p : α → Bool) (a b : List α) (i : α) (h1 : p i = true)
    (h2 : b.all (fun x => !p x) = true) : (a ++ i :: b).reverse.takeWhile (fun x => !p x) = b.reverse := by
  rw [List.reverse_append, List.reverse_cons, List.append_assoc]
  rw [List.takeWhile_append_of_pos (by intro x hx; exact List.all_eq_true.1 h2 x (List.mem_reverse.1 hx))]
  simp [h1]

theorem offence_none_iff (pre : List UBlock) (u : UBlock) :
    offence pre u = none ↔ (isIdentification u = true ∨ isStrtab u = true ∨ isSymtab u = true) ∨
      (isModule u = true ∧ ∃ a i b, pre = a ++ i :: b ∧ isIdentification i = true ∧
        ∀ d ∈ b, isIdentification d = false ∧ isModule d = false) := by
  have hk : isModule u = true → isIdentification u = false ∧ isStrtab u = false ∧ isSymtab u = false := by
    rcases id_cases u with h | h | h | h | h <;> simp [h.1, h.2.1, h.2.2.1, h.2.2.2.1]
  unfold offence
  cases hm : isModule u with
  | false =>
    simp only [Bool.false_eq_true, if_false, false_and, or_false]
    cases isIdentification u <;> cases isStrtab u <;> cases isSymtab u <;> simp
  | true =>
    obtain ⟨h1, h2, h3⟩ := hk hm
    simp only [if_true, h1, h2, h3, Bool.false_eq_true, false_or, true_and]
    rcases last_with isIdentification pre with h | ⟨a, i, b, rfl, hi, hb⟩
    · rw [if_pos h]
      simp only [reduceCtorEq, false_iff]
      rintro ⟨a, i, b, rfl, hi, -⟩
      have := List.all_eq_true.1 h i (by simp)
      simp [hi] at this
    · rw [if_neg (by simp [hi]), takeWhile_reverse_last _ _ _ _ hi hb]
      constructor
      · intro h
        refine ⟨a, i, b, rfl, hi, fun d hd => ⟨by simpa using List.all_eq_true.1 hb d hd, ?_⟩⟩
        cases hd' : isModule d with
        | false => rfl
        | true =>
          rw [if_pos (List.any_eq_true.2 ⟨d, List.mem_reverse.2 hd, hd'⟩)] at h
          cases h
      · rintro ⟨a', i', b', he, hi', hb'⟩
        rw [if_neg]
        intro hany
        obtain ⟨d, hd, hd'⟩ := List.any_eq_true.1 hany
        -- the two decompositions are the same
        have hbb : b = b' := by
          have e1 := takeWhile_reverse_last isIdentification a b i hi hb
          have e2 := takeWhile_reverse_last isIdentification a' b' i' hi'
            (List.all_eq_true.2 fun x hx => by simp [(hb' x hx).1])
          rw [he, e2] at e1
          simpa using e1.symm
        have := (hb' d (hbb ▸ List.mem_reverse.1 hd)).2
        rw [hd'] at this; cases this

theorem orderly_inOrder {tops : List (BBlock × Forest)} {us : List UBlock} (h : Each StandsFor tops us) :
    Orderly us ↔ InOrder tops := by
  have h13 : ∀ {c u}, StandsFor c u → (isIdentification u = true ↔ c.1.blockId = 13) := fun h => by simp [h.kinds.1]
  have h8 : ∀ {c u}, StandsFor c u → (isModule u = true ↔ c.1.blockId = 8) := fun h => by simp [h.kinds.2.1]
  have h23 : ∀ {c u}, StandsFor c u → (isStrtab u = true ↔ c.1.blockId = 23) := fun h => by simp [h.kinds.2.2.1]
  have h25 : ∀ {c u}, StandsFor c u → (isSymtab u = true ↔ c.1.blockId = 25) := fun h => by simp [h.kinds.2.2.2]
  constructor
  · intro ho pre c post he
    subst he
    obtain ⟨x, y, rfl, hx, hy⟩ := each_append_left.1 h
    obtain ⟨u, post', rfl, hu, hp⟩ := each_cons_left.1 hy
    have := (offence_none_iff _ _).1 (ho x u post' rfl)
    rw [h13 hu, h8 hu, h23 hu, h25 hu] at this
    rcases this with h' | ⟨h', a, i, b, rfl, hi, hb⟩
    · left; simpa using h'
    · right
      obtain ⟨a', y', rfl, ha, hy'⟩ := each_append_left.1 hx.flip
      obtain ⟨i', b', rfl, hi', hb'⟩ := each_cons_left.1 hy'
      refine ⟨h', a', i', b', rfl, (h13 hi').1 hi, fun d hd => ?_⟩
      obtain ⟨k, hk⟩ := List.getElem?_of_mem hd
      have hlt : k < b.length := by rw [← hb'.1]; exact (List.getElem?_eq_some_iff.1 hk).1
      have hs := hb'.2 k _ d (List.getElem?_eq_getElem hlt) hk
      have hmem := List.getElem_mem hlt
      generalize b[k] = v at hs hmem
      obtain ⟨hv1, hv2⟩ := hb v hmem
      obtain ⟨b₁, b₂, hbe⟩ := List.append_of_mem hmem
      have hk := (offence_none_iff _ _).1 (ho (a ++ i :: b₁) v (b₂ ++ u :: post') (by rw [hbe]; simp))
      rw [hv1, hv2] at hk
      simp only [Bool.false_eq_true, false_or, false_and, or_false, h23 hs, h25 hs] at hk
      simpa using hk
  · intro ho pre u post he
    subst he
    obtain ⟨x, y, rfl, hx, hy⟩ := each_append_left.1 h.flip
    obtain ⟨c, post', rfl, hu, hp⟩ := each_cons_left.1 hy
    have := ho x c post' rfl
    rw [offence_none_iff, h13 hu, h8 hu, h23 hu, h25 hu]
    rcases this with h' | ⟨h', a, i, b, rfl, hi, hb⟩
    · left; simpa using h'
    · right
      obtain ⟨a', y', rfl, ha, hy'⟩ := each_append_left.1 hx.flip
      obtain ⟨i', b', rfl, hi', hb'⟩ := each_cons_left.1 hy'
      refine ⟨h', a', i', b', rfl, (h13 hi').2 hi, fun d hd => ?_⟩
      obtain ⟨k, hk⟩ := List.getElem?_of_mem hd
      have hlt : k < b.length := by rw [← hb'.1]; exact (List.getElem?_eq_some_iff.1 hk).1
      have hs := hb'.2 k _ d (List.getElem?_eq_getElem hlt) hk
      have := hb _ (List.getElem_mem hlt)
      rw [hs.kinds.1, hs.kinds.2.1]
      simp only [List.mem_cons, List.not_mem_nil, or_false] at this
      rcases this with h | h <;> rw [h] <;> decide

/-! ## Modules with their tables -/

theorem tryFrom_iff (pf : Profile) (target : Str) {c : BBlock × Forest} {u : UBlock} (hu : StandsFor c u) (strtab : Strtab)
    (hs : strtab.bytes.length < 2 ^ 64) (m : Module) :
    Module.tryFrom pf target u { PartialMapCtx.default with strtab } = .ok m ↔
      ∃ ctx fs as, ModuleSays pf target strtab c.2 m ctx fs as := by
  unfold Module.tryFrom
  simp only [Out.bind_eq_ok, Out.ok.injEq]
  constructor
  · rintro ⟨⟨m', ctx, fs, as⟩, h, rfl⟩
    exact ⟨ctx, fs, as, (C51_module pf target hu strtab hs ..).1 h⟩
  · rintro ⟨ctx, fs, as, h⟩
    exact ⟨(m, ctx, fs, as), (C51_module pf target hu strtab hs ..).2 h, rfl⟩

theorem strtab_says (pf : Profile) {c : BBlock × Forest} {u : UBlock} (hu : StandsFor c u) (t : Strtab) :
    Strtab.tryFrom pf u = .ok t ↔ TableSays pf c.2.records t.bytes := by
  rw [C52_strtab, hu.records]; rfl

theorem symtab_says (pf : Profile) {c : BBlock × Forest} {u : UBlock} (hu : StandsFor c u) (t : Symtab) :
    Symtab.tryFrom pf u = .ok t ↔ TableSays pf c.2.records t.bytes := by
  rw [C52_symtab, hu.records]; rfl

theorem identification_says (pf : Profile) {c : BBlock × Forest} {u : UBlock} (hu : StandsFor c u) (i : Identification) :
    Identification.tryFrom pf u = .ok i ↔ IdentificationSays pf c.2.records i := by
  rw [C52_identification, hu.records]; rfl

theorem reify_iff (pf : Profile) (target : Str) {p : Parts (BBlock × Forest)} {q : PartialModule} {m : BitcodeModule}
    (hs : ∀ c bs, p.strtab = some c → TableSays pf c.2.records bs → bs.length < 2 ^ 64)
    (hi : StandsFor p.identification q.identification)
    (hm : OptEach StandsFor p.module q.module) (hst : OptEach StandsFor p.strtab q.strtab)
    (hsy : OptEach StandsFor p.symtab q.symtab) : q.reify pf target = .ok m ↔ PartsSay pf target p m := by
  have hopt : ∀ s, optSymtab pf q.symtab = .ok s ↔ (p.symtab = none ∧ s = none) ∨
      ∃ c x, p.symtab = some c ∧ s = some x ∧ TableSays pf c.2.records x.bytes := by
    intro s
    cases hp : p.symtab with
    | none =>
      rw [hp] at hsy
      cases hq : q.symtab with
      | none => simp [optSymtab, eq_comm]
      | some u => rw [hq] at hsy; exact hsy.elim
    | some c =>
      rw [hp] at hsy
      cases hq : q.symtab with
      | none => rw [hq] at hsy; exact hsy.elim
      | some u =>
        rw [hq] at hsy
        have hsy : StandsFor c u := hsy
        simp only [optSymtab, Out.bind_eq_ok, symtab_says pf hsy, Out.ok.injEq]
        constructor
        · rintro ⟨x, h1, rfl⟩; exact .inr ⟨c, x, rfl, rfl, h1⟩
        · rintro (⟨h, -⟩ | ⟨c', x, h1, rfl, h2⟩)
          · cases h
          · cases h1; exact ⟨x, h2, rfl⟩
  unfold PartialModule.reify
  simp only [Out.bind_eq_ok, Out.mapErr_eq_ok, ofOption_eq_ok, Out.ok.injEq, identification_says pf hi, hopt]
  constructor
  · rintro ⟨sb, hsb, st, hst', i, hid, mb, hmb, mo, hmo, sy, hsy', rfl⟩
    cases hp : p.strtab with
    | none => rw [hp, hsb] at hst; exact hst.elim
    | some c =>
      rw [hp, hsb] at hst
      cases hp' : p.module with
      | none => rw [hp', hmb] at hm; exact hm.elim
      | some d =>
        rw [hp', hmb] at hm
        obtain ⟨ctx, fs, as, h⟩ := (tryFrom_iff pf target hm st (hs c _ hp ((strtab_says pf hst st).1 hst')) mo).1 hmo
        exact {
          identification := hid
          strtab := ⟨c, hp, (strtab_says pf hst st).1 hst'⟩
          module := ⟨d, ctx, fs, as, hp', h⟩
          symtab := hsy' }
  · rintro ⟨h1, ⟨c, hc, h2⟩, ⟨d, ctx, fs, as, hd, h3⟩, h4⟩
    rw [hc] at hst
    rw [hd] at hm
    cases hq : q.strtab with
    | none => rw [hq] at hst; exact hst.elim
    | some sb =>
      rw [hq] at hst
      cases hq' : q.module with
      | none => rw [hq'] at hm; exact hm.elim
      | some mb =>
        rw [hq'] at hm
        exact ⟨sb, rfl, m.strtab, (strtab_says pf hst _).2 h2, m.identification, h1, mb, rfl, m.module,
          (tryFrom_iff pf target hm _ (hs c _ hc h2) _).2 ⟨ctx, fs, as, h3⟩, m.symtab, h4, rfl⟩

/-! ## Files -/

theorem delivers_length {pf : Profile} {es : List StreamEntry} : ∀ {b : Bitstream}, PInv b.parser → Delivers pf b es →
    es.length ≤ b.len - b.pos := by
  induction es with
  | nil => intro b _ _; simp
  | cons e es ih =>
    rintro b h ⟨b', h1, h2⟩
    obtain ⟨-, g2, g3, g4, -, g6, -⟩ := next_progress (pf := pf) h
    have hp := next_pinv (pf := pf) h
    rw [h1] at g2 g3 g4 g6 hp
    have := g6 e rfl
    have := ih hp h2
    simp only [List.length_cons] at *
    omega

/-- C28 for streams that were opened by the API. -/
theorem C28_all_complete (pf : Profile) {b : Bitstream} (ho : Opened pf b) {tops : List (BBlock × Forest)}
    (hd : Delivers pf b (completeEntries tops)) :
    ∃ us : List UBlock, us.length = tops.length ∧
      (∀ (i : Nat) (c : BBlock × Forest) (u : UBlock), tops[i]? = some c → us[i]? = some u →
        Unrolled c.1.blockId c.2 u) ∧
      (Orderly us → unroll pf b = .ok (pairs us)) ∧
      (∀ pre u post m, us = pre ++ u :: post → Orderly pre → offence pre u = some m →
        unroll pf b = .err (.unroll m)) := by
  refine C28_complete pf hd ?_
  have := delivers_length ho.start.1 hd
  have : b.len = b.parser.cursor.bitLen := rfl
  unfold unrollFuel; omega

theorem Spec.Forest.record_entry {t : Forest} {r : BRecord} (h : r ∈ t.records) : .record r ∈ t.entries := by
  induction t with
  | nil => cases h
  | record x rest ih =>
    rcases List.mem_cons.1 h with rfl | h
    · exact List.mem_cons_self
    · exact List.mem_cons_of_mem _ (ih h)
  | block b body rest _ ih =>
    simp only [Forest.entries, List.mem_cons, List.mem_append]
    exact .inr (.inr (.inr (ih h)))

theorem record_completeEntries {tops : List (BBlock × Forest)} {c : BBlock × Forest} (hc : c ∈ tops) {r : BRecord}
    (hr : r ∈ c.2.records) : .record r ∈ completeEntries tops := by
  unfold completeEntries
  rw [List.mem_flatMap]
  exact ⟨c, hc, List.mem_cons_of_mem _ (List.mem_append_left _ (Forest.record_entry hr))⟩

/-- A table has fewer bytes than the stream it is read from has bits. -/
theorem table_small {pf : Profile} {b : Bitstream} (ho : Opened pf b) {tops : List (BBlock × Forest)} {n : Nat}
    (hd : items (iterate pf n b).1 = completeEntries tops) {c : BBlock × Forest} (hc : c ∈ tops) {bs : List U8}
    (hs : TableSays pf c.2.records bs) : bs.length < b.len := by
  obtain ⟨r, ⟨pre, post, he, -, -⟩, hb, -, -⟩ := hs
  have := iterate_small n ho.start.1 (opened_small ho) r
    (by rw [hd]; exact record_completeEntries hc (by rw [he]; simp))
  rw [hb, List.length_map] at this
  exact this

theorem parts_strtab_mem {tops : List (BBlock × Forest)} {p : Parts (BBlock × Forest)} (hp : p ∈ parts tops)
    {c : BBlock × Forest} (hc : p.strtab = some c) : c ∈ tops := by
  induction tops with
  | nil => cases hp
  | cons d tops ih =>
    unfold parts at hp
    split at hp
    · rcases List.mem_cons.1 hp with rfl | hp
      · exact List.mem_cons_of_mem _ (List.mem_of_find?_eq_some hc)
      · exact List.mem_cons_of_mem _ (ih hp)
    · exact List.mem_cons_of_mem _ (ih hp)

/-- C51. Mapping a stream succeeds with `f` exactly if the stream delivers complete blocks and `f` is what these say. (The
stream has less than 2 ^ 64 bits: two exbibytes.) -/
theorem C51_stream (pf : Profile) (target : Str) {b : Bitstream} (ho : Opened pf b) (hlen : b.len ≤ 2 ^ 64) (f : Bitcode) :
    Bitcode.ofStream pf target b = .ok f ↔
      ∃ tops, Delivers pf b (completeEntries tops) ∧ FileSays pf target tops f := by
  have key : ∀ (tops : List (BBlock × Forest)) (us : List UBlock), Delivers pf b (completeEntries tops) →
      Each StandsFor tops us →
      (mapOut (PartialModule.reify pf target) (pairs us) = .ok f.modules ↔ Each (PartsSay pf target) (parts tops) f.modules) := by
    intro tops us hd h
    have hp := parts_pairs h
    have hmem : ∀ p ∈ parts tops, ∀ c bs, p.strtab = some c → TableSays pf c.2.records bs → bs.length < 2 ^ 64 :=
      fun p hp c bs hc hbs =>
        Nat.lt_of_lt_of_le (table_small ho (delivers_iterate hd) (parts_strtab_mem hp hc) hbs) hlen
    rw [mapOut_eq_ok]
    unfold Each
    rw [hp.1]
    constructor
    · rintro ⟨h1, h2⟩
      refine ⟨h1, fun i p m hpi hm => ?_⟩
      have hlt : i < (pairs us).length := by rw [hp.1]; exact (List.getElem?_eq_some_iff.1 hpi).1
      obtain ⟨g1, g2, g3, g4⟩ := hp.2 i p _ hpi (List.getElem?_eq_getElem hlt)
      exact (reify_iff pf target (hmem p (List.mem_of_getElem? hpi)) g1 g2 g3 g4).1 (h2 i _ m (List.getElem?_eq_getElem hlt) hm)
    · rintro ⟨h1, h2⟩
      refine ⟨h1, fun i q m hq hm => ?_⟩
      have hlt : i < (parts tops).length := by rw [← hp.1]; exact (List.getElem?_eq_some_iff.1 hq).1
      obtain ⟨g1, g2, g3, g4⟩ := hp.2 i _ q (List.getElem?_eq_getElem hlt) hq
      exact (reify_iff pf target (hmem _ (List.getElem_mem hlt)) g1 g2 g3 g4).2 (h2 i _ m (List.getElem?_eq_getElem hlt) hm)
  unfold Bitcode.ofStream
  simp only [Out.bind_eq_ok, Out.mapErr_eq_ok, Out.ok.injEq]
  constructor
  · rintro ⟨ps, hps, ms, hms, rfl⟩
    obtain ⟨tops, us, hd, hl, hu, hord, rfl⟩ := C29_pairing pf ho hps
    have h : Each StandsFor tops us := ⟨hl, hu⟩
    exact ⟨tops, hd, (orderly_inOrder h).1 hord, (key tops us hd h).1 hms⟩
  · rintro ⟨tops, hd, hord, hsay⟩
    obtain ⟨us, hl, hu, hok, -⟩ := C28_all_complete pf ho hd
    have h : Each StandsFor tops us := ⟨hl, hu⟩
    exact ⟨_, hok ((orderly_inOrder h).2 hord), f.modules, (key tops us hd h).2 hsay, rfl⟩

/-- C51. Mapping bytes succeeds with `f` exactly if they are a stream that delivers complete blocks and `f` is what these
say. -/
theorem C51_bytes (pf : Profile) (target : Str) (bytes : List U8) (hlen : bytes.length ≤ 2 ^ 61) (f : Bitcode) :
    Bitcode.tryFrom pf target bytes = .ok f ↔
      ∃ w b tops, Bitstream.from pf bytes = .ok (w, b) ∧ Delivers pf b (completeEntries tops) ∧ FileSays pf target tops f := by
  have hb' : ∀ {w b}, Bitstream.from pf bytes = .ok (w, b) → b.len ≤ 2 ^ 64 := fun h => by
    have := from_len h
    omega
  unfold Bitcode.tryFrom
  simp only [Out.bind_eq_ok, Out.mapErr_eq_ok]
  constructor
  · rintro ⟨⟨w, b⟩, hb, h⟩
    obtain ⟨tops, hd, hs⟩ := (C51_stream pf target (.auto hb) (hb' hb) f).1 h
    exact ⟨w, b, tops, hb, hd, hs⟩
  · rintro ⟨w, b, tops, hb, hd, hs⟩
    exact ⟨(w, b), hb, (C51_stream pf target (.auto hb) (hb' hb) f).2 ⟨tops, hd, hs⟩⟩

/-- C51. Whatever a file says, its bytes, however they are encoded, map to just that. Missing: texts of one byte, which are
not accepted (`Holds`), and the listings of types that C40 and C41 exclude. -/
theorem C51_written_partial (pf : Profile) (target : Str) {magic : U32} {its : Items} {bytes : List U8} {es : List Entry}
    (h : streamBytes magic its = some (bytes, es)) (hm : magic ≠ 0x0B17C0DE) (hlen : bytes.length ≤ 2 ^ 61)
    (tops : List (BBlock × Forest)) (htops : es.map Entry.toStream = completeEntries tops) (f : Bitcode)
    (hsay : FileSays pf target tops f) :
    Bitcode.tryFrom pf target bytes = .ok f := by
  obtain ⟨b, hb, -, hd⟩ := Props.C18_stream_roundtrip_from pf h hm
  rw [htops] at hd
  exact (C51_bytes pf target bytes hlen f).2 ⟨none, b, tops, hb, hd, hsay⟩

/-- A file with one module: a triple, a datalayout, two lines of assembly, a section, a library, a table of types with a
function type, attributes, a COMDAT, a declaration `int f(int)` in the section with the attributes, and an alias. -/
def exFile : Items :=
  .block 13 5 (.unabbrev 1 [76, 76, 86, 77] (.unabbrev 2 [0] .nil)) <|
  .block 8 3 (
    .unabbrev 1 [2] <|
    .block 10 3 (.unabbrev 3 [1, 0xffffffff, 0, 18, 3, 97, 98, 0] .nil) <|
    .block 9 3 (.unabbrev 2 [1] .nil) <|
    .block 17 4 (.unabbrev 1 [3] <| .unabbrev 7 [32] <| .unabbrev 21 [0, 0, 0] <| .unabbrev 8 [1, 0] .nil) <|
    .unabbrev 2 [120, 56, 54] <|
    .define { scalars := [.lit 3], tail := .array (.fixed 7) } <|
    .abbrev 4 3 [101, 45, 112, 58, 51, 50, 58, 51, 50] <|
    .unabbrev 4 [110, 111, 112, 10, 114, 101, 116] <|
    .unabbrev 5 [46, 116] <|
    .unabbrev 6 [109, 109] <|
    .unabbrev 12 [0, 1, 0] <|
    .unabbrev 8 [1, 1, 1, 0, 1, 0, 1, 3, 1, 0] <|
    .block 14 4 .nil <|
    .unabbrev 14 [0, 2, 2, 0, 0] .nil) <|
  .block 25 3 (.unabbrev 1 [7, 8, 9] .nil) <|
  .block 23 3 (.define { scalars := [.lit 1], tail := .blob } (.abbrev 4 1 [99, 102, 103] .nil)) .nil

/-- What it maps to. -/
def exBitcode : Bitcode :=
  { modules := [
    { identification := { producer := "LLVM".toList, epoch := 0 }
      module := { triple := "x86".toList, asm := ["nop".toList, "ret".toList], deplibs := ["mm".toList] }
      strtab := { bytes := [99, 102, 103] }
      symtab := some { bytes := [7, 8, 9] } }] }

theorem exFile_maps (pf : Profile) :
    (streamBytes 0xdec04342 exFile).map (fun x => Bitcode.tryFrom pf "t".toList x.1) = some (.ok exBitcode) := by
  cases pf <;> decide +kernel

end Verif
