import Verif.Bitstream.Run

/-!
Reachable streams; the context of the enclosing block while a block is open.
-/

set_option linter.unusedSimpArgs false

namespace Verif
open Spec Cursor Parser

theorem Reach.pinv {pf : Profile} {b : Bitstream} (h : Reach pf b) : PInv b.parser := by
  induction h with
  | opened h => exact h.start.1
  | next _ ih => exact next_pinv ih

theorem next_winv {pf : Profile} {b : Bitstream} (h : PInv b.parser) (hw : WInv b.parser.cursor) :
    WInv (Bitstream.next pf b).2.parser.cursor := by
  have hs := pstep_advance (pf := pf) h
  have key : WInv (Parser.advance pf b.parser).2.cursor :=
    ⟨hs.inv.cur, by rw [hs.same.2]; exact hw.len4, hs.word hw.len4 hw.pos4⟩
  unfold Bitstream.next Bitstream.advance
  match hr : Parser.advance pf b.parser with
  | (.ok e, p') => rw [hr] at key; exact key
  | (.err e, p') => rw [hr] at key; cases e <;> exact key
  | (.panic e, p') => rw [hr] at key; exact key
  | (.diverge, p') => rw [hr] at key; exact key

theorem winv_fromCursor {c : Cursor} (h : Inv c) (hp : c.bytePos % 4 = 0) {b : Bitstream}
    (hb : Bitstream.fromCursor c = .ok b) : WInv b.parser.cursor := by
  rcases fromCursor_spec h with ⟨g4, -, v, c', e, -, sb, hi, -, -, hm⟩ | ⟨-, e⟩
  · rw [e] at hb; simp only [Out.ok.injEq] at hb; subst hb
    exact ⟨hi, by show c'.byteLen % 4 = 0; rw [sb.2]; exact g4, hm g4 hp⟩
  · rw [e] at hb; simp at hb

theorem ReachAligned.inv {pf : Profile} {b : Bitstream} (h : ReachAligned pf b) :
    PInv b.parser ∧ WInv b.parser.cursor := by
  induction h with
  | raw h => exact ⟨(opened_fromCursor (inv_new _) h).1, winv_fromCursor (inv_new _) rfl h⟩
  | @wrapped bytes w b h h4 =>
    rcases fromWrapped_spec pf bytes with ⟨w', -, hs, ho, e⟩ | ⟨w', -, -, e⟩ | ⟨w', -, -, -, e⟩ | ⟨-, e⟩
    · rw [e] at h
      cases hc : Bitstream.fromCursor (windowCursor bytes (w'.size.toNat + 20) w'.offset.toNat) with
      | ok b' =>
        rw [hc] at h; simp [Out.bind] at h
        obtain ⟨rfl, rfl⟩ := h
        exact ⟨(opened_fromCursor (inv_window hs ho) hc).1, winv_fromCursor (inv_window hs ho) h4 hc⟩
      | err _ => rw [hc] at h; simp [Out.bind] at h
      | panic _ => rw [hc] at h; simp [Out.bind] at h
      | diverge => rw [hc] at h; simp [Out.bind] at h
    · rw [e] at h; simp at h
    · rw [e] at h; simp at h
    · rw [e] at h; simp at h
  | next _ ih => exact ⟨next_pinv ih.1, next_winv ih.1 ih.2⟩

/-! ## No block has id width 0 -/

def WidthOK (l : List Scope) : Prop := ∀ s ∈ l, s.abbrevIdWidth ≠ 0

theorem WidthOK.step {pf : Profile} {p : Parser} (h : WidthOK p.scopes) : WidthOK (Parser.step pf p).2.scopes := by
  have he := eff_step pf p
  unfold Eff at he
  generalize (Parser.step pf p).2.scopes = sc' at he
  generalize (Parser.step pf p).2.blockinfo = info' at he
  generalize (Parser.step pf p).1 = r at he
  have tail : ∀ {s : Scope} {rest : List Scope}, p.scopes = s :: rest → s.abbrevIdWidth ≠ 0 ∧ WidthOK rest := by
    intro s rest hs
    rw [hs] at h
    exact ⟨h s (by simp), fun t ht => h t (by simp [ht])⟩
  have cons : ∀ {s : Scope} {rest : List Scope}, s.abbrevIdWidth ≠ 0 → WidthOK rest → WidthOK (s :: rest) := by
    intro s rest h1 h2 t ht
    rcases List.mem_cons.1 ht with rfl | ht
    · exact h1
    · exact h2 t ht
  cases he with
  | fail hx => exact h
  | enter i w len hw => exact cons hw h
  | exit hs => exact (tail hs).2
  | define hs => exact cons (tail hs).1 (tail hs).2
  | register hs => exact h
  | setBid t hs => exact cons (tail hs).1 (tail hs).2
  | ignore hs => exact h
  | record hs => exact h

theorem WidthOK.rounds {pf : Profile} {p q : Parser} (hr : Rounds pf p q) (h : WidthOK p.scopes) : WidthOK q.scopes := by
  induction hr with
  | refl => exact h
  | step hs _ ih =>
    have := h.step (pf := pf)
    rw [hs] at this
    exact ih this

theorem WidthOK.next {pf : Profile} {b : Bitstream} (h : WidthOK b.parser.scopes) (hp : PInv b.parser) :
    WidthOK (Bitstream.next pf b).2.parser.scopes := by
  obtain ⟨q, hr, hq, hne, he⟩ := advance_rounds (pf := pf) hp
  have key := (h.rounds hr).step (pf := pf)
  have : (Bitstream.next pf b).2.parser = (Parser.step pf q).2 := by
    unfold Bitstream.next Bitstream.advance
    rw [he]
    match hst : (Parser.step pf q).1 with
    | .ok (some e) => rfl
    | .ok none => rfl
    | .err e => cases e <;> rfl
    | .panic e => rfl
    | .diverge => rfl
  rw [this]; exact key

theorem Reach.width {pf : Profile} {b : Bitstream} (h : Reach pf b) : WidthOK b.parser.scopes := by
  induction h with
  | opened h =>
    rw [h.start.2.1]
    intro s hs
    rw [List.mem_singleton] at hs
    subst hs; decide
  | next h ih => exact ih.next h.pinv

/-! ## The enclosing context -/

def visibleOf (l : List Scope) : List U64 := l.filterMap Scope.visibleId

/-- The stack has `lower` at the bottom, above it a visible block, above that `top`. -/
structure Above (lower : List Scope) (id : U64) (st : List U64) (p : Parser) : Prop where
  ex : ∃ top s, p.scopes = top ++ s :: lower ∧ s.visibleId = some id ∧ visibleOf top = st

theorem visible_replace {w id : U64} {bid bid' : Option U64} {l l' : List Abbrev} :
    Scope.visibleId (.block w id bid l) = Scope.visibleId (.block w id bid' l') := rfl

theorem Above.step {pf : Profile} {lower : List Scope} {id : U64} {st : List U64} {p p' : Parser}
    {r : Out BErr (Option StreamEntry)} (h : Above lower id st p) (hp : PInv p) (hs : Parser.step pf p = (r, p')) :
    ((∀ e, r ≠ .ok (some e)) → Above lower id st p') ∧
    (∀ e, r = .ok (some e) →
      (∃ st', openBlocks st [e] = some st' ∧ Above lower id st' p') ∨ (e = .endBlock ∧ st = [] ∧ p'.scopes = lower) ∨
      (∃ x, e = .record x ∧ st = [] ∧ Above lower id st p')) := by
  obtain ⟨top, s, hsc, hv, hst⟩ := h
  have he := eff_step pf p
  have hstk := hp.stack
  rw [hs] at he
  unfold Eff at he
  simp only at he
  generalize hsc' : p'.scopes = sc' at he
  generalize hinfo' : p'.blockinfo = info' at he
  have same : p'.scopes = p.scopes → Above lower id st p' := fun h => ⟨top, s, by rw [h, hsc], hv, hst⟩
  have repl : ∀ (a a' : Scope) (rest : List Scope), a.visibleId = a'.visibleId → p.scopes = a :: rest →
      p'.scopes = a' :: rest → Above lower id st p' := by
    intro a a' rest hva h1 h2
    cases top with
    | nil =>
      rw [h1] at hsc
      simp only [List.nil_append, List.cons.injEq] at hsc
      obtain ⟨rfl, rfl⟩ := hsc
      exact ⟨[], a', by rw [h2]; rfl, by rw [← hva, hv], hst⟩
    | cons t top =>
      rw [h1] at hsc
      simp only [List.cons_append, List.cons.injEq] at hsc
      obtain ⟨rfl, rfl⟩ := hsc
      refine ⟨a' :: top, s, by rw [h2]; rfl, hv, ?_⟩
      simp only [visibleOf, List.filterMap_cons] at hst ⊢
      rw [← hva]; exact hst
  cases he with
  | fail hx => exact ⟨fun _ => same hsc', fun e hh => absurd hh (hx _)⟩
  | enter i w len hw =>
    by_cases h0 : i = 0
    · rw [if_pos h0]
      refine ⟨fun _ => ⟨_ :: top, s, by rw [hsc', hsc]; rfl, hv, ?_⟩, fun e hh => by simp at hh⟩
      simp only [visibleOf, List.filterMap_cons, Scope.visibleId]
      rw [if_pos h0]; exact hst
    · rw [if_neg h0]
      refine ⟨fun hh => absurd rfl (hh _), fun e hh => .inl ?_⟩
      simp only [Out.ok.injEq, Option.some.injEq] at hh
      subst hh
      refine ⟨i :: st, rfl, ⟨_ :: top, s, by rw [hsc', hsc]; rfl, hv, ?_⟩⟩
      simp only [visibleOf, List.filterMap_cons, Scope.visibleId]
      rw [if_neg h0, ← hst]; rfl
  | @exit a t rest hs' =>
    rw [hs'] at hstk hsc
    have hne : a ≠ .initial := hstk.1
    cases a with
    | initial => exact absurd rfl hne
    | block w i bid l =>
      rw [isBlockinfo_block]
      cases top with
      | nil =>
        simp only [List.nil_append, List.cons.injEq] at hsc
        obtain ⟨rfl, rfl⟩ := hsc
        simp only [Scope.visibleId] at hv
        by_cases h0 : i = 0
        · rw [if_pos h0] at hv; simp at hv
        · rw [if_neg (by simpa using h0)]
          refine ⟨fun hh => absurd rfl (hh _), fun e hh => .inr (.inl ?_)⟩
          simp only [Out.ok.injEq, Option.some.injEq] at hh
          exact ⟨hh.symm, by rw [← hst]; rfl, rfl⟩
      | cons b top =>
        simp only [List.cons_append, List.cons.injEq] at hsc
        obtain ⟨rfl, hsc⟩ := hsc
        by_cases h0 : i = 0
        · rw [if_pos (by simpa using h0)]
          refine ⟨fun _ => ⟨top, s, by rw [hsc', hsc], hv, ?_⟩, fun e hh => by simp at hh⟩
          simp only [visibleOf, List.filterMap_cons, Scope.visibleId] at hst
          rw [if_pos h0] at hst; exact hst
        · rw [if_neg (by simpa using h0)]
          refine ⟨fun hh => absurd rfl (hh _), fun e hh => .inl ?_⟩
          simp only [Out.ok.injEq, Option.some.injEq] at hh
          subst hh
          simp only [visibleOf, List.filterMap_cons, Scope.visibleId] at hst
          rw [if_neg h0] at hst
          subst hst
          exact ⟨_, rfl, ⟨top, s, by rw [hsc', hsc], hv, rfl⟩⟩
  | define hs' hid hwf => exact ⟨fun _ => repl _ _ _ (by rfl) hs' hsc', fun e hh => by simp at hh⟩
  | register hs' hwf => exact ⟨fun _ => same hsc', fun e hh => by simp at hh⟩
  | setBid t hs' => exact ⟨fun _ => repl _ _ _ (by rfl) hs' hsc', fun e hh => by simp at hh⟩
  | ignore hs' => exact ⟨fun _ => same hsc', fun e hh => by simp at hh⟩
  | @record w i bid l rest x hs' hid hr =>
    refine ⟨fun hh => absurd rfl (hh _), fun e hh => ?_⟩
    simp only [Out.ok.injEq, Option.some.injEq] at hh
    subst hh
    cases st with
    | nil => exact .inr (.inr ⟨x, rfl, rfl, same hsc'⟩)
    | cons a st => exact .inl ⟨_, rfl, same hsc'⟩

theorem Above.rounds {pf : Profile} {lower : List Scope} {id : U64} {st : List U64} {p q : Parser}
    (hr : Rounds pf p q) (h : Above lower id st p) (hp : PInv p) : Above lower id st q := by
  induction hr with
  | refl => exact h
  | step hs _ ih =>
    have hi := (pgood_step (pf := pf) _ hp).inv
    rw [hs] at hi
    exact ih ((h.step hp hs).1 (by simp)) hi

/-- One call of `next`, above a given block. -/
theorem Above.next {pf : Profile} {lower : List Scope} {id : U64} {st : List U64} {b : Bitstream}
    (h : Above lower id st b.parser) (hp : PInv b.parser) :
    ((∀ e, (Bitstream.next pf b).1 ≠ .item e) → Above lower id st (Bitstream.next pf b).2.parser) ∧
    (∀ e, (Bitstream.next pf b).1 = .item e →
      (∃ st', openBlocks st [e] = some st' ∧ Above lower id st' (Bitstream.next pf b).2.parser) ∨
      (e = .endBlock ∧ st = [] ∧ (Bitstream.next pf b).2.parser.scopes = lower) ∨
      (∃ x, e = .record x ∧ st = [] ∧ Above lower id st (Bitstream.next pf b).2.parser)) := by
  obtain ⟨q, hr, hq, hne, he⟩ := advance_rounds (pf := pf) hp
  obtain ⟨v1, v2⟩ := (h.rounds hr hp).step (pf := pf) hq (p' := (Parser.step pf q).2) (r := (Parser.step pf q).1) rfl
  unfold Bitstream.next Bitstream.advance
  rw [he]
  match hst : Parser.step pf q with
  | (.ok (some e), p') =>
    rw [hst] at v2
    refine ⟨fun hh => absurd rfl (hh e), fun e' he' => ?_⟩
    simp only [finish, Bitstream.Next.item.injEq] at he'
    subst he'
    exact v2 e rfl
  | (.ok none, p') => rw [hst] at hne; simp at hne
  | (.err e, p') =>
    rw [hst] at v1
    cases e <;> exact ⟨fun _ => v1 (by simp), fun e' he' => by simp [finish] at he'⟩
  | (.panic e, p') =>
    rw [hst] at v1
    exact ⟨fun _ => v1 (by simp), fun e' he' => by simp [finish] at he'⟩
  | (.diverge, p') =>
    rw [hst] at v1
    exact ⟨fun _ => v1 (by simp), fun e' he' => by simp [finish] at he'⟩

/-- The open blocks after some entries that are inside an open block: like `openBlocks`, but a record directly in
that block is allowed. -/
theorem openBlocks_bottom {id : U64} {st st' : List U64} {e : StreamEntry} (h : openBlocks (st ++ [id]) [e] = some st') :
    (∃ st'', openBlocks st [e] = some st'' ∧ st' = st'' ++ [id]) ∨ (e = .endBlock ∧ st = [] ∧ st' = []) ∨
    (∃ x, e = .record x ∧ st = [] ∧ st' = [id]) := by
  cases e with
  | subBlock b => simp [openBlocks] at h; exact .inl ⟨b.blockId :: st, rfl, by simp [h]⟩
  | endBlock =>
    cases st with
    | nil => simp [openBlocks] at h; exact .inr (.inl ⟨rfl, rfl, h⟩)
    | cons a st => simp [openBlocks] at h; exact .inl ⟨st, rfl, h.symm⟩
  | record x =>
    cases st with
    | nil => simp [openBlocks] at h; exact .inr (.inr ⟨x, rfl, rfl, h.symm⟩)
    | cons a st => simp [openBlocks] at h; exact .inl ⟨a :: st, rfl, by simp [h]⟩

/-- After any number of calls that leave the block open, its enclosing context is still there. -/
theorem Above.iterate {pf : Profile} {lower : List Scope} {id : U64} (n : Nat) {b : Bitstream} {st st' : List U64}
    (h : Above lower id st b.parser) (hp : PInv b.parser)
    (hes : ∀ m, m ≤ n → ∃ t, openBlocks (st ++ [id]) (items (iterate pf m b).1) = some (t ++ [id]))
    (ho : openBlocks (st ++ [id]) (items (Verif.iterate pf n b).1) = some (st' ++ [id])) :
    Above lower id st' (Verif.iterate pf n b).2.parser := by
  induction n generalizing st' with
  | zero =>
    simp only [Verif.iterate, items, openBlocks, Option.some.injEq, List.append_cancel_right_eq] at ho
    subst ho; exact h
  | succ n ih =>
    obtain ⟨t, ht⟩ := hes n (by omega)
    have hA := ih (fun m hm => hes m (by omega)) ht
    have hpn := iterate_pinv (pf := pf) n hp
    rw [iterate_succ] at ho ⊢
    simp only at ho ⊢
    have hitems : ∀ a b, items (a ++ b) = items a ++ items b := by
      intro a b
      induction a with
      | nil => rfl
      | cons x a ih => rw [List.cons_append, items_cons, ih, items_cons x a, List.append_assoc]
    rw [hitems, openBlocks_append, ht] at ho
    simp only [Option.bind_some] at ho
    obtain ⟨n1, n2⟩ := hA.next (pf := pf) hpn
    have stay : items [(Bitstream.next pf (Verif.iterate pf n b).2).1] = [] → t = st' := by
      intro hx; rw [hx] at ho; simpa [openBlocks] using ho
    match hr : (Bitstream.next pf (Verif.iterate pf n b).2).1 with
    | .item e =>
      rw [hr] at ho
      rcases n2 e hr with ⟨s2, h2, hA2⟩ | ⟨rfl, rfl, -⟩ | ⟨x, rfl, rfl, hA2⟩
      · rcases openBlocks_bottom ho with ⟨s3, h3, he⟩ | ⟨-, -, he⟩ | ⟨x, rfl, rfl, he⟩
        · rw [h2] at h3
          simp only [Option.some.injEq] at h3
          subst h3
          simp only [List.append_cancel_right_eq] at he
          subst he; exact hA2
        · simp at he
        · simp [openBlocks] at h2
      · simp [items, openBlocks] at ho
      · simp [items, openBlocks] at ho
        subst ho; exact hA2
    | .error e => rw [hr] at stay n1; rw [← stay rfl]; exact n1 (by simp)
    | .done => rw [hr] at stay n1; rw [← stay rfl]; exact n1 (by simp)
    | .panic e => rw [hr] at stay n1; rw [← stay rfl]; exact n1 (by simp)
    | .diverge => rw [hr] at stay n1; rw [← stay rfl]; exact n1 (by simp)

/-- A block that has just been announced. -/
theorem next_entered {pf : Profile} {b b' : Bitstream} {s : BBlock} (hp : PInv b.parser)
    (h : Bitstream.next pf b = (.item (.subBlock s), b')) :
    ∃ w lower, w ≠ 0 ∧ b'.parser.scopes = .block w s.blockId none ((b'.parser.blockinfo s.blockId).getD []) :: lower ∧
      s.blockId ≠ 0 := by
  obtain ⟨q, hr, hq, hne, he⟩ := advance_rounds (pf := pf) hp
  unfold Bitstream.next Bitstream.advance at h
  rw [he] at h
  have heff := eff_step pf q
  unfold Eff at heff
  match hst : Parser.step pf q with
  | (.ok (some e), p') =>
    rw [hst] at h heff
    simp only [finish, Prod.mk.injEq, Bitstream.Next.item.injEq] at h
    obtain ⟨rfl, rfl⟩ := h
    simp only at heff ⊢
    generalize p'.scopes = sc' at heff
    generalize p'.blockinfo = info' at heff
    generalize hx : (Out.ok (some (StreamEntry.subBlock s)) : Out BErr (Option StreamEntry)) = x at heff
    cases heff with
    | fail h => exact absurd hx.symm (h _)
    | enter id w len hw =>
      by_cases h0 : id = 0
      · rw [if_pos h0] at hx; simp at hx
      · rw [if_neg h0] at hx
        simp only [Out.ok.injEq, Option.some.injEq, StreamEntry.subBlock.injEq] at hx
        subst hx
        exact ⟨w, _, hw, rfl, h0⟩
    | exit hs => split at hx <;> simp at hx
    | define => simp at hx
    | register => simp at hx
    | setBid => simp at hx
    | ignore => simp at hx
    | record => simp at hx
  | (.ok none, p') => rw [hst] at hne; simp at hne
  | (.err e, p') => rw [hst] at h; cases e <;> simp [finish] at h
  | (.panic e, p') => rw [hst] at h; simp [finish] at h
  | (.diverge, p') => rw [hst] at h; simp [finish] at h

end Verif
