import Verif.Bitstream.Open
import Verif.Bitstream.Effects

/-!
Facts about whole iterations.
-/

set_option linter.unusedSimpArgs false

namespace Verif
open Spec Cursor Parser

/-! ## Rounds of `advance` -/

/-- Rounds that surface nothing. -/
inductive Rounds (pf : Profile) : Parser → Parser → Prop
  | refl (p : Parser) : Rounds pf p p
  | step {p q r : Parser} : Parser.step pf p = (.ok none, q) → Rounds pf q r → Rounds pf p r

/-- The result of `advance` from that of its last round. -/
def finish : Out BErr (Option StreamEntry) → Out BErr StreamEntry
  | .ok (some e) => .ok e
  | .ok none => .diverge
  | .err e => .err e
  | .panic q => .panic q
  | .diverge => .diverge

theorem advance_rounds {pf : Profile} {p : Parser} (hp : PInv p) :
    ∃ q, Rounds pf p q ∧ PInv q ∧ (Parser.step pf q).1 ≠ .ok none ∧
      Parser.advance pf p = (finish (Parser.step pf q).1, (Parser.step pf q).2) := by
  generalize hn : p.cursor.rest.length = n
  induction n using Nat.strongRecOn generalizing p with
  | _ n ih =>
    have hs := pgood_step (pf := pf) p hp
    rw [advance_unfold hp]
    match hr : Parser.step pf p with
    | (.ok (some e), p') => exact ⟨p, .refl p, hp, by simp [hr], by simp [hr, finish]⟩
    | (.err e, p') => exact ⟨p, .refl p, hp, by simp [hr], by simp [hr, finish]⟩
    | (.panic e, p') => exact ⟨p, .refl p, hp, by simp [hr], by simp [hr, finish]⟩
    | (.diverge, p') => exact ⟨p, .refl p, hp, by simp [hr], by simp [hr, finish]⟩
    | (.ok none, p') =>
      rw [hr] at hs
      have h1 := hs.eats _ rfl
      have hl := rest_length hp.cur
      have hl' := rest_length hs.inv.cur
      have htl := tellBit_le hs.inv.cur
      have hb : p'.cursor.byteLen = p.cursor.byteLen := hs.same.2
      simp only at h1 hl' htl
      rw [hb] at htl hl'
      obtain ⟨q, h1, h2, h3, h4⟩ := ih p'.cursor.rest.length (by omega) hs.inv rfl
      exact ⟨q, .step hr h1, h2, h3, h4⟩

/-! ## Nesting -/

def Scope.visibleId : Scope → Option U64
  | .initial => none
  | .block _ id _ _ => if id = 0 then none else some id

/-- The open blocks that the consumer has been told about. -/
def Parser.visible (p : Parser) : List U64 := p.scopes.filterMap Scope.visibleId

theorem openBlocks_append (st : List U64) (a b : List StreamEntry) :
    openBlocks st (a ++ b) = (openBlocks st a).bind (openBlocks · b) := by
  induction a generalizing st with
  | nil => rfl
  | cons e es ih =>
    cases e with
    | subBlock s => simp [openBlocks, ih]
    | endBlock => cases st <;> simp [openBlocks, ih]
    | record r => cases st <;> simp [openBlocks, ih]

/-- What one round does to the visible blocks. -/
theorem step_visible {pf : Profile} {p p' : Parser} (hp : PInv p) {r : Out BErr (Option StreamEntry)}
    (h : Parser.step pf p = (r, p')) :
    (∀ e, r = .ok (some e) → openBlocks p.visible [e] = some p'.visible ∧
      (∀ b, e = .subBlock b → b.blockId ≠ 0) ∧
      (∀ x, e = .record x → p'.scopes = p.scopes ∧
        ∃ w id bid l rest, p.scopes = .block w id bid l :: rest ∧ id ≠ 0)) ∧
    ((∀ e, r ≠ .ok (some e)) → p'.visible = p.visible) := by
  have he := eff_step pf p
  have hst := hp.stack
  rw [h] at he
  unfold Eff at he
  simp only at he
  generalize hsc' : p'.scopes = sc' at he
  generalize hinfo' : p'.blockinfo = info' at he
  unfold Parser.visible
  rw [hsc']
  cases he with
  | fail hx => exact ⟨fun e hh => absurd hh (hx _), fun _ => rfl⟩
  | enter id w len hw =>
    by_cases h0 : id = 0
    · rw [if_pos h0]
      refine ⟨fun e hh => by simp at hh, fun _ => ?_⟩
      simp [List.filterMap_cons, Scope.visibleId, h0]
    · rw [if_neg h0]
      refine ⟨fun e hh => ?_, fun hh => absurd rfl (hh _)⟩
      simp only [Out.ok.injEq, Option.some.injEq] at hh
      subst hh
      have hv : Scope.visibleId (.block w id none ((p.blockinfo id).getD [])) = some id := by
        simp only [Scope.visibleId]; rw [if_neg h0]
      refine ⟨by rw [List.filterMap_cons, hv]; rfl, ?_, by simp⟩
      rintro b hb
      simp only [StreamEntry.subBlock.injEq] at hb
      subst hb; exact h0
  | @exit s t rest hs =>
    rw [hs] at hst
    have hne : s ≠ .initial := hst.1
    cases s with
    | initial => exact absurd rfl hne
    | block w id bid l =>
      rw [isBlockinfo_block, hs]
      by_cases h0 : id = 0
      · rw [if_pos (by simpa using h0)]
        refine ⟨fun e hh => by simp at hh, fun _ => ?_⟩
        simp [List.filterMap_cons, Scope.visibleId, h0]
      · rw [if_neg (by simpa using h0)]
        refine ⟨fun e hh => ?_, fun hh => absurd rfl (hh _)⟩
        simp only [Out.ok.injEq, Option.some.injEq] at hh
        subst hh
        have hv : Scope.visibleId (.block w id bid l) = some id := by simp only [Scope.visibleId]; rw [if_neg h0]
        exact ⟨by rw [List.filterMap_cons, hv]; rfl, by simp, by simp⟩
  | @define w id bid l rest a hs hid hwf =>
    refine ⟨fun e hh => by simp at hh, fun _ => ?_⟩
    rw [hs]; simp [List.filterMap_cons, Scope.visibleId]
  | register hs hwf => exact ⟨fun e hh => by simp at hh, fun _ => rfl⟩
  | setBid t hs =>
    refine ⟨fun e hh => by simp at hh, fun _ => ?_⟩
    rw [hs]; simp [List.filterMap_cons, Scope.visibleId]
  | ignore hs => exact ⟨fun e hh => by simp at hh, fun _ => rfl⟩
  | @record w id bid l rest x hs hid hr =>
    refine ⟨fun e hh => ?_, fun hh => absurd rfl (hh _)⟩
    simp only [Out.ok.injEq, Option.some.injEq] at hh
    subst hh
    have hv : Scope.visibleId (.block w id bid l) = some id := by simp only [Scope.visibleId]; rw [if_neg hid]
    refine ⟨?_, by simp, fun _ _ => ⟨rfl, w, id, bid, l, rest, hs, hid⟩⟩
    rw [hs, List.filterMap_cons, hv]; rfl

theorem rounds_visible {pf : Profile} {p q : Parser} (h : Rounds pf p q) (hp : PInv p) : q.visible = p.visible := by
  induction h with
  | refl => rfl
  | step h _ ih =>
    have hs := (pgood_step (pf := pf) _ hp).inv
    rw [h] at hs
    rw [ih hs]
    exact (step_visible hp h).2 (by simp)

/-- What one call of `next` does to the visible blocks. -/
theorem next_visible {pf : Profile} {b : Bitstream} (hp : PInv b.parser) :
    openBlocks b.parser.visible (items [(Bitstream.next pf b).1]) = some (Bitstream.next pf b).2.parser.visible ∧
    (∀ s, (Bitstream.next pf b).1 = .item (.subBlock s) → s.blockId ≠ 0) ∧
    (∀ x, (Bitstream.next pf b).1 = .item (.record x) →
      ∃ w id bid l rest, (Bitstream.next pf b).2.parser.scopes = .block w id bid l :: rest ∧ id ≠ 0) := by
  obtain ⟨q, hr, hq, hne, he⟩ := advance_rounds (pf := pf) hp
  have hv := rounds_visible hr hp
  obtain ⟨v1, v2⟩ := step_visible (pf := pf) hq (p' := (Parser.step pf q).2) (r := (Parser.step pf q).1) rfl
  unfold Bitstream.next Bitstream.advance
  rw [he, ← hv]
  match hst : Parser.step pf q with
  | (.ok (some e), p') =>
    rw [hst] at v1
    obtain ⟨w1, w2, w3⟩ := v1 e rfl
    refine ⟨w1, ?_, ?_⟩
    · intro s hs
      simp only [finish, Bitstream.Next.item.injEq] at hs
      exact w2 _ hs
    · intro x hx
      simp only [finish, Bitstream.Next.item.injEq] at hx
      obtain ⟨hs', w, id, bid, l, rest, hs, hid⟩ := w3 x hx
      exact ⟨w, id, bid, l, rest, hs'.trans hs, hid⟩
  | (.ok none, p') => rw [hst] at hne; simp at hne
  | (.err e, p') =>
    rw [hst] at v2
    have := v2 (by simp)
    simp only at this
    cases e <;> simp [finish, items, openBlocks, this]
  | (.panic e, p') =>
    rw [hst] at v2
    have := v2 (by simp)
    simp only at this
    simp [finish, items, openBlocks, this]
  | (.diverge, p') =>
    rw [hst] at v2
    have := v2 (by simp)
    simp only at this
    simp [finish, items, openBlocks, this]

theorem items_cons (r : Bitstream.Next) (rs : List Bitstream.Next) : items (r :: rs) = items [r] ++ items rs := by
  cases r <;> rfl

theorem iterate_pinv {pf : Profile} (n : Nat) {b : Bitstream} (h : PInv b.parser) :
    PInv (iterate pf n b).2.parser := by
  induction n generalizing b with
  | zero => exact h
  | succ n ih => exact ih (next_pinv h)

theorem iterate_visible {pf : Profile} (n : Nat) {b : Bitstream} (h : PInv b.parser) :
    openBlocks b.parser.visible (items (iterate pf n b).1) = some (iterate pf n b).2.parser.visible := by
  induction n generalizing b with
  | zero => rfl
  | succ n ih =>
    simp only [iterate]
    rw [items_cons, openBlocks_append, (next_visible h).1]
    exact ih (next_pinv h)

theorem iterate_succ {pf : Profile} (n : Nat) (b : Bitstream) :
    iterate pf (n + 1) b = ((iterate pf n b).1 ++ [(Bitstream.next pf (iterate pf n b).2).1],
      (Bitstream.next pf (iterate pf n b).2).2) := by
  induction n generalizing b with
  | zero => rfl
  | succ n ih =>
    conv => lhs; rw [iterate]
    rw [ih]
    rfl

/-! ## Progress -/

theorem next_progress {pf : Profile} {b : Bitstream} (h : PInv b.parser) :
    (Bitstream.next pf b).1 ≠ .diverge ∧ (Bitstream.next pf b).2.len = b.len ∧
    b.pos ≤ (Bitstream.next pf b).2.pos ∧ (Bitstream.next pf b).2.pos ≤ b.len ∧
    (Bitstream.next pf b).2.magic = b.magic ∧
    (∀ e, (Bitstream.next pf b).1 = .item e → b.pos + 1 ≤ (Bitstream.next pf b).2.pos) ∧
    (∀ s, (Bitstream.next pf b).1 = .panic s → StreamPanic pf s) := by
  have hs := pstep_advance (pf := pf) h
  have htl := tellBit_le hs.inv.cur
  have hb := hs.same.2
  rw [hb] at htl
  unfold Bitstream.next Bitstream.advance Bitstream.pos Bitstream.len bitLen
  match hr : Parser.advance pf b.parser with
  | (.ok e, p') =>
    rw [hr] at hs htl hb
    exact ⟨by simp, congrArg (· * 8) hb, hs.mono, htl, rfl, fun _ _ => hs.eats e rfl, by simp⟩
  | (.err e, p') =>
    rw [hr] at hs htl hb
    cases e <;> exact ⟨by simp, congrArg (· * 8) hb, hs.mono, htl, rfl, by simp, by simp⟩
  | (.panic e, p') =>
    rw [hr] at hs htl hb
    exact ⟨by simp, congrArg (· * 8) hb, hs.mono, htl, rfl, by simp, by simpa using hs.panics e rfl⟩
  | (.diverge, p') => rw [hr] at hs; exact absurd rfl hs.nodiv

theorem iterate_bound {pf : Profile} (n : Nat) {b : Bitstream} (h : PInv b.parser) :
    (items (iterate pf n b).1).length + b.pos ≤ (iterate pf n b).2.pos ∧ (iterate pf n b).2.len = b.len ∧
    (iterate pf n b).2.pos ≤ b.len := by
  induction n generalizing b with
  | zero =>
    refine ⟨by simp [iterate, items], rfl, ?_⟩
    have := tellBit_le h.cur
    simpa [iterate, Bitstream.pos, Bitstream.len, bitLen] using this
  | succ n ih =>
    obtain ⟨h1, h2, h3⟩ := ih (next_pinv (pf := pf) h)
    obtain ⟨-, g2, g3, -, -, g5, -⟩ := next_progress (pf := pf) h
    simp only [iterate]
    rw [items_cons, List.length_append]
    rw [g2] at h2 h3
    refine ⟨?_, h2, h3⟩
    match hr : (Bitstream.next pf b).1 with
    | .item e =>
      have := g5 e hr
      simp only [items, List.length_cons, List.length_nil]; omega
    | .error e => simp only [items, List.length_nil]; omega
    | .done => simp only [items, List.length_nil]; omega
    | .panic e => simp only [items, List.length_nil]; omega
    | .diverge => simp only [items, List.length_nil]; omega

/-! ## The end of iteration -/

/-- What a round does after the abbreviation id has been read. -/
def afterId (pf : Profile) (id : U64) : PM (Option StreamEntry) :=
  if id = 0 then exitBlock
  else if id = 1 then enterBlock pf
  else if id = 2 then do
    defineAbbrev pf
    pure none
  else if id = 3 then parseUnabbrev pf
  else parseWithAbbrev pf id

theorem step_eq {pf : Profile} {p : Parser} {s : Scope} {rest : List Scope} (hs : p.scopes = s :: rest)
    (he : p.cursor.exhausted ≠ true) :
    Parser.step pf p = (onCursor (cur (Cursor.read s.abbrevIdWidth.toNat)) >>= afterId pf) p := by
  unfold Parser.step
  rw [get_bind, if_neg he, StM.bind_ok (show scope p = (.ok s, p) by simp [scope, hs])]
  rfl

theorem pgood_afterId {pf : Profile} (id : U64) : PGood (StreamPanic pf) 0 (afterId pf id) := by
  unfold afterId
  have key : ∀ k : U64, ¬ id = k → id.toNat ≠ k.toNat := fun k hk hc => hk (BitVec.eq_of_toNat_eq hc)
  split
  · exact pgood_exitBlock
  · split
    · exact pgood_enterBlock
    · split
      · exact pgood_defineAbbrev.bind0 (fun _ => PGood.pure _)
      · split
        · exact pgood_parseUnabbrev
        · next h0 h1 h2 h3 =>
          refine pgood_parseWithAbbrev ?_
          have e0 := key _ h0
          have e1 := key _ h1
          have e2 := key _ h2
          have e3 := key _ h3
          simp at e0 e1 e2 e3
          omega

/-- Actions that never report exhaustion. -/
def NoExh {σ α : Type} (m : StM σ BErr α) : Prop := ∀ s, (m s).1 ≠ .err .exhausted

section
variable {σ α β : Type}

theorem NoExh.pure (a : α) : NoExh (pure a : StM σ BErr α) := fun _ => by simp [StM.pure_apply]
theorem NoExh.throw {e : BErr} (h : e ≠ .exhausted) : NoExh (StM.throw e : StM σ BErr α) := fun _ => by
  simpa [StM.throw] using h
theorem NoExh.panic (q : PanicSite) : NoExh (StM.panic q : StM σ BErr α) := fun _ => by simp [StM.panic]
theorem NoExh.bind {m : StM σ BErr α} {f : α → StM σ BErr β} (hm : NoExh m) (hf : ∀ a, NoExh (f a)) : NoExh (m >>= f) := by
  intro s
  have := hm s
  match hr : m s with
  | (.ok a, s') => rw [StM.bind_ok hr]; exact hf a s'
  | (.err e, s') => rw [StM.bind_err hr]; rw [hr] at this; simpa using this
  | (.panic q, s') => rw [StM.bind_panic hr]; simp
  | (.diverge, s') => simp [StM.bind_apply, hr]
theorem noexh_cur (m : CurM α) : NoExh (cur m) := by
  intro c
  simp only [cur, StM.mapErr]
  match m c with
  | (.ok a, s') => simp
  | (.err e, s') => simp
  | (.panic q, s') => simp
  | (.diverge, s') => simp
theorem noexh_onCursor {m : BM α} (h : NoExh m) : NoExh (onCursor m) := fun p => h p.cursor
theorem noexh_align : NoExh align := fun c => by
  have := good_alignB (fun _ => True) c
  simp only [align]
  unfold StM.modify
  simp
theorem noexh_withCapacity (n : U64) : NoExh (withCapacity n : StM σ BErr Unit) := by
  unfold withCapacity; split
  · exact NoExh.panic _
  · exact NoExh.pure _
theorem noexh_scope : NoExh scope := by intro p; unfold scope; split <;> simp
theorem noexh_mul4 (pf : Profile) (n : U64) : NoExh (mul4 pf n) := by
  unfold mul4; repeat' split
  all_goals first | exact NoExh.pure _ | exact NoExh.panic _
theorem noexh_scopeMut {f : Scope → Out BErr Scope} (h : ∀ s, f s ≠ .err .exhausted) : NoExh (scopeMut f) := by
  intro p
  unfold scopeMut
  split
  · simp
  · next s rest hs =>
    have := h s
    cases hf : f s with
    | err e => rw [hf] at this; simpa using this
    | ok _ => simp
    | panic _ => simp
    | diverge => simp
theorem noexh_tryFrom (v : U64) : NoExh (BlockInfoCode.tryFrom v) := by
  unfold BlockInfoCode.tryFrom; repeat' split
  all_goals first | exact NoExh.pure _ | exact NoExh.throw (by simp)
theorem noexh_opEnc (v : U64) : NoExh (AbbrevOpEnc.tryFrom v) := by
  unfold AbbrevOpEnc.tryFrom; repeat' split
  all_goals first | exact NoExh.pure _ | exact NoExh.throw (by simp)
theorem noexh_subU64 (pf : Profile) (q : PanicSite) (a b : U64) : NoExh (subU64 pf q a b : StM σ BErr U64) := by
  unfold subU64; repeat' split
  all_goals first | exact NoExh.pure _ | exact NoExh.panic _
theorem noexh_repeat {m : BM (List U64)} (h : NoExh m) (n : Nat) : NoExh (repeatFields m n) := by
  induction n with
  | zero => exact NoExh.pure _
  | succ n ih => exact h.bind fun _ => ih.bind fun _ => NoExh.pure _
theorem noexh_char6 (c : U64) : NoExh (decodeChar6 c) := by
  unfold decodeChar6; split
  · exact NoExh.pure _
  · exact NoExh.panic _

theorem noexh_opParse (pf : Profile) (op : AbbrevOp) : NoExh (op.parse pf) := by
  induction op with
  | literal v => exact NoExh.pure _
  | vbr w => exact (noexh_cur _).bind fun _ => NoExh.pure _
  | fixed w => exact (noexh_cur _).bind fun _ => NoExh.pure _
  | array e ih => exact (noexh_cur _).bind fun n => (noexh_withCapacity n).bind fun _ => noexh_repeat ih _
  | char6 => exact (noexh_cur _).bind fun _ => (noexh_char6 _).bind fun _ => NoExh.pure _
  | blob =>
    exact (noexh_cur _).bind fun n => noexh_align.bind fun _ => (noexh_withCapacity n).bind fun _ =>
      (noexh_repeat ((noexh_cur _).bind fun _ => NoExh.pure _) _).bind fun _ => noexh_align.bind fun _ => NoExh.pure _

theorem noexh_parseFields (pf : Profile) (ops : List AbbrevOp) : NoExh (parseFields pf ops) := by
  induction ops with
  | nil => exact NoExh.pure _
  | cons op ops ih => exact (noexh_opParse pf op).bind fun _ => ih.bind fun _ => NoExh.pure _

theorem noexh_width (pf : Profile) (f : U64 → α) :
    NoExh (do let w ← cur (readVbr pf 5); pure (f w) : BM α) := (noexh_cur _).bind fun _ => NoExh.pure _

theorem noexh_elem (pf : Profile) : NoExh (parseArrayElem pf) := by
  unfold parseArrayElem
  refine (noexh_cur _).bind fun _ => (noexh_cur _).bind fun _ => (noexh_opEnc _).bind fun enc => ?_
  cases enc
  all_goals first | exact noexh_width pf _ | exact NoExh.pure _ | exact NoExh.throw (by simp)

theorem noexh_encoded (pf : Profile) (num idx : U64) : NoExh (parseEncodedOperand pf num idx) := by
  unfold parseEncodedOperand
  refine (noexh_cur _).bind fun _ => (noexh_opEnc _).bind fun enc => ?_
  cases enc
  · exact noexh_width pf _
  · exact noexh_width pf _
  · refine (noexh_subU64 _ _ _ _).bind fun l => ?_
    split
    · exact NoExh.throw (by simp)
    · exact (noexh_elem pf).bind fun _ => NoExh.pure _
  · exact NoExh.pure _
  · refine (noexh_subU64 _ _ _ _).bind fun l => ?_
    split
    · exact NoExh.throw (by simp)
    · exact NoExh.pure _

theorem noexh_operands (pf : Profile) (num : U64) (n : Nat) : NoExh (parseOperands pf num n) := by
  induction n with
  | zero => exact NoExh.pure _
  | succ n ih =>
    simp only [parseOperands]
    refine (noexh_cur _).bind fun k => ?_
    split
    · exact (noexh_cur _).bind fun _ => ih.bind fun _ => NoExh.pure _
    · refine (noexh_encoded pf _ _).bind fun x => ?_
      obtain ⟨op, d⟩ := x
      simp only
      split
      · exact NoExh.pure _
      · exact ih.bind fun _ => NoExh.pure _

theorem noexh_abbrevNew (pf : Profile) : NoExh (Abbrev.new pf) := by
  unfold Abbrev.new
  refine (noexh_cur _).bind fun n => ?_
  split
  · exact NoExh.throw (by simp)
  · exact (noexh_operands pf _ _).bind fun _ => NoExh.pure _

theorem noexh_vbr6s (pf : Profile) (n : Nat) : NoExh (readVbr6s pf n) := by
  induction n with
  | zero => exact NoExh.pure _
  | succ n ih => exact (noexh_cur _).bind fun _ => ih.bind fun _ => NoExh.pure _

theorem NoExh.getSet {f : Parser → PM α} (h : ∀ p, NoExh (f p)) : NoExh (StM.get >>= f) :=
  NoExh.bind (fun _ => by simp [StM.get]) h

theorem extend_noexh (l : List Abbrev) (s : Scope) : Scope.extendAbbrevs l s ≠ .err .exhausted := by
  cases s <;> simp [Scope.extendAbbrevs]
theorem setBid_noexh (t : U64) (s : Scope) : Scope.setBlockinfoBlockId t s ≠ .err .exhausted := by
  cases s <;> simp [Scope.setBlockinfoBlockId]

theorem noexh_afterId (pf : Profile) (id : U64) : NoExh (afterId pf id) := by
  unfold afterId
  split
  · unfold exitBlock
    refine (noexh_onCursor noexh_align).bind fun _ => NoExh.getSet fun p => ?_
    split
    · exact NoExh.throw (by simp)
    · exact NoExh.throw (by simp)
    · refine NoExh.bind (fun _ => by simp [StM.set]) fun _ => ?_
      split <;> exact NoExh.pure _
  · split
    · unfold enterBlock
      refine (noexh_onCursor (noexh_cur _)).bind fun _ => (noexh_onCursor (noexh_cur _)).bind fun _ =>
        (noexh_onCursor noexh_align).bind fun _ => ?_
      split
      · exact NoExh.throw (by simp)
      · refine (noexh_onCursor (noexh_cur _)).bind fun _ => (noexh_mul4 _ _).bind fun _ =>
          NoExh.bind (fun _ => by simp [pushScope, StM.modify]) fun _ => NoExh.getSet fun p => ?_
        have hend : ∀ k : StreamEntry, NoExh (do
            let s ← scope
            if s.isBlockinfo then pure none else pure (some k) : PM (Option StreamEntry)) := by
          intro k
          refine noexh_scope.bind fun s => ?_
          split <;> exact NoExh.pure _
        split
        · exact (noexh_scopeMut (extend_noexh _)).bind fun _ => hend _
        · exact (NoExh.pure ()).bind fun _ => hend _
    · split
      · unfold defineAbbrev
        refine NoExh.bind ((noexh_onCursor (noexh_abbrevNew pf)).bind fun a => noexh_scope.bind fun s => ?_) fun _ => NoExh.pure _
        split
        · split
          · exact NoExh.throw (by simp)
          · exact fun _ => by simp [pushBlockinfo, StM.modify]
        · exact noexh_scopeMut (extend_noexh _)
      · split
        · unfold parseUnabbrev
          refine noexh_scope.bind fun s => ?_
          split
          · exact NoExh.throw (by simp)
          · refine (noexh_onCursor (noexh_cur _)).bind fun code => (noexh_onCursor (noexh_cur _)).bind fun n =>
              (noexh_withCapacity n).bind fun _ => (noexh_onCursor (noexh_vbr6s pf _)).bind fun fields =>
              noexh_scope.bind fun s => ?_
            split
            · refine (noexh_tryFrom _).bind fun c => ?_
              cases c
              · cases fields with
                | nil => exact NoExh.panic _
                | cons t ts => exact (noexh_scopeMut (setBid_noexh t)).bind fun _ => NoExh.pure _
              · exact NoExh.pure _
              · exact NoExh.pure _
            · exact NoExh.pure _
        · unfold parseWithAbbrev
          refine noexh_scope.bind fun s => ?_
          refine NoExh.bind ?_ fun a => (noexh_onCursor (noexh_parseFields pf _)).bind fun fields => ?_
          · intro p
            simp only [StM.lift_apply]
            cases s with
            | initial => simp [Scope.getAbbrev]
            | block w i bb l =>
              simp only [Scope.getAbbrev]
              repeat' split
              all_goals first
                | (generalize l[(id - 4).toNat]? = o; cases o <;> simp [Out.ofOption]; done)
                | simp
          · cases fields with
            | nil => exact NoExh.panic _
            | cons code fields =>
              refine noexh_scope.bind fun s => ?_
              split <;> exact NoExh.pure _
end

/-- How much a skip-errors loop can still do. -/
def measure (p : Parser) : Nat := 2 * p.cursor.rest.length + (if p.cursor.bitIndex = 0 then 1 else 0)

theorem measure_lt {p q : Parser} (h : q.cursor.rest.length < p.cursor.rest.length) : measure q < measure p := by
  unfold measure; split <;> split <;> omega

/-- Every round makes progress, or the stream is exhausted, or it is stuck at an abbreviation id of a width no read
can deliver. -/
theorem step_measure {pf : Profile} {p : Parser} (hp : PInv p) :
    (p.cursor.exhausted = true ∧ Parser.step pf p = (.err .exhausted, p)) ∨
    (p.cursor.exhausted = false ∧ (Parser.step pf p).1 ≠ .err .exhausted ∧
      ((Parser.step pf p = (.err (.cursor .invalidReadSize), p) ∧
          ∃ s rest, p.scopes = s :: rest ∧ (s.abbrevIdWidth.toNat = 0 ∨ 64 ≤ s.abbrevIdWidth.toNat)) ∨
        measure (Parser.step pf p).2 < measure p)) := by
  by_cases hx : p.cursor.exhausted = true
  · exact .inl ⟨hx, step_exhausted hx⟩
  · right
    refine ⟨by simpa using hx, ?_⟩
    obtain ⟨s, rest, hs, -⟩ := scope_ok hp
    rw [step_eq hs hx]
    have hne : p.cursor.rest ≠ [] := fun h => hx ((exhausted_iff_rest hp.cur).2 h)
    have hl := rest_length hp.cur
    have lift : ∀ {x : Out CErr U64} {c : Cursor}, Cursor.read s.abbrevIdWidth.toNat p.cursor = (x, c) →
        onCursor (cur (Cursor.read s.abbrevIdWidth.toNat)) p = (x.mapErr .cursor, { p with cursor := c }) := by
      intro x c h; simp only [onCursor, cur, StM.mapErr, h]
    rcases read_cases hp.cur s.abbrevIdWidth.toNat with ⟨hw, e⟩ | ⟨g1, g2, gl, v, c₁, e, sb, i1, hv, hr1, ht, hm⟩ |
      ⟨g1, g2, gr, e⟩ | ⟨g1, g2, gl, gne, c₁, e, sb, i1, ht, hpos, hr1, -⟩
    · rw [StM.bind_err (lift e)]
      exact ⟨by simp, .inl ⟨rfl, s, rest, hs, hw⟩⟩
    · rw [StM.bind_ok (lift e)]
      refine ⟨noexh_afterId pf v _, .inr ?_⟩
      have hp1 : PInv { p with cursor := c₁ } := ⟨i1, hp.stack⟩
      have hg := pgood_afterId (pf := pf) v _ hp1
      refine measure_lt ?_
      have hl' := rest_length hg.inv.cur
      have hb : (afterId pf v { p with cursor := c₁ }).2.cursor.byteLen = c₁.byteLen := hg.same.2
      have hb1 : c₁.byteLen = p.cursor.byteLen := sb.2
      have hmono : c₁.tellBit ≤ _ := hg.mono
      have htl := tellBit_le hp.cur
      rw [hl', hb, hb1]
      omega
    · exact absurd gr hne
    · rw [StM.bind_err (lift e)]
      refine ⟨by simp, .inr ?_⟩
      have hl' := rest_length i1
      have hb1 : c₁.byteLen = p.cursor.byteLen := sb.2
      have hpos1 : 0 < p.cursor.rest.length := List.length_pos_iff.2 hne
      unfold measure
      simp only
      have htl := tellBit_le i1
      have htb : c₁.tellBit = c₁.bytePos * 8 - c₁.bitIndex := rfl
      have := i1.idx_le
      split <;> split <;> omega

theorem rounds_measure {pf : Profile} {p q : Parser} (h : Rounds pf p q) (hp : PInv p) :
    p = q ∨ measure q < measure p := by
  induction h with
  | refl => exact .inl rfl
  | @step p q r h _ ih =>
    right
    have hs := (pgood_step (pf := pf) _ hp).inv
    rw [h] at hs
    have h1 : measure q < measure p := by
      rcases step_measure (pf := pf) hp with ⟨-, e⟩ | ⟨-, -, ⟨e, -⟩ | e⟩
      · rw [h] at e; simp at e
      · rw [h] at e; simp at e
      · rwa [h] at e
    rcases ih hs with rfl | h2
    · exact h1
    · omega

/-- What a call of `next` can be. -/
theorem next_cases {pf : Profile} {b : Bitstream} (hp : PInv b.parser) :
    ((Bitstream.next pf b).1 = .done ∧ (Bitstream.next pf b).2.parser.cursor.exhausted = true ∧
      Bitstream.next pf (Bitstream.next pf b).2 = (.done, (Bitstream.next pf b).2)) ∨
    ((Bitstream.next pf b).1 = .error (.cursor .invalidReadSize) ∧
      (Bitstream.next pf b).2.parser.cursor.exhausted = false ∧
      Bitstream.next pf (Bitstream.next pf b).2 = Bitstream.next pf b ∧
      ∃ s rest, (Bitstream.next pf b).2.parser.scopes = s :: rest ∧
        (s.abbrevIdWidth.toNat = 0 ∨ 64 ≤ s.abbrevIdWidth.toNat)) ∨
    ((Bitstream.next pf b).1 ≠ .done ∧ measure (Bitstream.next pf b).2.parser < measure b.parser) := by
  obtain ⟨q, hr, hq, hne, he⟩ := advance_rounds (pf := pf) hp
  have hm := rounds_measure hr hp
  have hnx : Bitstream.next pf b = (match (Parser.step pf q).1 with
      | .ok (some e) => .item e
      | .ok none => .diverge
      | .err .exhausted => .done
      | .err e => .error e
      | .panic s => .panic s
      | .diverge => .diverge, ⟨b.magic, (Parser.step pf q).2⟩) := by
    unfold Bitstream.next Bitstream.advance
    rw [he]
    match hst : Parser.step pf q with
    | (.ok (some e), p') => rfl
    | (.ok none, p') => rfl
    | (.err e, p') => cases e <;> rfl
    | (.panic e, p') => rfl
    | (.diverge, p') => rfl
  rw [hnx]
  rcases step_measure (pf := pf) hq with ⟨hx, e⟩ | ⟨hx, h1, ⟨e, hw⟩ | h2⟩
  · left
    rw [e]
    exact ⟨rfl, hx, next_exhausted hq hx⟩
  · right; left
    rw [e]
    refine ⟨rfl, hx, ?_, hw⟩
    unfold Bitstream.next Bitstream.advance
    rw [advance_unfold hq, e]
  · right; right
    refine ⟨?_, by rcases hm with rfl | hm; exact h2; exact Nat.lt_trans h2 hm⟩
    match hst : (Parser.step pf q).1 with
    | .ok (some e) => simp
    | .ok none => simp
    | .err e => rw [hst] at h1; cases e <;> simp at h1 ⊢
    | .panic e => simp
    | .diverge => simp

/-- The context below a depth while the depth stays above it. -/
inductive Inside (pf : Profile) (base : List Scope) : Parser → Prop
  | enter {p p' : Parser} {r : Out BErr (Option StreamEntry)} : p.scopes = base → Parser.step pf p = (r, p') →
      p'.scopes.length = base.length + 1 → Inside pf base p'
  | step {p p' : Parser} {r : Out BErr (Option StreamEntry)} : Inside pf base p → Parser.step pf p = (r, p') →
      base.length < p'.scopes.length → Inside pf base p'

theorem step_scopes {pf : Profile} {p p' : Parser} {r : Out BErr (Option StreamEntry)} (h : Parser.step pf p = (r, p')) :
    p'.scopes = p.scopes ∨ (∃ s, p'.scopes = s :: p.scopes) ∨ (∃ s, p.scopes = s :: p'.scopes) ∨
    (∃ s s' rest, p.scopes = s :: rest ∧ p'.scopes = s' :: rest) := by
  have he := eff_step pf p
  rw [h] at he
  unfold Eff at he
  simp only at he
  generalize p'.scopes = sc' at he
  generalize p'.blockinfo = info' at he
  cases he with
  | fail hx => exact .inl rfl
  | enter id w len hw => exact .inr (.inl ⟨_, rfl⟩)
  | exit hs => exact .inr (.inr (.inl ⟨_, hs⟩))
  | define hs hid hwf => exact .inr (.inr (.inr ⟨_, _, _, hs, rfl⟩))
  | register hs hwf => exact .inl rfl
  | setBid t hs => exact .inr (.inr (.inr ⟨_, _, _, hs, rfl⟩))
  | ignore hs => exact .inl rfl
  | record hs hid hr => exact .inl rfl

theorem Inside.lower {pf : Profile} {base : List Scope} {p : Parser} (h : Inside pf base p) :
    ∃ top, top ≠ [] ∧ p.scopes = top ++ base := by
  induction h with
  | enter h0 h hl =>
    rcases step_scopes h with e | ⟨s, e⟩ | ⟨s, e⟩ | ⟨s, s', rest, e, e'⟩
    · rw [e, h0] at hl; omega
    · exact ⟨[s], by simp, by rw [e, h0]; rfl⟩
    · rw [h0] at e
      have := congrArg List.length e
      simp at this; omega
    · rw [h0] at e
      rw [e'] at hl
      have := congrArg List.length e
      simp at this hl; omega
  | step _ h hl ih =>
    obtain ⟨top, hne, ht⟩ := ih
    rcases step_scopes h with e | ⟨s, e⟩ | ⟨s, e⟩ | ⟨s, s', rest, e, e'⟩
    · exact ⟨top, hne, by rw [e, ht]⟩
    · exact ⟨s :: top, by simp, by rw [e, ht]; rfl⟩
    · cases top with
      | nil => exact absurd rfl hne
      | cons a top =>
        rw [ht] at e
        simp only [List.cons_append, List.cons.injEq] at e
        refine ⟨top, ?_, e.2.symm⟩
        rintro rfl
        rw [← e.2] at hl
        simp at hl
    · cases top with
      | nil => exact absurd rfl hne
      | cons a top =>
        rw [ht] at e
        simp only [List.cons_append, List.cons.injEq] at e
        exact ⟨s' :: top, by simp, by rw [e', ← e.2]; rfl⟩

end Verif
