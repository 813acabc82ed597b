import Verif.Bitstream.Effects

/-!
Two cursors with the same remaining bits, at positions that agree modulo 32, are read the same way up to the first
error.
-/

set_option linter.unusedSimpArgs false

namespace Verif
open Spec Cursor Parser

structure Sim (c d : Cursor) : Prop where
  left : WInv c
  right : WInv d
  rest : c.rest = d.rest
  pos : c.tellBit % 32 = d.tellBit % 32

/-- Same outcome, and similar cursors when successful. -/
def SimR {α ε σ : Type} (S : σ → σ → Prop) (r r' : Out ε α × σ) : Prop :=
  r.1 = r'.1 ∧ ∀ a, r.1 = .ok a → S r.2 r'.2

/-- Actions that cannot tell similar states apart. -/
def SimM {α ε σ : Type} (S : σ → σ → Prop) (m : StM σ ε α) : Prop := ∀ c d, S c d → SimR S (m c) (m d)

section
variable {α β ε ε' σ : Type} {S : σ → σ → Prop}

theorem SimM.pure (a : α) : SimM S (Pure.pure a : StM σ ε α) := fun _ _ h => ⟨rfl, fun _ _ => h⟩
theorem SimM.throw (e : ε) : SimM S (StM.throw e : StM σ ε α) := fun _ _ h => ⟨rfl, fun _ _ => h⟩
theorem SimM.panic (e : PanicSite) : SimM S (StM.panic e : StM σ ε α) := fun _ _ h => ⟨rfl, fun _ _ => h⟩
theorem SimM.lift (x : Out ε α) : SimM S (StM.lift x : StM σ ε α) := fun _ _ h => ⟨rfl, fun _ _ => h⟩

theorem SimR.bind {m : StM σ ε α} {f g : α → StM σ ε β} {c d : σ} (hm : SimR S (m c) (m d))
    (hf : ∀ a c' d', S c' d' → SimR S (f a c') (g a d')) : SimR S ((m >>= f) c) ((m >>= g) d) := by
  obtain ⟨h1, h2⟩ := hm
  match hr : m c, hr' : m d with
  | (.ok a, c'), (.ok a', d') =>
    rw [hr, hr'] at h1 h2
    simp only [Out.ok.injEq] at h1
    subst h1
    rw [StM.bind_ok hr, StM.bind_ok hr']
    exact hf a c' d' (h2 a rfl)
  | (.err e, c'), (.err e', d') =>
    rw [hr, hr'] at h1
    simp only [Out.err.injEq] at h1
    subst h1
    rw [StM.bind_err hr, StM.bind_err hr']
    exact ⟨rfl, fun a ha => by simp at ha⟩
  | (.panic e, c'), (.panic e', d') =>
    rw [hr, hr'] at h1
    simp only [Out.panic.injEq] at h1
    subst h1
    rw [StM.bind_panic hr, StM.bind_panic hr']
    exact ⟨rfl, fun a ha => by simp at ha⟩
  | (.diverge, c'), (.diverge, d') =>
    rw [show (m >>= f) c = (.diverge, c') by simp [StM.bind_apply, hr],
      show (m >>= g) d = (.diverge, d') by simp [StM.bind_apply, hr']]
    exact ⟨rfl, fun a ha => by simp at ha⟩
  | (.ok _, _), (.err _, _) | (.ok _, _), (.panic _, _) | (.ok _, _), (.diverge, _) => rw [hr, hr'] at h1; simp at h1
  | (.err _, _), (.ok _, _) | (.err _, _), (.panic _, _) | (.err _, _), (.diverge, _) => rw [hr, hr'] at h1; simp at h1
  | (.panic _, _), (.ok _, _) | (.panic _, _), (.err _, _) | (.panic _, _), (.diverge, _) => rw [hr, hr'] at h1; simp at h1
  | (.diverge, _), (.ok _, _) | (.diverge, _), (.err _, _) | (.diverge, _), (.panic _, _) => rw [hr, hr'] at h1; simp at h1

theorem SimM.bind {m : StM σ ε α} {f : α → StM σ ε β} (hm : SimM S m) (hf : ∀ a, SimM S (f a)) : SimM S (m >>= f) :=
  fun c d h => (hm c d h).bind fun a c' d' h' => hf a c' d' h'

theorem SimM.mapErr {m : StM σ ε α} (f : ε → ε') (h : SimM S m) : SimM S (StM.mapErr f m) := by
  intro c d hs
  obtain ⟨h1, h2⟩ := h c d hs
  refine ⟨by simp only [StM.mapErr]; rw [h1], fun a ha => ?_⟩
  simp only [StM.mapErr] at ha ⊢
  refine h2 a ?_
  cases hm : (m c).1 with
  | ok x => rw [hm] at ha; simpa using ha
  | err x => rw [hm] at ha; simp at ha
  | panic x => rw [hm] at ha; simp at ha
  | diverge => rw [hm] at ha; simp at ha

theorem SimM.withCapacity (n : U64) : SimM S (withCapacity n : StM σ ε Unit) := by
  unfold Verif.withCapacity; split
  · exact SimM.panic _
  · exact SimM.pure _

end

/-! ## The cursor -/

theorem sim_read (n : Nat) : SimM Sim (Cursor.read n) := by
  intro c d h
  have hr := h.rest
  rcases read_cases h.left.toInv n with ⟨hv, e⟩ | ⟨g1, g2, gl, v, c₁, e, sb, i1, hv, hr1, ht, hm⟩ | ⟨g1, g2, gr, e⟩ |
    ⟨g1, g2, gl, gne, c₁, e, -⟩
  · rw [read_invalid c hv, read_invalid d hv]; exact ⟨rfl, fun a ha => by simp at ha⟩
  · rcases read_cases h.right.toInv n with ⟨hv', e'⟩ | ⟨k1, k2, kl, v', d₁, e', sb', i1', hv', hr1', ht', hm'⟩ |
      ⟨k1, k2, kr, e'⟩ | ⟨k1, k2, kl, kne, d₁, e', -⟩
    · omega
    · rw [e, e']
      have : v = v' := BitVec.eq_of_toNat_eq (by rw [hv, hv', hr])
      subst this
      refine ⟨rfl, fun a ha => ⟨⟨i1, by rw [sb.2]; exact h.left.len4, hm h.left.len4 h.left.pos4⟩,
        ⟨i1', by rw [sb'.2]; exact h.right.len4, hm' h.right.len4 h.right.pos4⟩, ?_, ?_⟩⟩
      · simp only; rw [hr1, hr1', hr]
      · simp only; have := h.pos; omega
    · rw [hr, kr] at gl; simp at gl; omega
    · rw [hr] at gl; omega
  · rw [e, read_eof h.right.toInv g1 g2 (by rw [← hr]; exact gr)]
    exact ⟨rfl, fun a ha => by simp at ha⟩
  · obtain ⟨d₁, e', -⟩ := read_short h.right.toInv g2 (by rw [← hr]; exact gl) (by rw [← hr]; exact gne)
    rw [e, e']
    exact ⟨rfl, fun a ha => by simp at ha⟩

theorem sim_readAs (t : IntTy) (n : Nat) : SimM Sim (Cursor.readAs t n) := by
  intro c d h
  obtain ⟨h1, h2⟩ := sim_read n c d h
  unfold Cursor.readAs
  match hr : Cursor.read n c, hr' : Cursor.read n d with
  | (.ok a, c'), (.ok a', d') =>
    rw [hr, hr'] at h1 h2
    simp only [Out.ok.injEq] at h1
    subst h1
    have := h2 a rfl
    simp only
    split
    · exact ⟨rfl, fun _ _ => this⟩
    · exact ⟨rfl, fun _ _ => this⟩
  | (.err e, c'), (.err e', d') =>
    rw [hr, hr'] at h1; simp only [Out.err.injEq] at h1; subst h1
    exact ⟨rfl, fun a ha => by simp at ha⟩
  | (.panic e, c'), (.panic e', d') =>
    rw [hr, hr'] at h1; simp only [Out.panic.injEq] at h1; subst h1
    exact ⟨rfl, fun a ha => by simp at ha⟩
  | (.diverge, c'), (.diverge, d') => exact ⟨rfl, fun a ha => by simp at ha⟩
  | (.ok _, _), (.err _, _) | (.ok _, _), (.panic _, _) | (.ok _, _), (.diverge, _) => rw [hr, hr'] at h1; simp at h1
  | (.err _, _), (.ok _, _) | (.err _, _), (.panic _, _) | (.err _, _), (.diverge, _) => rw [hr, hr'] at h1; simp at h1
  | (.panic _, _), (.ok _, _) | (.panic _, _), (.err _, _) | (.panic _, _), (.diverge, _) => rw [hr, hr'] at h1; simp at h1
  | (.diverge, _), (.ok _, _) | (.diverge, _), (.err _, _) | (.diverge, _), (.panic _, _) => rw [hr, hr'] at h1; simp at h1

theorem sim_vbrLoop (pf : Profile) {w : Nat} (hw : 2 ≤ w) (f₁ f₂ : Nat) (r : U64) (shift : Nat) {c d : Cursor} (h : Sim c d)
    (h1 : c.rest.length < f₁) (h2 : c.rest.length < f₂) :
    SimR Sim (readVbrLoop pf w f₁ r shift c) (readVbrLoop pf w f₂ r shift d) := by
  induction f₁ generalizing f₂ r shift c d with
  | zero => omega
  | succ f₁ ih =>
    cases f₂ with
    | zero => omega
    | succ f₂ =>
      obtain ⟨e1, e2⟩ := sim_read w c d h
      simp only [readVbrLoop]
      match hr : Cursor.read w c, hr' : Cursor.read w d with
      | (.ok a, c'), (.ok a', d') =>
        rw [hr, hr'] at e1 e2
        simp only [Out.ok.injEq] at e1
        subst e1
        have hs := e2 a rfl
        simp only at hs ⊢
        cases hsh : shl64 pf (a &&& ~~~(1#64 <<< (w - 1))) shift with
        | none => exact ⟨rfl, fun _ _ => hs⟩
        | some x =>
          simp only
          split
          · have hl : c'.rest.length + w = c.rest.length := by
              rcases read_cases h.left.toInv w with ⟨-, e⟩ | ⟨g1, g2, gl, v, c₁, e, -, -, -, hr1, -⟩ | ⟨-, -, -, e⟩ |
                ⟨-, -, -, -, c₁, e, -⟩
              · rw [hr] at e; simp at e
              · rw [hr] at e; simp only [Prod.mk.injEq] at e; rw [e.2, hr1]; simp; omega
              · rw [hr] at e; simp at e
              · rw [hr] at e; simp at e
            exact ih _ _ _ hs (by omega) (by omega)
          · exact ⟨rfl, fun _ _ => hs⟩
      | (.err e, c'), (.err e', d') =>
        rw [hr, hr'] at e1; simp only [Out.err.injEq] at e1; subst e1
        exact ⟨rfl, fun a ha => by simp at ha⟩
      | (.panic e, c'), (.panic e', d') =>
        rw [hr, hr'] at e1; simp only [Out.panic.injEq] at e1; subst e1
        exact ⟨rfl, fun a ha => by simp at ha⟩
      | (.diverge, c'), (.diverge, d') => exact ⟨rfl, fun a ha => by simp at ha⟩
      | (.ok _, _), (.err _, _) | (.ok _, _), (.panic _, _) | (.ok _, _), (.diverge, _) => rw [hr, hr'] at e1; simp at e1
      | (.err _, _), (.ok _, _) | (.err _, _), (.panic _, _) | (.err _, _), (.diverge, _) => rw [hr, hr'] at e1; simp at e1
      | (.panic _, _), (.ok _, _) | (.panic _, _), (.err _, _) | (.panic _, _), (.diverge, _) => rw [hr, hr'] at e1; simp at e1
      | (.diverge, _), (.ok _, _) | (.diverge, _), (.err _, _) | (.diverge, _), (.panic _, _) => rw [hr, hr'] at e1; simp at e1

theorem sim_readVbr (pf : Profile) (w : Nat) : SimM Sim (Cursor.readVbr pf w) := by
  intro c d h
  unfold Cursor.readVbr
  split
  · exact ⟨rfl, fun a ha => by simp at ha⟩
  · next hw =>
    have hw' : 2 ≤ w := by omega
    refine sim_vbrLoop pf hw' _ _ _ _ h ?_ ?_
    · rw [rest_length h.left.toInv]; simp only [bitLen]; omega
    · rw [h.rest, rest_length h.right.toInv]; simp only [bitLen]; omega

theorem sim_align : SimM Sim align := by
  intro c d h
  obtain ⟨sb, -, -, -, -, hr, -⟩ := align32_spec h.left.toInv
  obtain ⟨sb', -, -, -, -, hr', -⟩ := align32_spec h.right.toInv
  obtain ⟨w1, t1⟩ := align32_word h.left
  obtain ⟨w2, t2⟩ := align32_word h.right
  refine ⟨rfl, fun _ _ => ⟨w1, w2, ?_, ?_⟩⟩
  · show c.align32.rest = d.align32.rest
    rw [hr, hr', h.rest, t1, t2]
    congr 1
    have := h.pos; omega
  · show c.align32.tellBit % 32 = d.align32.tellBit % 32
    rw [t1, t2]; omega

/-! ## Abbreviations -/

theorem sim_cur {α : Type} {m : CurM α} (h : SimM Sim m) : SimM Sim (cur m) := h.mapErr _

theorem sim_repeat {body : BM (List U64)} (h : SimM Sim body) (n : Nat) : SimM Sim (repeatFields body n) := by
  induction n with
  | zero => exact .pure _
  | succ n ih => exact h.bind fun _ => ih.bind fun _ => .pure _

theorem sim_char6 (v : U64) : SimM Sim (decodeChar6 v) := by
  unfold decodeChar6; split
  · exact .pure _
  · exact .panic _

theorem sim_opParse (pf : Profile) (op : AbbrevOp) : SimM Sim (op.parse pf) := by
  induction op with
  | literal v => exact .pure _
  | vbr w => exact (sim_cur (sim_readVbr pf _)).bind fun _ => .pure _
  | fixed w => exact (sim_cur (sim_readAs _ _)).bind fun _ => .pure _
  | array e ih => exact (sim_cur (sim_readVbr pf _)).bind fun _ => (SimM.withCapacity _).bind fun _ => sim_repeat ih _
  | char6 => exact (sim_cur (sim_readAs _ _)).bind fun _ => (sim_char6 _).bind fun _ => .pure _
  | blob =>
    exact (sim_cur (sim_readVbr pf _)).bind fun _ => sim_align.bind fun _ => (SimM.withCapacity _).bind fun _ =>
      (sim_repeat ((sim_cur (sim_readAs _ _)).bind fun _ => .pure _) _).bind fun _ => sim_align.bind fun _ => .pure _

theorem sim_parseFields (pf : Profile) (ops : List AbbrevOp) : SimM Sim (parseFields pf ops) := by
  induction ops with
  | nil => exact .pure _
  | cons op ops ih => exact (sim_opParse pf op).bind fun _ => ih.bind fun _ => .pure _

theorem sim_tryFrom (v : U64) : SimM Sim (AbbrevOpEnc.tryFrom v) := by
  unfold AbbrevOpEnc.tryFrom
  repeat' split
  all_goals first | exact .pure _ | exact .throw _

theorem sim_sub {σ ε : Type} {S : σ → σ → Prop} (pf : Profile) (s : PanicSite) (a b : U64) :
    SimM S (subU64 pf s a b : StM σ ε U64) := by
  unfold subU64
  repeat' split
  all_goals first | exact .pure _ | exact .panic _

theorem sim_arrayElem (pf : Profile) : SimM Sim (parseArrayElem pf) := by
  unfold parseArrayElem
  refine (sim_cur (sim_read _)).bind fun _ => (sim_cur (sim_read _)).bind fun _ => (sim_tryFrom _).bind fun enc => ?_
  cases enc
  · exact (sim_cur (sim_readVbr pf _)).bind fun _ => .pure _
  · exact (sim_cur (sim_readVbr pf _)).bind fun _ => .pure _
  · exact .throw _
  · exact .pure _
  · exact .throw _

theorem sim_encoded (pf : Profile) (num idx : U64) : SimM Sim (parseEncodedOperand pf num idx) := by
  unfold parseEncodedOperand
  refine (sim_cur (sim_read _)).bind fun _ => (sim_tryFrom _).bind fun enc => ?_
  cases enc
  · exact (sim_cur (sim_readVbr pf _)).bind fun _ => .pure _
  · exact (sim_cur (sim_readVbr pf _)).bind fun _ => .pure _
  · refine (sim_sub _ _ _ _).bind fun _ => ?_
    split
    · exact .throw _
    · exact (sim_arrayElem pf).bind fun _ => .pure _
  · exact .pure _
  · refine (sim_sub _ _ _ _).bind fun _ => ?_
    split
    · exact .throw _
    · exact .pure _

theorem sim_operands (pf : Profile) (num : U64) (n : Nat) : SimM Sim (parseOperands pf num n) := by
  induction n with
  | zero => exact .pure _
  | succ n ih =>
    simp only [parseOperands]
    refine (sim_cur (sim_read _)).bind fun _ => ?_
    split
    · exact (sim_cur (sim_readVbr pf _)).bind fun _ => ih.bind fun _ => .pure _
    · refine (sim_encoded pf _ _).bind fun r => ?_
      obtain ⟨op, d⟩ := r
      simp only
      split
      · exact .pure _
      · exact ih.bind fun _ => .pure _

theorem sim_abbrevNew (pf : Profile) : SimM Sim (Abbrev.new pf) := by
  unfold Abbrev.new
  refine (sim_cur (sim_readVbr pf _)).bind fun _ => ?_
  split
  · exact .throw _
  · exact (sim_operands pf _ _).bind fun _ => .pure _

/-! ## The parser -/

structure PSim (p q : Parser) : Prop where
  cur : Sim p.cursor q.cursor
  scopes : p.scopes = q.scopes
  info : p.blockinfo = q.blockinfo

theorem PSim.state {p q : Parser} (h : PSim p q) : q = { p with cursor := q.cursor } := by
  cases p; cases q
  obtain ⟨-, h2, h3⟩ := h
  simp only at h2 h3
  subst h2 h3
  rfl

theorem psim_onCursor {α : Type} {m : BM α} (h : SimM Sim m) : SimM PSim (onCursor m) := by
  intro p q hpq
  obtain ⟨h1, h2⟩ := h _ _ hpq.cur
  exact ⟨h1, fun a ha => ⟨h2 a ha, hpq.scopes, hpq.info⟩⟩

theorem psim_scope : SimM PSim scope := by
  intro p q h
  unfold scope
  rw [h.scopes]
  split <;> exact ⟨rfl, fun _ _ => h⟩

theorem psim_scopeMut (f : Scope → Out BErr Scope) : SimM PSim (scopeMut f) := by
  intro p q h
  unfold scopeMut
  rw [h.scopes]
  split
  · exact ⟨rfl, fun _ _ => h⟩
  · next s rest _ =>
    cases f s with
    | ok s' => exact ⟨rfl, fun _ _ => ⟨h.cur, rfl, h.info⟩⟩
    | err e => exact ⟨rfl, fun _ _ => h⟩
    | panic e => exact ⟨rfl, fun _ _ => h⟩
    | diverge => exact ⟨rfl, fun _ _ => h⟩

theorem psim_mul4 (pf : Profile) (n : U64) : SimM PSim (mul4 pf n) := by
  unfold mul4
  repeat' split
  all_goals first | exact .pure _ | exact .panic _

theorem psim_push (s : Scope) : SimM PSim (pushScope s) := fun p q h =>
  ⟨rfl, fun _ _ => ⟨h.cur, by simp [pushScope, StM.modify, h.scopes], h.info⟩⟩

theorem psim_pushBlockinfo (id : U64) (a : Abbrev) : SimM PSim (pushBlockinfo id a) := fun p q h =>
  ⟨rfl, fun _ _ => ⟨h.cur, h.scopes, by simp [pushBlockinfo, StM.modify, h.info]⟩⟩

theorem psim_enterBlock (pf : Profile) : SimM PSim (enterBlock pf) := by
  unfold enterBlock
  refine (psim_onCursor (sim_cur (sim_readVbr pf _))).bind fun id => ?_
  refine (psim_onCursor (sim_cur (sim_readVbr pf _))).bind fun w => ?_
  refine (psim_onCursor sim_align).bind fun _ => ?_
  split
  · exact .throw _
  · refine (psim_onCursor (sim_cur (sim_read _))).bind fun _ => (psim_mul4 _ _).bind fun len => (psim_push _).bind fun _ => ?_
    intro p q h
    rw [get_bind, get_bind, h.info]
    have hend : SimM PSim (do
        let s ← scope
        if s.isBlockinfo then pure none
        else pure (some (StreamEntry.subBlock { blockId := id, len := len }))) := by
      refine psim_scope.bind fun s => ?_
      split <;> exact .pure _
    cases q.blockinfo id with
    | none => exact hend p q h
    | some l => exact ((psim_scopeMut _).bind fun _ => hend) p q h

theorem psim_exitBlock : SimM PSim exitBlock := by
  unfold exitBlock
  refine (psim_onCursor sim_align).bind fun _ => ?_
  intro p q h
  rw [get_bind, get_bind, h.scopes]
  match hs : q.scopes with
  | [] => exact ⟨rfl, fun _ _ => h⟩
  | [s] => exact ⟨rfl, fun _ _ => h⟩
  | s :: a :: rest =>
    simp only
    rw [StM.bind_ok (show (StM.set { p with scopes := a :: rest } : PM Unit) p = (.ok (), _) from rfl),
      StM.bind_ok (show (StM.set { q with scopes := a :: rest } : PM Unit) q = (.ok (), _) from rfl)]
    split
    · exact ⟨rfl, fun _ _ => ⟨h.cur, rfl, h.info⟩⟩
    · exact ⟨rfl, fun _ _ => ⟨h.cur, rfl, h.info⟩⟩

theorem psim_defineAbbrev (pf : Profile) : SimM PSim (defineAbbrev pf) := by
  unfold defineAbbrev
  refine (psim_onCursor (sim_abbrevNew pf)).bind fun a => psim_scope.bind fun s => ?_
  split
  · split
    · exact .throw _
    · exact psim_pushBlockinfo _ _
  · exact psim_scopeMut _

theorem sim_vbr6s (pf : Profile) (n : Nat) : SimM Sim (readVbr6s pf n) := by
  induction n with
  | zero => exact .pure _
  | succ n ih => exact (sim_cur (sim_readVbr pf _)).bind fun _ => ih.bind fun _ => .pure _

theorem psim_tryFrom (v : U64) : SimM PSim (BlockInfoCode.tryFrom v) := by
  unfold BlockInfoCode.tryFrom
  repeat' split
  all_goals first | exact .pure _ | exact .throw _

theorem psim_parseUnabbrev (pf : Profile) : SimM PSim (parseUnabbrev pf) := by
  unfold parseUnabbrev
  refine psim_scope.bind fun s => ?_
  split
  · exact .throw _
  · refine (psim_onCursor (sim_cur (sim_readVbr pf _))).bind fun code => ?_
    refine (psim_onCursor (sim_cur (sim_readVbr pf _))).bind fun n => ?_
    refine (SimM.withCapacity _).bind fun _ => (psim_onCursor (sim_vbr6s pf _)).bind fun fields => ?_
    refine psim_scope.bind fun s => ?_
    split
    · refine (psim_tryFrom _).bind fun c => ?_
      cases c
      · cases fields with
        | nil => exact .panic _
        | cons b _ => exact (psim_scopeMut _).bind fun _ => .pure _
      · exact .pure _
      · exact .pure _
    · exact .pure _

theorem psim_parseWithAbbrev (pf : Profile) (id : U64) : SimM PSim (parseWithAbbrev pf id) := by
  unfold parseWithAbbrev
  refine psim_scope.bind fun s => (SimM.lift _).bind fun a => (psim_onCursor (sim_parseFields pf _)).bind fun fields => ?_
  cases fields with
  | nil => exact .panic _
  | cons c fs =>
    refine psim_scope.bind fun s => ?_
    split <;> exact .pure _

theorem psim_step (pf : Profile) : SimM PSim (step pf) := by
  intro p q h
  unfold step
  rw [get_bind, get_bind]
  have hex : p.cursor.exhausted = q.cursor.exhausted := by
    rw [Bool.eq_iff_iff, exhausted_iff_rest h.cur.left.toInv, exhausted_iff_rest h.cur.right.toInv, h.cur.rest]
  rw [hex]
  split
  · exact SimM.throw _ p q h
  · refine (SimM.bind psim_scope fun s => SimM.bind (psim_onCursor (sim_cur (sim_read _))) fun id => ?_) p q h
    split
    · exact psim_exitBlock
    · split
      · exact psim_enterBlock pf
      · split
        · exact (psim_defineAbbrev pf).bind fun _ => .pure _
        · split
          · exact psim_parseUnabbrev pf
          · exact psim_parseWithAbbrev pf _

theorem psim_advanceFuel (pf : Profile) (n : Nat) : SimM PSim (advanceFuel pf n) := by
  induction n with
  | zero => exact fun p q h => ⟨rfl, fun a ha => by simp [advanceFuel, StM.diverge] at ha⟩
  | succ n ih =>
    simp only [advanceFuel]
    refine (psim_step pf).bind fun r => ?_
    cases r with
    | some e => exact .pure _
    | none => exact ih

theorem psim_advance (pf : Profile) {p q : Parser} (h : PSim p q) (hp : PInv p) (hq : PInv q) :
    SimR PSim (advance pf p) (advance pf q) := by
  have e : advance pf q = advanceFuel pf (p.cursor.bitLen + 1) q := by
    refine advanceFuel_stable _ _ hq ?_ ?_
    · rw [rest_length hq.cur]; simp only [bitLen]; omega
    · rw [← h.cur.rest, rest_length hp.cur]; simp only [bitLen]; omega
  rw [e]
  exact psim_advanceFuel pf _ p q h

end Verif
