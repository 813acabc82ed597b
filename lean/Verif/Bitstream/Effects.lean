import Verif.Bitstream.Deliver
import Verif.Bitstream.EffectSpec

/-!
What one round of the parser does to the scope stack and to the registered abbreviations.
-/

set_option linter.unusedSimpArgs false

namespace Verif
open Spec Cursor Parser

theorem bind_inv {σ ε α β : Type} {m : StM σ ε α} {f : α → StM σ ε β} {s s' : σ} {b : β} (h : (m >>= f) s = (.ok b, s')) :
    ∃ a s₁, m s = (.ok a, s₁) ∧ f a s₁ = (.ok b, s') := by
  match hm : m s with
  | (.ok a, s₁) => rw [StM.bind_ok hm] at h; exact ⟨a, s₁, rfl, h⟩
  | (.err e, s₁) => rw [StM.bind_err hm] at h; simp at h
  | (.panic q, s₁) => rw [StM.bind_panic hm] at h; simp at h
  | (.diverge, s₁) => simp [StM.bind_apply, hm] at h

theorem pure_inv {σ ε α : Type} {a b : α} {s s' : σ} (h : (pure a : StM σ ε α) s = (.ok b, s')) : a = b ∧ s = s' := by
  simpa [StM.pure_apply] using h

theorem throw_inv {σ ε α : Type} {e : ε} {b : α} {s s' : σ} (h : (StM.throw e : StM σ ε α) s = (.ok b, s')) : False := by
  simp [StM.throw] at h

theorem panic_inv {σ ε α : Type} {e : PanicSite} {b : α} {s s' : σ} (h : (StM.panic e : StM σ ε α) s = (.ok b, s')) :
    False := by
  simp [StM.panic] at h

theorem elem_wf {pf : Profile} {c c' : Cursor} {e : AbbrevOp} (h : parseArrayElem pf c = (.ok e, c')) : e.isElem := by
  unfold parseArrayElem at h
  obtain ⟨_, _, -, h⟩ := bind_inv h
  obtain ⟨_, _, -, h⟩ := bind_inv h
  obtain ⟨enc, _, -, h⟩ := bind_inv h
  cases enc with
  | fixed => obtain ⟨_, _, -, h⟩ := bind_inv h; obtain ⟨rfl, -⟩ := pure_inv h; trivial
  | vbr => obtain ⟨_, _, -, h⟩ := bind_inv h; obtain ⟨rfl, -⟩ := pure_inv h; trivial
  | char6 => obtain ⟨rfl, -⟩ := pure_inv h; trivial
  | array => exact (throw_inv h).elim
  | blob => exact (throw_inv h).elim

theorem encoded_wf {pf : Profile} {num idx : U64} {c c' : Cursor} {op : AbbrevOp} {d : Bool}
    (h : parseEncodedOperand pf num idx c = (.ok (op, d), c')) (hn : 1 ≤ num.toNat) :
    (d = true ∧ op.isLast) ∨ (d = false ∧ (op.isScalar ∨ (op = .blob ∧ idx = num - 1))) := by
  unfold parseEncodedOperand at h
  obtain ⟨_, _, -, h⟩ := bind_inv h
  obtain ⟨enc, _, -, h⟩ := bind_inv h
  cases enc with
  | fixed =>
    obtain ⟨_, _, -, h⟩ := bind_inv h
    have := (pure_inv h).1
    simp only [Prod.mk.injEq] at this
    obtain ⟨rfl, rfl⟩ := this
    exact .inr ⟨rfl, .inl trivial⟩
  | vbr =>
    obtain ⟨_, _, -, h⟩ := bind_inv h
    have := (pure_inv h).1
    simp only [Prod.mk.injEq] at this
    obtain ⟨rfl, rfl⟩ := this
    exact .inr ⟨rfl, .inl trivial⟩
  | char6 =>
    have := (pure_inv h).1
    simp only [Prod.mk.injEq] at this
    obtain ⟨rfl, rfl⟩ := this
    exact .inr ⟨rfl, .inl trivial⟩
  | array =>
    obtain ⟨_, _, -, h⟩ := bind_inv h
    split at h
    · exact (throw_inv h).elim
    · obtain ⟨e, _, he, h⟩ := bind_inv h
      have := (pure_inv h).1
      simp only [Prod.mk.injEq] at this
      obtain ⟨rfl, rfl⟩ := this
      exact .inl ⟨rfl, elem_wf he⟩
  | blob =>
    obtain ⟨l, _, hl, h⟩ := bind_inv h
    split at h
    · exact (throw_inv h).elim
    · next hx =>
      have := (pure_inv h).1
      simp only [Prod.mk.injEq] at this
      obtain ⟨rfl, rfl⟩ := this
      refine .inr ⟨rfl, .inr ⟨rfl, ?_⟩⟩
      have : l = num - 1 := by
        unfold subU64 at hl
        rw [if_pos (by simpa using hn)] at hl
        exact (pure_inv hl).1.symm
      rw [← this]
      exact Decidable.not_not.1 hx

theorem operands_wf {pf : Profile} {num : U64} {n : Nat} {c c' : Cursor} {ops : List AbbrevOp} (hn : 1 ≤ n)
    (hle : n ≤ num.toNat) (h : parseOperands pf num n c = (.ok ops, c')) : OpsWF ops := by
  have key : ∀ {op : AbbrevOp} {ops : List AbbrevOp}, op.isScalar → OpsWF ops → OpsWF (op :: ops) := by
    intro op ops h1 h2
    cases ops with
    | nil => exact absurd h2 (by simp [OpsWF])
    | cons a l => exact ⟨h1, h2⟩
  have scalarLast : ∀ {op : AbbrevOp}, op.isScalar → op.isLast := by
    intro op h; cases op <;> simp_all [AbbrevOp.isScalar, AbbrevOp.isLast]
  induction n generalizing c c' ops with
  | zero => omega
  | succ n ih =>
    simp only [parseOperands] at h
    obtain ⟨k, c₁, -, h⟩ := bind_inv h
    split at h
    · obtain ⟨v, c₂, -, h⟩ := bind_inv h
      obtain ⟨ops', c₃, hops, h⟩ := bind_inv h
      obtain ⟨rfl, -⟩ := pure_inv h
      cases n with
      | zero => simp only [parseOperands] at hops; obtain ⟨rfl, -⟩ := pure_inv hops; trivial
      | succ n => exact key trivial (ih (by omega) (by omega) hops)
    · obtain ⟨⟨op, d⟩, c₂, hop, h⟩ := bind_inv h
      simp only at h
      rcases encoded_wf hop (by omega) with ⟨rfl, hl⟩ | ⟨rfl, hs⟩
      · rw [if_pos rfl] at h
        obtain ⟨rfl, -⟩ := pure_inv h
        exact hl
      · simp only [Bool.false_eq_true, if_false] at h
        obtain ⟨ops', c₃, hops, h⟩ := bind_inv h
        obtain ⟨rfl, -⟩ := pure_inv h
        cases n with
        | zero =>
          simp only [parseOperands] at hops
          obtain ⟨rfl, -⟩ := pure_inv hops
          rcases hs with hs | ⟨rfl, -⟩
          · exact scalarLast hs
          · trivial
        | succ n =>
          rcases hs with hs | ⟨rfl, hidx⟩
          · exact key hs (ih (by omega) (by omega) hops)
          · exfalso
            have h1 := congrArg BitVec.toNat hidx
            rw [BitVec.toNat_sub, BitVec.toNat_sub] at h1
            simp only [BitVec.toNat_ofNat, BitVec.ofNat_eq_ofNat] at h1
            have := num.isLt
            omega

theorem abbrevNew_wf {pf : Profile} {c c' : Cursor} {a : Abbrev} (h : Abbrev.new pf c = (.ok a, c')) :
    OpsWF a.operands := by
  unfold Abbrev.new at h
  obtain ⟨num, c₁, -, h⟩ := bind_inv h
  split at h
  · exact (throw_inv h).elim
  · next hn =>
    obtain ⟨ops, c₂, hops, h⟩ := bind_inv h
    obtain ⟨rfl, -⟩ := pure_inv h
    rw [BitVec.lt_def] at hn
    simp at hn
    exact operands_wf (by omega) (Nat.le_refl _) hops

/-! ## Effects -/

/-- The scope stack and registry of a parser are those of another. -/
def Kept (p p' : Parser) : Prop := p'.scopes = p.scopes ∧ p'.blockinfo = p.blockinfo

/-- A parser action has an effect starting from what `p` has. -/
def Eff (pf : Profile) (p : Parser) (r : Out BErr (Option StreamEntry) × Parser) : Prop :=
  Effect pf p.scopes p.blockinfo r.1 r.2.scopes r.2.blockinfo

theorem Kept.refl (p : Parser) : Kept p p := ⟨rfl, rfl⟩
theorem Kept.trans {p q r : Parser} (h₁ : Kept p q) (h₂ : Kept q r) : Kept p r :=
  ⟨h₂.1.trans h₁.1, h₂.2.trans h₁.2⟩

theorem Kept.eff {pf : Profile} {p q : Parser} (h : Kept p q) {r : Out BErr (Option StreamEntry) × Parser}
    (he : Eff pf q r) : Eff pf p r := by
  unfold Eff at *
  rwa [h.1, h.2] at he

/-- Actions that keep scopes and registry. -/
def Keeps {α : Type} (m : PM α) : Prop := ∀ p, Kept p (m p).2

theorem keeps_onCursor {α : Type} (m : BM α) : Keeps (onCursor m) := fun _ => ⟨rfl, rfl⟩
theorem keeps_scope : Keeps scope := by
  intro p; unfold scope; split <;> exact Kept.refl _
theorem keeps_withCapacity (n : U64) : Keeps (withCapacity n : PM Unit) := by
  intro p; unfold withCapacity; split <;> exact Kept.refl _
theorem keeps_mul4 (pf : Profile) (n : U64) : Keeps (mul4 pf n) := by
  intro p; unfold mul4; repeat' split
  all_goals exact Kept.refl _
theorem keeps_lift {α : Type} (x : Out BErr α) : Keeps (StM.lift x : PM α) := fun _ => Kept.refl _
theorem keeps_tryFrom (v : U64) : Keeps (BlockInfoCode.tryFrom v) := by
  intro p; unfold BlockInfoCode.tryFrom; repeat' split
  all_goals exact Kept.refl _

/-- Sequencing after an action that keeps the scopes. -/
theorem eff_bind {α : Type} {pf : Profile} {m : PM α} (hm : Keeps m) {f : α → PM (Option StreamEntry)} {p : Parser}
    (hf : ∀ a p', m p = (.ok a, p') → Eff pf p' (f a p')) : Eff pf p ((m >>= f) p) := by
  have hk := hm p
  match hr : m p with
  | (.ok a, p') =>
    rw [StM.bind_ok hr]; rw [hr] at hk
    exact hk.eff (hf a p' hr)
  | (.err e, p') =>
    rw [StM.bind_err hr]; rw [hr] at hk
    exact hk.eff (.fail (by simp))
  | (.panic e, p') =>
    rw [StM.bind_panic hr]; rw [hr] at hk
    exact hk.eff (.fail (by simp))
  | (.diverge, p') =>
    rw [hr] at hk
    rw [show (m >>= f) p = (.diverge, p') by simp [StM.bind_apply, hr]]
    exact hk.eff (.fail (by simp))

theorem eff_throw {pf : Profile} (e : BErr) (p : Parser) : Eff pf p ((StM.throw e : PM (Option StreamEntry)) p) :=
  .fail (by simp [StM.throw])
theorem eff_panic {pf : Profile} (e : PanicSite) (p : Parser) : Eff pf p ((StM.panic e : PM (Option StreamEntry)) p) :=
  .fail (by simp [StM.panic])

theorem scope_inv {p p' : Parser} {s : Scope} (h : scope p = (.ok s, p')) : ∃ rest, p.scopes = s :: rest ∧ p' = p := by
  unfold scope at h
  split at h
  · simp at h
  · next a rest hs => simp at h; exact ⟨rest, by rw [hs, h.1], h.2.symm⟩

theorem isBlockinfo_block {w id : U64} {bid : Option U64} {l : List Abbrev} :
    (Scope.block w id bid l).isBlockinfo = decide (id = 0) := by
  rw [Bool.eq_iff_iff]; simp [Scope.isBlockinfo]

theorem eff_enterBlock {pf : Profile} (p : Parser) : Eff pf p (enterBlock pf p) := by
  unfold enterBlock
  refine eff_bind (keeps_onCursor _) fun id p₁ _ => ?_
  refine eff_bind (keeps_onCursor _) fun w p₂ _ => ?_
  refine eff_bind (keeps_onCursor _) fun _ p₃ _ => ?_
  split
  · exact eff_throw _ _
  · next hw =>
    have hw0 : w ≠ 0 := by
      rintro rfl; exact hw (by decide)
    refine eff_bind (keeps_onCursor _) fun n p₄ _ => ?_
    refine eff_bind (keeps_mul4 _ _) fun len p₅ _ => ?_
    rw [StM.bind_ok (show pushScope (Scope.new w id) p₅ =
          (.ok (), { p₅ with scopes := Scope.new w id :: p₅.scopes }) from rfl), get_bind]
    have fin : ∀ q : Parser, q.scopes = .block w id none ((p₅.blockinfo id).getD []) :: p₅.scopes →
        q.blockinfo = p₅.blockinfo → Eff pf p₅ ((do
          let s ← scope
          if s.isBlockinfo then pure none
          else pure (some (StreamEntry.subBlock { blockId := id, len := len }))) q) := by
      intro q h1 h2
      rw [StM.bind_ok (show scope q = (.ok (.block w id none ((p₅.blockinfo id).getD [])), q) by
        simp only [scope, h1])]
      have := Effect.enter (pf := pf) (sc := p₅.scopes) (info := p₅.blockinfo) id w len hw0
      rw [isBlockinfo_block]
      unfold Eff
      by_cases h0 : id = 0
      · rw [if_pos (by simp [h0])]
        rw [if_pos h0] at this
        simpa [StM.pure_apply, h1, h2] using this
      · rw [if_neg (by simpa using h0)]
        rw [if_neg h0] at this
        simpa [StM.pure_apply, h1, h2] using this
    simp only
    cases hb : p₅.blockinfo id with
    | none => exact fin _ (by simp [hb, Scope.new]) rfl
    | some l =>
      refine fin { p₅ with scopes := .block w id none ([] ++ l) :: p₅.scopes } ?_ rfl
      simp [hb]

theorem eff_exitBlock {pf : Profile} (p : Parser) : Eff pf p (exitBlock p) := by
  unfold exitBlock
  refine eff_bind (keeps_onCursor _) fun _ p₁ _ => ?_
  rw [get_bind]
  match hs : p₁.scopes with
  | [] => exact eff_throw _ _
  | [s] => exact eff_throw _ _
  | s :: a :: rest =>
    simp only
    rw [StM.bind_ok (show (StM.set { p₁ with scopes := a :: rest } : PM Unit) p₁ = (.ok (), _) from rfl)]
    have := Effect.exit (pf := pf) (sc := p₁.scopes) (info := p₁.blockinfo) hs
    unfold Eff
    split
    · next h => rw [if_pos h] at this; exact this
    · next h => rw [if_neg h] at this; exact this

theorem eff_defineAbbrev {pf : Profile} (p : Parser) :
    Eff pf p ((do defineAbbrev pf; pure none : PM (Option StreamEntry)) p) := by
  have hassoc : (do defineAbbrev pf; pure none : PM (Option StreamEntry)) p = (do
      let a ← onCursor (Abbrev.new pf)
      let s ← scope
      (if s.isBlockinfo then
        match s.blockinfoBlockId with
        | none => StM.throw (.streamParse .noSetBid)
        | some id => pushBlockinfo id a
      else scopeMut (Scope.extendAbbrevs [a])) >>= fun _ => pure none : PM (Option StreamEntry)) p := by
    unfold defineAbbrev
    simp only [StM.bind_apply]
    cases h : onCursor (Abbrev.new pf) p with
    | mk r q =>
      cases r with
      | ok a =>
        simp only
        cases h2 : scope q with
        | mk r2 q2 => cases r2 <;> rfl
      | _ => rfl
  rw [hassoc]
  refine eff_bind (keeps_onCursor _) fun a p₁ ha => ?_
  refine eff_bind keeps_scope fun s p₂ hsc => ?_
  obtain ⟨rest, hs, rfl⟩ := scope_inv hsc
  have hwf : OpsWF a.operands := by
    simp only [onCursor, Prod.mk.injEq] at ha
    exact abbrevNew_wf (c := p.cursor) (c' := (Abbrev.new pf p.cursor).2) (Prod.ext ha.1 rfl)
  cases s with
  | initial =>
    simp only [Scope.isBlockinfo, Bool.false_eq_true, if_false]
    have : scopeMut (Scope.extendAbbrevs [a]) p₂ = (.err (.badScope .noAbbrevs), p₂) := by
      simp [scopeMut, hs, Scope.extendAbbrevs]
    rw [StM.bind_err this]
    exact .fail (by simp)
  | block w id bid l =>
    rw [isBlockinfo_block]
    by_cases h0 : id = 0
    · subst h0
      simp only [decide_true, if_true, Scope.blockinfoBlockId]
      cases bid with
      | none =>
        exact .fail (by simp [StM.bind_apply, StM.throw])
      | some t => exact .register hs hwf
    · rw [if_neg (by simpa using h0)]
      have : scopeMut (Scope.extendAbbrevs [a]) p₂ =
          (.ok (), { p₂ with scopes := .block w id bid (l ++ [a]) :: rest }) := by
        simp [scopeMut, hs, Scope.extendAbbrevs]
      rw [StM.bind_ok this]
      exact .define hs h0 hwf

theorem eff_parseUnabbrev {pf : Profile} (p : Parser) : Eff pf p (parseUnabbrev pf p) := by
  unfold parseUnabbrev
  refine eff_bind keeps_scope fun s p₁ hsc => ?_
  obtain ⟨rest, hs, rfl⟩ := scope_inv hsc
  split
  · exact eff_throw _ _
  · refine eff_bind (keeps_onCursor _) fun code p₂ e₂ => ?_
    refine eff_bind (keeps_onCursor _) fun n p₃ e₃ => ?_
    refine eff_bind (keeps_withCapacity _) fun _ p₄ e₄ => ?_
    refine eff_bind (keeps_onCursor _) fun fields p₅ e₅ => ?_
    refine eff_bind keeps_scope fun s' p₆ hsc' => ?_
    obtain ⟨rest', hs', rfl⟩ := scope_inv hsc'
    have hne : s' ≠ .initial := by
      have k2 := keeps_onCursor (cur (readVbr pf 6)) p₁
      rw [e₂] at k2
      have k3 := keeps_onCursor (cur (readVbr pf 6)) p₂
      rw [e₃] at k3
      have k4 := keeps_withCapacity n p₃
      rw [e₄] at k4
      have k5 := keeps_onCursor (readVbr6s pf n.toNat) p₄
      rw [e₅] at k5
      have := (((k2.trans k3).trans k4).trans k5).1
      simp only at this
      rw [hs', hs] at this
      simp only [List.cons.injEq] at this
      rw [this.1]; assumption
    cases s' with
    | initial => exact absurd rfl hne
    | block w id bid l =>
      rw [isBlockinfo_block]
      by_cases h0 : id = 0
      · subst h0
        rw [if_pos (by simp)]
        refine eff_bind (keeps_tryFrom _) fun bc p₇ e₇ => ?_
        have k7 := keeps_tryFrom code p₆
        rw [e₇] at k7
        have hs7 : p₇.scopes = .block w 0 bid l :: rest' := k7.1.trans hs'
        cases bc with
        | setBid =>
          cases fields with
          | nil => exact eff_panic _ _
          | cons t ts =>
            have : scopeMut (Scope.setBlockinfoBlockId t) p₇ =
                (.ok (), { p₇ with scopes := .block w 0 (some t) l :: rest' }) := by
              simp [scopeMut, hs7, Scope.setBlockinfoBlockId]
            simp only
            rw [StM.bind_ok this]
            exact .setBid t hs7
        | blockName => exact .ignore hs7
        | setRecordName => exact .ignore hs7
      · rw [if_neg (by simpa using h0)]
        exact .record hs' h0 (by simp)

theorem eff_parseWithAbbrev {pf : Profile} {n : U64} (hn : 4 ≤ n.toNat) (p : Parser) :
    Eff pf p (parseWithAbbrev pf n p) := by
  unfold parseWithAbbrev
  refine eff_bind keeps_scope fun s p₁ hsc => ?_
  obtain ⟨rest, hs, rfl⟩ := scope_inv hsc
  refine eff_bind (keeps_lift _) fun a p₂ e₂ => ?_
  have h2 : s.getAbbrev pf n = .ok a ∧ p₁ = p₂ := by
    simpa [StM.lift_apply] using e₂
  obtain ⟨hga, rfl⟩ := h2
  refine eff_bind (keeps_onCursor _) fun fields p₃ e₃ => ?_
  have k3 := keeps_onCursor (a.parse pf) p₁
  rw [e₃] at k3
  have hs3 : p₃.scopes = s :: rest := k3.1.trans hs
  cases fields with
  | nil => exact eff_panic _ _
  | cons code fields =>
    simp only
    refine eff_bind keeps_scope fun s' p₄ hsc' => ?_
    obtain ⟨rest', hs', rfl⟩ := scope_inv hsc'
    rw [hs3] at hs'
    simp only [List.cons.injEq] at hs'
    obtain ⟨rfl, rfl⟩ := hs'
    cases s with
    | initial => simp [Scope.getAbbrev] at hga
    | block w id bid l =>
      rw [isBlockinfo_block]
      by_cases h0 : id = 0
      · subst h0
        rw [if_pos (by simp)]
        exact .ignore hs3
      · rw [if_neg (by simpa using h0)]
        refine .record hs3 h0 ?_
        intro m hm
        simp only [Option.some.injEq] at hm
        subst hm
        refine ⟨hn, a, p₁.cursor, (a.parse pf p₁.cursor).2, ?_, ?_⟩
        · simp only [Scope.getAbbrev] at hga
          rw [if_neg (by omega), toNat_sub4 hn] at hga
          cases hl : l[n.toNat - 4]? with
          | none => rw [hl] at hga; simp at hga
          | some b => rw [hl] at hga; simpa using hga
        · simp only [onCursor, Prod.mk.injEq] at e₃
          exact Prod.ext e₃.1 rfl

theorem eff_step (pf : Profile) (p : Parser) : Eff pf p (step pf p) := by
  unfold step
  rw [get_bind]
  split
  · exact eff_throw _ _
  · refine eff_bind keeps_scope fun s p₁ _ => ?_
    refine eff_bind (keeps_onCursor _) fun id p₂ _ => ?_
    have key : ∀ k : U64, ¬ id = k → id.toNat ≠ k.toNat := fun k hk hc => hk (BitVec.eq_of_toNat_eq hc)
    split
    · exact eff_exitBlock _
    · split
      · exact eff_enterBlock _
      · split
        · exact eff_defineAbbrev _
        · split
          · exact eff_parseUnabbrev _
          · next h0 h1 h2 h3 =>
            refine eff_parseWithAbbrev ?_ _
            have e0 := key _ h0
            have e1 := key _ h1
            have e2 := key _ h2
            have e3 := key _ h3
            simp at e0 e1 e2 e3
            omega

end Verif
