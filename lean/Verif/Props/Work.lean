import Verif.Bitstream.Work
import Verif.Props.Kept
import Verif.Props.AttrSizes
import Verif.Props.Reserve
import Verif.Props.ReserveClaims
import Verif.Props.LogClaims

/-! C87: how many steps reading takes. -/

set_option linter.unusedSimpArgs false

namespace Verif
open Spec Cursor
open WorkM (cost free)

variable {σ ε ε' α β : Type}

/-! ## Counting changes nothing -/

/-- The counted action does what the action does. -/
def Runs (m : WorkM σ ε α) (m' : StM σ ε α) : Prop := ∀ s, (m s).1 = m' s

theorem runs_cost (n : Nat) (m : StM σ ε α) : Runs (cost n m) m := fun _ => rfl

theorem runs_pure (a : α) : Runs (Pure.pure a : WorkM σ ε α) (Pure.pure a) := fun _ => rfl

theorem Runs.bind {m : WorkM σ ε α} {m' : StM σ ε α} {f : α → WorkM σ ε β} {f' : α → StM σ ε β} (h : Runs m m')
    (hf : ∀ a, Runs (f a) (f' a)) : Runs (m >>= f) (m' >>= f') := by
  intro s
  have hs := h s
  show (WorkM.bind m f s).1 = _
  rw [StM.bind_apply, ← hs]
  unfold WorkM.bind
  match m s with
  | ((.ok a, s'), n) => exact hf a s'
  | ((.err e, s'), n) => rfl
  | ((.panic p, s'), n) => rfl
  | ((.diverge, s'), n) => rfl

theorem Runs.mapErr {m : WorkM σ ε α} {m' : StM σ ε α} (f : ε → ε') (h : Runs m m') : Runs (WorkM.mapErr f m) (StM.mapErr f m') := by
  intro s
  have := h s
  simp only [WorkM.mapErr, StM.mapErr, this]

/-- Steps before an action. -/
theorem Runs.tick {m : WorkM σ ε α} {m' : StM σ ε α} (h : Runs m m') (n : Nat) : Runs (do WorkM.tick n; m) m' := h

theorem runs_vbrLoop (pf : Profile) (w fuel : Nat) : ∀ (r : U64) (shift : Nat),
    Runs (Work.vbrLoop pf w fuel r shift) (readVbrLoop pf w fuel r shift) := by
  induction fuel with
  | zero => intro r shift s; rfl
  | succ n ih =>
    intro r shift s
    show (WorkM.bind _ _ s).1 = _
    simp only [WorkM.bind, cost, readVbrLoop]
    match read w s with
    | (.ok b, s') =>
      simp only
      cases shl64 pf (b &&& ~~~(1#64 <<< (w - 1))) shift with
      | none => rfl
      | some x =>
        simp only
        split
        · exact ih _ _ _
        · rfl
    | (.err e, s') => rfl
    | (.panic p, s') => rfl
    | (.diverge, s') => rfl

theorem runs_vbr (pf : Profile) (w : Nat) : Runs (Work.vbr pf w) (cur (readVbr pf w)) := by
  refine Runs.mapErr _ fun c => ?_
  simp only [readVbr]
  split
  · rfl
  · exact runs_vbrLoop pf w _ _ _ c

theorem runs_repeat {body : WorkM Cursor BErr (List U64)} {body' : BM (List U64)} (h : Runs body body') (n : Nat) :
    Runs (Work.repeatFields body n) (repeatFields body' n) := by
  induction n with
  | zero => exact runs_pure _
  | succ n ih => exact h.bind fun _ => ih.bind fun _ => runs_pure _

theorem runs_op (pf : Profile) (o : AbbrevOp) : Runs (Work.op pf o) (o.parse pf) := by
  induction o with
  | literal v => exact (runs_pure _).tick 1
  | vbr w => exact ((runs_vbr pf _).bind fun _ => runs_pure _).tick 1
  | fixed w => exact ((runs_cost 1 _).bind fun _ => runs_pure _).tick 1
  | array e ih => exact ((runs_vbr pf 6).bind fun n => (runs_cost 0 _).bind fun _ => runs_repeat ih _).tick 1
  | char6 => exact ((runs_cost 1 _).bind fun _ => (runs_cost 0 _).bind fun _ => runs_pure _).tick 1
  | blob =>
    exact ((runs_vbr pf 6).bind fun n => (runs_cost 0 _).bind fun _ => (runs_cost 0 _).bind fun _ =>
      (runs_repeat ((runs_cost 1 _).bind fun _ => runs_pure _) _).bind fun _ => (runs_cost 0 _).bind fun _ => runs_pure _).tick 1

theorem runs_fields (pf : Profile) (ops : List AbbrevOp) : Runs (Work.fields pf ops) (parseFields pf ops) := by
  induction ops with
  | nil => exact runs_pure _
  | cons o ops ih => exact (runs_op pf o).bind fun _ => ih.bind fun _ => runs_pure _

theorem runs_width (pf : Profile) (f : U64 → α) :
    Runs (do let w ← Work.vbr pf 5; pure (f w)) (do let w ← cur (readVbr pf 5); pure (f w)) :=
  (runs_vbr pf 5).bind fun _ => runs_pure _

theorem runs_arrayElem (pf : Profile) : Runs (Work.arrayElem pf) (parseArrayElem pf) := by
  refine (runs_cost 1 _).bind fun _ => (runs_cost 1 _).bind fun e => (runs_cost 0 _).bind fun enc => ?_
  cases enc
  · exact runs_width pf _
  · exact runs_width pf _
  · exact runs_cost 0 _
  · exact runs_pure _
  · exact runs_cost 0 _

theorem runs_encoded (pf : Profile) (num idx : U64) : Runs (Work.encodedOperand pf num idx) (parseEncodedOperand pf num idx) := by
  refine (runs_cost 1 _).bind fun e => (runs_cost 0 _).bind fun enc => ?_
  cases enc
  · exact runs_width pf _
  · exact runs_width pf _
  · refine (runs_cost 0 _).bind fun last2 => ?_
    split
    · exact runs_cost 0 _
    · exact (runs_arrayElem pf).bind fun _ => runs_pure _
  · exact runs_pure _
  · refine (runs_cost 0 _).bind fun last => ?_
    split
    · exact runs_cost 0 _
    · exact runs_pure _

theorem runs_operands (pf : Profile) (num : U64) (n : Nat) : Runs (Work.operands pf num n) (parseOperands pf num n) := by
  induction n with
  | zero => exact runs_pure _
  | succ n ih =>
    refine (runs_cost 1 _).bind fun kind => ?_
    split
    · exact (runs_vbr pf 8).bind fun _ => ih.bind fun _ => runs_pure _
    · refine (runs_encoded pf num _).bind fun r => ?_
      obtain ⟨o, d⟩ := r
      cases d
      · exact ih.bind fun _ => runs_pure _
      · exact runs_pure _

theorem runs_abbrevNew (pf : Profile) : Runs (Work.abbrevNew pf) (Abbrev.new pf) := by
  refine (runs_vbr pf 5).bind fun num => ?_
  split
  · exact runs_cost 0 _
  · exact (runs_operands pf num _).bind fun _ => runs_pure _

theorem runs_onCursor {m : WorkM Cursor BErr α} {m' : BM α} (h : Runs m m') : Runs (Work.onCursor m) (Parser.onCursor m') := by
  intro p
  have := h p.cursor
  simp only [Work.onCursor, Parser.onCursor, this]

theorem runs_enterBlock (pf : Profile) : Runs (Work.enterBlock pf) (Parser.enterBlock pf) := by
  refine (runs_onCursor (runs_vbr pf 8)).bind fun id => (runs_onCursor (runs_vbr pf 4)).bind fun w => (runs_cost 0 _).bind fun _ => ?_
  split
  · exact runs_cost 0 _
  · refine (runs_onCursor (runs_cost 1 _)).bind fun n => (runs_cost 0 _).bind fun len => (runs_cost 0 _).bind fun _ =>
      (runs_cost 0 _).bind fun p => ?_
    have last : Runs (do
        let s ← (WorkM.free Parser.scope : WorkM Parser BErr Scope)
        if s.isBlockinfo then pure none
        else pure (some (StreamEntry.subBlock { blockId := id, len := len }))) (do
        let s ← Parser.scope
        if s.isBlockinfo then pure none
        else pure (some (StreamEntry.subBlock { blockId := id, len := len }))) := by
      refine (runs_cost 0 _).bind fun s => ?_
      split <;> exact runs_pure _
    cases p.blockinfo id with
    | some l => exact (runs_cost _ _).bind fun _ => last
    | none => exact (runs_pure ()).bind fun _ => last

theorem runs_defineAbbrev (pf : Profile) : Runs (Work.defineAbbrev pf) (Parser.defineAbbrev pf) :=
  (runs_onCursor (runs_abbrevNew pf)).bind fun _ => runs_cost 0 _

theorem runs_vbr6s (pf : Profile) (n : Nat) : Runs (Work.vbr6s pf n) (Parser.readVbr6s pf n) := by
  induction n with
  | zero => exact runs_pure _
  | succ n ih => exact (runs_vbr pf 6).bind fun _ => ih.bind fun _ => runs_pure _

theorem runs_parseUnabbrev (pf : Profile) : Runs (Work.parseUnabbrev pf) (Parser.parseUnabbrev pf) := by
  refine (runs_cost 0 _).bind fun s => ?_
  split
  · exact runs_cost 0 _
  · exact (runs_onCursor (runs_vbr pf 6)).bind fun _ => (runs_onCursor (runs_vbr pf 6)).bind fun _ => (runs_cost 0 _).bind fun _ =>
      (runs_onCursor (runs_vbr6s pf _)).bind fun _ => runs_cost 0 _

theorem runs_parseWithAbbrev (pf : Profile) (id : U64) : Runs (Work.parseWithAbbrev pf id) (Parser.parseWithAbbrev pf id) :=
  (runs_cost 0 _).bind fun _ => (runs_cost 0 _).bind fun _ =>
    ((runs_onCursor (runs_fields pf _)).bind fun _ => runs_cost 0 _).tick _

theorem runs_step (pf : Profile) : Runs (Work.step pf) (Parser.step pf) := by
  refine Runs.tick ((runs_cost 0 _).bind fun p => ?_) 1
  split
  · exact runs_cost 0 _
  · refine (runs_cost 0 _).bind fun s => (runs_onCursor (runs_cost 1 _)).bind fun id => ?_
    unfold Work.dispatch
    split
    · exact runs_cost 0 _
    split
    · exact runs_enterBlock pf
    split
    · exact (runs_defineAbbrev pf).bind fun _ => runs_pure _
    split
    · exact runs_parseUnabbrev pf
    · exact runs_parseWithAbbrev pf id

theorem runs_advanceFuel (pf : Profile) (fuel : Nat) : Runs (Work.advanceFuel pf fuel) (Parser.advanceFuel pf fuel) := by
  induction fuel with
  | zero => exact runs_cost 0 _
  | succ n ih =>
    refine (runs_step pf).bind fun r => ?_
    cases r with
    | none => exact ih
    | some e => exact runs_pure _


/-! ## Bounds -/

/-- The steps of the action are at most two for each bit it consumes, and `k` if it succeeds, or `j` if it does not. The action keeps
the invariant `I`. -/
def SpendsOn (tell : σ → Nat) (I : σ → Prop) (k j : Int) (m : WorkM σ ε α) : Prop := ∀ c, I c →
  I (m c).1.2 ∧ tell c ≤ tell (m c).1.2 ∧ ((m c).2 : Int) + 2 * tell c ≤ 2 * tell (m c).1.2 + j ∧
    ∀ a, (m c).1.1 = .ok a → ((m c).2 : Int) + 2 * tell c ≤ 2 * tell (m c).1.2 + k

section
variable {tell : σ → Nat} {I : σ → Prop}

theorem SpendsOn.weaken {k j k' j' : Int} {m : WorkM σ ε α} (h : SpendsOn tell I k j m) (hk : k ≤ k') (hj : j ≤ j') :
    SpendsOn tell I k' j' m := by
  intro c hc
  obtain ⟨h1, h2, h3, h4⟩ := h c hc
  exact ⟨h1, h2, by omega, fun a ha => by have := h4 a ha; omega⟩

theorem spends_pure (a : α) : SpendsOn tell I 0 0 (Pure.pure a : WorkM σ ε α) := by
  intro c hc
  exact ⟨hc, Nat.le_refl _, by simp [Pure.pure, WorkM.pure], fun _ _ => by simp [Pure.pure, WorkM.pure]⟩

theorem SpendsOn.bind {k j k' j' k₀ j₀ : Int} {m : WorkM σ ε α} {f : α → WorkM σ ε β} (h : SpendsOn tell I k j m)
    (hf : ∀ a, SpendsOn tell I k' j' (f a)) (hk : k + k' ≤ k₀) (h1 : j ≤ j₀) (h2 : k + j' ≤ j₀) : SpendsOn tell I k₀ j₀ (m >>= f) := by
  intro c hc
  obtain ⟨g1, g2, g3, g4⟩ := h c hc
  rw [show (m >>= f) = WorkM.bind m f from rfl]
  unfold WorkM.bind
  match hm : m c with
  | ((.ok a, s'), n) =>
    rw [hm] at g1 g2 g4
    obtain ⟨f1, f2, f3, f4⟩ := hf a s' g1
    have g4 := g4 a rfl
    simp only at g2 g4 ⊢
    exact ⟨f1, by omega, by omega, fun b hb => by have := f4 b hb; omega⟩
  | ((.err e, s'), n) => rw [hm] at g1 g2 g3; simp only at g2 g3 ⊢; exact ⟨g1, g2, by omega, by simp⟩
  | ((.panic e, s'), n) => rw [hm] at g1 g2 g3; simp only at g2 g3 ⊢; exact ⟨g1, g2, by omega, by simp⟩
  | ((.diverge, s'), n) => rw [hm] at g1 g2 g3; simp only at g2 g3 ⊢; exact ⟨g1, g2, by omega, by simp⟩

theorem SpendsOn.mapErr {k j : Int} {m : WorkM σ ε α} (f : ε → ε') (h : SpendsOn tell I k j m) :
    SpendsOn tell I k j (WorkM.mapErr f m) := by
  intro c hc
  obtain ⟨h1, h2, h3, h4⟩ := h c hc
  refine ⟨h1, h2, h3, fun a ha => ?_⟩
  simp only [WorkM.mapErr] at ha ⊢
  cases hx : (m c).1.1 with
  | ok x => exact h4 x hx
  | err e => rw [hx] at ha; simp at ha
  | panic e => rw [hx] at ha; simp at ha
  | diverge => rw [hx] at ha; simp at ha

theorem SpendsOn.tick {k j : Int} {m : WorkM σ ε α} (h : SpendsOn tell I k j m) (n : Nat) :
    SpendsOn tell I (k + n) (j + n) (do WorkM.tick n; m) := by
  intro c hc
  obtain ⟨h1, h2, h3, h4⟩ := h c hc
  refine ⟨h1, h2, ?_, fun a ha => ?_⟩
  · show ((n + (m c).2 : Nat) : Int) + 2 * tell c ≤ 2 * tell (m c).1.2 + (j + n)
    omega
  · have := h4 a ha
    show ((n + (m c).2 : Nat) : Int) + 2 * tell c ≤ 2 * tell (m c).1.2 + (k + n)
    omega

end

/-- The relation for a cursor. -/
abbrev Spends (k j : Int) (m : WorkM Cursor ε α) : Prop := SpendsOn Cursor.tellBit Cursor.Inv k j m

theorem spends_cost {A : PanicSite → Prop} {w : Nat} {m : StM Cursor ε α} (h : Good A w m) (n : Nat) :
    Spends (n - 2 * w) n (cost n m) := by
  intro c hc
  have hs := h c hc
  have hm := hs.mono
  refine ⟨hs.inv, hm, ?_, fun a ha => ?_⟩
  · simp only [cost]; omega
  · have := hs.eats a ha
    simp only [cost]; omega

theorem spends_free {A : PanicSite → Prop} {m : StM Cursor ε α} (h : Good A 0 m) : Spends 0 0 (free m) :=
  (spends_cost h 0).weaken (by omega) (by omega)

theorem spends_eats {A : PanicSite → Prop} {m : BM α} (h : Good A 0 m) (he : Eats m) : Spends (-1) 1 (cost 1 m) := by
  intro c hc
  have hs := h c hc
  have hm := hs.mono
  refine ⟨hs.inv, hm, ?_, fun a ha => ?_⟩
  · simp only [cost]; omega
  · have := (he c (m c).2 a hc (Prod.ext ha rfl)).2
    simp only [cost]; omega

theorem spends_vbrLoop (pf : Profile) (w : Nat) (hw : 2 ≤ w) (fuel : Nat) : ∀ (r : U64) (shift : Nat),
    Spends (-3) 1 (Work.vbrLoop pf w fuel r shift) := by
  induction fuel with
  | zero =>
    intro r shift c hc
    exact ⟨hc, Nat.le_refl _, by simp [Work.vbrLoop, free, cost, StM.diverge]; omega, fun a ha => by simp [Work.vbrLoop, free, cost, StM.diverge] at ha⟩
  | succ n ih =>
    intro r shift
    refine SpendsOn.bind (k := -3) (j := 1) (k' := 0) (j' := 4) ((spends_cost (good_read w fun _ => True) 1).weaken (by omega) (by omega))
      (fun b => ?_) (by omega) (by omega) (by omega)
    cases shl64 pf (b &&& ~~~(1#64 <<< (w - 1))) shift with
    | none => exact (spends_free (Good.panic (A := fun _ => True) trivial 0)).weaken (by omega) (by omega)
    | some x =>
      simp only
      split
      · exact (ih _ _).weaken (by omega) (by omega)
      · exact (spends_pure _).weaken (by omega) (by omega)

theorem spends_vbr (pf : Profile) (w : Nat) : Spends (-3) 1 (Work.vbr pf w) := by
  refine SpendsOn.mapErr _ ?_
  intro c hc
  by_cases hw : 2 ≤ w ∧ w ≤ 32
  · simp only [hw, not_true, if_false, and_self]
    exact spends_vbrLoop pf w hw.1 _ _ _ c hc
  · simp only [hw, not_false_eq_true, if_true]
    exact ⟨hc, Nat.le_refl _, by simp [free, cost, StM.throw]; omega, fun a ha => by simp [free, cost, StM.throw] at ha⟩

theorem eats_read (w : Nat) : Eats (cur (Cursor.read w)) := by
  intro c c' a hc h
  exact eats_of_good (good_cur (good_read w (fun _ => True))) (read_value_lt hc (cur_ok h)).2.1 c c' a hc h

theorem spends_read (w : Nat) : Spends (-1) 1 (Work.read w) :=
  spends_eats ((good_cur (good_read w fun _ => True)).weaken (Nat.zero_le _)) (eats_read w)

theorem spends_readAs (t : IntTy) (w : Nat) : Spends (-1) 1 (cost 1 (cur (readAs t w))) :=
  spends_eats ((good_cur (good_readAs t w fun _ => True)).weaken (Nat.zero_le _)) (eats_readAs t w)

theorem spends_repeat {j : Int} (hj : 0 ≤ j) {body : WorkM Cursor BErr (List U64)} (h : Spends 0 j body) (n : Nat) :
    Spends 0 j (Work.repeatFields body n) := by
  induction n with
  | zero => exact (spends_pure _).weaken (by omega) (by omega)
  | succ n ih =>
    exact h.bind (fun _ => ih.bind (k₀ := 0) (j₀ := j) (fun _ => spends_pure _) (by omega) (by omega) (by omega)) (by omega) (by omega) (by omega)

theorem spends_char6 : Spends (-1) 1 (do
    let c ← cost 1 (cur (readAs .u8 6)); let v ← free (decodeChar6 c); pure [v] : WorkM Cursor BErr (List U64)) :=
  (spends_readAs .u8 6).bind (fun c => (spends_free (A := fun _ => True) (by
    unfold decodeChar6
    split
    · exact Good.pure _
    · exact Good.panic trivial _)).bind (k₀ := 0) (j₀ := 0) (fun _ => spends_pure _) (by omega) (by omega) (by omega)) (by omega) (by omega) (by omega)

/-- Elements of arrays. -/
theorem spends_elem (pf : Profile) {o : AbbrevOp} (h : o.isElem) : Spends 0 2 (Work.op pf o) := by
  cases o with
  | vbr w =>
    exact (((spends_vbr pf _).bind (fun _ => spends_pure _) (Int.le_refl _) (Int.le_refl _) (by omega)).tick 1).weaken (by omega) (by omega)
  | fixed w =>
    exact (((spends_readAs _ _).bind (fun _ => spends_pure _) (Int.le_refl _) (Int.le_refl _) (by omega)).tick 1).weaken (by omega)
      (by omega)
  | char6 => exact (spends_char6.tick 1).weaken (by omega) (by omega)
  | literal v => exact h.elim
  | array e => exact h.elim
  | blob => exact h.elim

/-- Operands: a literal takes a step and no bits. -/
theorem spends_op (pf : Profile) {o : AbbrevOp} (h : o.isLast) : Spends 1 2 (Work.op pf o) := by
  cases o with
  | vbr w => exact (spends_elem pf (o := .vbr w) trivial).weaken (by omega) (by omega)
  | fixed w => exact (spends_elem pf (o := .fixed w) trivial).weaken (by omega) (by omega)
  | char6 => exact (spends_elem pf (o := .char6) trivial).weaken (by omega) (by omega)
  | literal v => exact ((spends_pure [v]).tick 1).weaken (by omega) (by omega)
  | array e =>
    refine SpendsOn.weaken (SpendsOn.tick (k := 0) (j := 1) ?_ 1) (by omega) (by omega)
    exact (spends_vbr pf 6).bind (fun n => (spends_free (good_withCapacity (pf := pf) n)).bind
      (fun _ => spends_repeat (by omega) (spends_elem pf h) _) (Int.le_refl _) (by omega) (Int.le_refl _)) (by omega) (by omega) (by omega)
  | blob =>
    refine SpendsOn.weaken (SpendsOn.tick (k := 0) (j := 1) ?_ 1) (by omega) (by omega)
    refine (spends_vbr pf 6).bind (k' := 0) (j' := 2) (fun n => ?_) (by omega) (by omega) (by omega)
    refine (spends_free (good_alignB fun _ => True)).bind (k' := 0) (j' := 2) (fun _ => ?_) (by omega) (by omega) (by omega)
    refine (spends_free (good_withCapacity (pf := pf) n)).bind (k' := 0) (j' := 2) (fun _ => ?_) (by omega) (by omega) (by omega)
    refine (spends_repeat (j := 2) (by omega) ?_ _).bind (k' := 0) (j' := 0) (fun _ => ?_) (by omega) (by omega) (by omega)
    · exact (spends_readAs .u8 _).bind (fun _ => spends_pure _) (by omega) (by omega) (by omega)
    · exact (spends_free (good_alignB fun _ => True)).bind (fun _ => spends_pure _) (by omega) (by omega) (by omega)

theorem scalar_last {o : AbbrevOp} (h : o.isScalar) : o.isLast := by
  cases o <;> first | exact trivial | exact h.elim

theorem spends_fields (pf : Profile) (ops : List AbbrevOp) (h : OpsWF ops) :
    Spends ops.length (ops.length + 2) (Work.fields pf ops) := by
  induction ops with
  | nil => exact h.elim
  | cons o ops ih =>
    have hc : ((o :: ops).length : Int) = ops.length + 1 := by simp
    cases ops with
    | nil =>
      exact (spends_op pf (o := o) h).bind (fun _ => (spends_pure ([] : List U64)).bind (fun _ => spends_pure _) (Int.le_refl _) (Int.le_refl _)
        (Int.le_refl _)) (by omega) (by omega) (by omega)
    | cons o' ops' =>
      exact (spends_op pf (scalar_last h.1)).bind (fun _ => (ih h.2).bind (fun _ => spends_pure _) (Int.le_refl _) (Int.le_refl _)
        (by omega)) (by omega) (by omega) (by omega)

theorem spends_width (pf : Profile) (f : U64 → α) : Spends 0 1 (do let w ← Work.vbr pf 5; pure (f w)) :=
  (spends_vbr pf 5).bind (fun _ => spends_pure _) (by omega) (by omega) (by omega)

theorem spends_throw (e : BErr) : Spends 0 1 (free (StM.throw e) : WorkM Cursor BErr α) :=
  (spends_free (Good.throw (A := fun _ => True) e 0)).weaken (by omega) (by omega)

theorem spends_pure1 (a : α) : Spends 0 1 (Pure.pure a : WorkM Cursor BErr α) := (spends_pure a).weaken (by omega) (by omega)

theorem spends_arrayElem (pf : Profile) : Spends 0 1 (Work.arrayElem pf) := by
  refine (spends_read 1).bind (k' := 0) (j' := 1) (fun _ => ?_) (by omega) (by omega) (by omega)
  refine (spends_read 3).bind (k' := 0) (j' := 1) (fun e => ?_) (by omega) (by omega) (by omega)
  refine (spends_free (good_tryFrom (fun _ => True) e)).bind (k' := 0) (j' := 1) (fun enc => ?_) (by omega) (by omega) (by omega)
  cases enc
  · exact spends_width pf _
  · exact spends_width pf _
  · exact spends_throw _
  · exact spends_pure1 _
  · exact spends_throw _

theorem good_sub (pf : Profile) (q : PanicSite) (a b : U64) : Good (fun _ => True) 0 (subU64 pf q a b : BM U64) := by
  unfold subU64
  split
  · exact Good.pure _
  · cases pf
    · exact Good.panic trivial _
    · exact Good.pure _

theorem spends_encoded (pf : Profile) (num idx : U64) : Spends 0 1 (Work.encodedOperand pf num idx) := by
  refine (spends_read 3).bind (k' := 0) (j' := 1) (fun e => ?_) (by omega) (by omega) (by omega)
  refine (spends_free (good_tryFrom (fun _ => True) e)).bind (k' := 0) (j' := 1) (fun enc => ?_) (by omega) (by omega) (by omega)
  cases enc
  · exact spends_width pf _
  · exact spends_width pf _
  · refine (spends_free (good_sub pf _ num 2)).bind (k' := 0) (j' := 1) (fun last2 => ?_) (by omega) (by omega) (by omega)
    split
    · exact spends_throw _
    · exact (spends_arrayElem pf).bind (fun _ => spends_pure1 _) (by omega) (by omega) (by omega)
  · exact spends_pure1 _
  · refine (spends_free (good_sub pf _ num 1)).bind (k' := 0) (j' := 1) (fun last2 => ?_) (by omega) (by omega) (by omega)
    split
    · exact spends_throw _
    · exact spends_pure1 _

theorem spends_operands (pf : Profile) (num : U64) (n : Nat) : Spends 0 1 (Work.operands pf num n) := by
  induction n with
  | zero => exact spends_pure1 _
  | succ n ih =>
    refine (spends_read 1).bind (k' := 0) (j' := 1) (fun kind => ?_) (by omega) (by omega) (by omega)
    split
    · exact (spends_vbr pf 8).bind (fun _ => ih.bind (fun _ => spends_pure1 _) (Int.le_refl _) (Int.le_refl _) (by omega)) (by omega) (by omega)
        (by omega)
    · refine (spends_encoded pf num _).bind (k' := 0) (j' := 1) (fun r => ?_) (by omega) (by omega) (by omega)
      obtain ⟨o, d⟩ := r
      cases d
      · exact ih.bind (fun _ => spends_pure1 _) (Int.le_refl _) (Int.le_refl _) (by omega)
      · exact spends_pure1 _

theorem spends_abbrevNew (pf : Profile) : Spends 0 1 (Work.abbrevNew pf) := by
  refine (spends_vbr pf 5).bind (k' := 0) (j' := 1) (fun num => ?_) (by omega) (by omega) (by omega)
  split
  · exact spends_throw _
  · exact (spends_operands pf num _).bind (fun _ => spends_pure1 _) (Int.le_refl _) (Int.le_refl _) (by omega)

theorem spends_vbr6s (pf : Profile) (n : Nat) : Spends 0 1 (Work.vbr6s pf n) := by
  induction n with
  | zero => exact spends_pure1 _
  | succ n ih =>
    exact (spends_vbr pf 6).bind (fun _ => ih.bind (fun _ => spends_pure1 _) (Int.le_refl _) (Int.le_refl _) (by omega)) (by omega) (by omega)
      (by omega)

/-! ## The parser -/

/-- The operands registered for a block id are at most `n`. -/
def InfoLe (n : Nat) (p : Parser) : Prop := ∀ id, operandCount ((p.blockinfo id).getD []) ≤ n

/-- As `Spends`, where the operands registered for a block id are at most `n`. -/
abbrev PSpends (n : Nat) (k j : Int) (m : WorkM Parser BErr α) : Prop :=
  SpendsOn (fun p : Parser => p.cursor.tellBit) (fun p => PInv p ∧ InfoLe n p) k j m

theorem spends_onCursor {n : Nat} {k j : Int} {m : WorkM Cursor BErr α} (h : Spends k j m) : PSpends n k j (Work.onCursor m) := by
  intro p hp
  obtain ⟨h1, h2, h3, h4⟩ := h p.cursor hp.1.cur
  exact ⟨⟨⟨h1, hp.1.stack⟩, hp.2⟩, h2, h3, h4⟩

/-- An action that registers nothing. -/
theorem spends_pcost {A : PanicSite → Prop} {w : Nat} {m : PM α} (hm : PGood A w m) (hi : ∀ p, (m p).2.blockinfo = p.blockinfo) (n l : Nat) :
    PSpends n l l (cost l m) := by
  intro p hp
  have h := hm p hp.1
  have hmo := h.mono
  refine ⟨⟨h.inv, fun id => ?_⟩, hmo, ?_, fun a _ => ?_⟩
  · show operandCount (((m p).2.blockinfo id).getD []) ≤ n
    rw [hi]; exact hp.2 id
  all_goals simp only [cost]; omega

theorem spends_pfree {A : PanicSite → Prop} {w : Nat} {m : PM α} (hm : PGood A w m) (hi : ∀ p, (m p).2.blockinfo = p.blockinfo) (n : Nat) :
    PSpends n 0 0 (free m) := spends_pcost hm hi n 0

theorem info_scopeMut (f : Scope → Out BErr Scope) (p : Parser) : (Parser.scopeMut f p).2.blockinfo = p.blockinfo := by
  unfold Parser.scopeMut
  split
  · rfl
  · split <;> rfl

theorem info_scope (p : Parser) : (Parser.scope p).2.blockinfo = p.blockinfo := by
  unfold Parser.scope
  split <;> rfl

theorem info_mul4 (pf : Profile) (x : U64) (p : Parser) : (Parser.mul4 pf x p).2.blockinfo = p.blockinfo := by
  unfold Parser.mul4
  split
  · rfl
  · cases pf <;> rfl

theorem pgood_mul4 (pf : Profile) (x : U64) : PGood (fun _ => True) 0 (Parser.mul4 pf x) := by
  unfold Parser.mul4
  split
  · exact PGood.pure _
  · cases pf
    · exact PGood.panic trivial _
    · exact PGood.pure _

/-- What is in force at the start of the action may be used. -/
theorem spends_get {tell : σ → Nat} {I : σ → Prop} {k j : Int} {f : σ → WorkM σ ε α} (h : ∀ q, I q → SpendsOn tell I k j (f q)) :
    SpendsOn tell I k j (free StM.get >>= f) := by
  intro c hc
  have e : (free StM.get >>= f) c = ((f c c).1, 0 + (f c c).2) := rfl
  rw [e, Nat.zero_add]
  exact h c hc c hc

theorem spends_enterBlock (pf : Profile) (n : Nat) : PSpends n n (n + 1) (Work.enterBlock pf) := by
  refine (spends_onCursor (spends_vbr pf 8)).bind (k' := n) (j' := n + 1) (fun id => ?_) (by omega) (by omega) (by omega)
  refine (spends_onCursor (spends_vbr pf 4)).bind (k' := n) (j' := n + 1) (fun w => ?_) (by omega) (by omega) (by omega)
  refine (spends_pfree (pgood_onCursor (good_alignB fun _ => True)) (fun _ => rfl) n).bind (k' := n) (j' := n + 1) (fun _ => ?_)
    (by omega) (by omega) (by omega)
  split
  · exact (spends_pfree (PGood.throw (A := fun _ => True) _ 0) (fun _ => rfl) n).weaken (by omega) (by omega)
  · refine (spends_onCursor (spends_read 32)).bind (k' := n) (j' := n) (fun words => ?_) (by omega) (by omega) (by omega)
    refine (spends_pfree (pgood_mul4 pf words) (info_mul4 pf words) n).bind (k' := n) (j' := n) (fun len => ?_)
      (by omega) (by omega) (by omega)
    refine (spends_pfree (pgood_pushScope (A := fun _ => True) (by simp [Scope.new])) (fun _ => rfl) n).bind (k' := n) (j' := n)
      (fun _ => ?_) (by omega) (by omega) (by omega)
    refine spends_get fun q hq => ?_
    have last : PSpends n 0 0 (do
        let s ← (WorkM.free Parser.scope : WorkM Parser BErr Scope)
        if s.isBlockinfo then pure none
        else pure (some (StreamEntry.subBlock { blockId := id, len := len }))) := by
      refine (spends_pfree (pgood_scope (A := fun _ => True)) info_scope n).bind (k' := 0) (j' := 0) (fun s => ?_) (by omega) (by omega) (by omega)
      split <;> exact spends_pure _
    have hn := hq.2 id
    cases hl : q.blockinfo id with
    | some l =>
      rw [hl, Option.getD_some] at hn
      exact (spends_pcost (pgood_scopeMut (A := fun _ => True) (blockMap_extend l)) (info_scopeMut _) n (operandCount l)).bind (fun _ => last)
        (by omega) (by omega) (by omega)
    | none =>
      have h0 := last.weaken (k' := n) (j' := n) (by omega) (by omega)
      exact h0

/-- As `PSpends`, for the end of a round, where the invariant on what is registered is not needed any more. -/
def RSpends (k j : Int) (p : Parser) (m : WorkM Parser BErr α) : Prop :=
  ((m p).2 : Int) + 2 * p.cursor.tellBit ≤ 2 * (m p).1.2.cursor.tellBit + j ∧
    ∀ a, (m p).1.1 = .ok a → ((m p).2 : Int) + 2 * p.cursor.tellBit ≤ 2 * (m p).1.2.cursor.tellBit + k

theorem SpendsOn.then {n : Nat} {k j k' j' k₀ j₀ : Int} {m : WorkM Parser BErr α} {f : α → WorkM Parser BErr β} (h : PSpends n k j m)
    {p : Parser} (hp : PInv p ∧ InfoLe n p)
    (hf : ∀ a p', (m p).1 = (.ok a, p') → PInv p' ∧ InfoLe n p' → RSpends k' j' p' (f a)) (hk : k + k' ≤ k₀) (h1 : j ≤ j₀) (h2 : k + j' ≤ j₀) :
    RSpends k₀ j₀ p (m >>= f) := by
  obtain ⟨g1, g2, g3, g4⟩ := h p hp
  unfold RSpends
  rw [show (m >>= f) = WorkM.bind m f from rfl]
  unfold WorkM.bind
  match hm : m p with
  | ((.ok a, s'), l) =>
    rw [hm] at g1 g2 g4
    obtain ⟨f1, f2⟩ := hf a s' (by rw [hm]) g1
    have g4 := g4 a rfl
    simp only at g2 g4 ⊢
    exact ⟨by omega, fun b hb => by have := f2 b hb; omega⟩
  | ((.err e, s'), l) => rw [hm] at g3; simp only at g3 ⊢; exact ⟨by omega, by simp⟩
  | ((.panic e, s'), l) => rw [hm] at g3; simp only at g3 ⊢; exact ⟨by omega, by simp⟩
  | ((.diverge, s'), l) => rw [hm] at g3; simp only at g3 ⊢; exact ⟨by omega, by simp⟩

theorem SpendsOn.round {n : Nat} {k j : Int} {m : WorkM Parser BErr α} (h : PSpends n k j m) {p : Parser} (hp : PInv p ∧ InfoLe n p) :
    RSpends k j p m := (h p hp).2.2

theorem RSpends.weaken {k j k' j' : Int} {p : Parser} {m : WorkM Parser BErr α} (h : RSpends k j p m) (hk : k ≤ k') (hj : j ≤ j') :
    RSpends k' j' p m := by
  obtain ⟨h3, h4⟩ := h
  exact ⟨by omega, fun a ha => by have := h4 a ha; omega⟩

/-- An action of the parser that does not count. -/
theorem rspends_free {A : PanicSite → Prop} {m : PM α} (hm : PGood A 0 m) {p : Parser} (hp : PInv p) : RSpends 0 0 p (free m) := by
  have h := (hm p hp).mono
  constructor
  · simp only [free, cost]; omega
  · intro a _; simp only [free, cost]; omega

theorem rspends_defineAbbrev (pf : Profile) {n : Nat} {p : Parser} (hp : PInv p ∧ InfoLe n p) :
    RSpends 0 1 p (do Work.defineAbbrev pf; (pure none : WorkM Parser BErr (Option StreamEntry))) := by
  have h : RSpends 0 1 p (Work.defineAbbrev pf) := by
    refine (spends_onCursor (spends_abbrevNew pf)).then hp (k' := 0) (j' := 0) (fun a p' _ hp' => ?_) (by omega) (by omega) (by omega)
    refine rspends_free (A := fun _ => True) (pgood_scope.bind0 fun s => ?_) hp'.1
    split
    · split
      · exact PGood.throw _ _
      · exact pgood_pushBlockinfo _ _
    · exact pgood_scopeMut (blockMap_extend _)
  obtain ⟨h1, h2⟩ := h
  unfold RSpends
  rw [show (do Work.defineAbbrev pf; (pure none : WorkM Parser BErr (Option StreamEntry))) =
    WorkM.bind (Work.defineAbbrev pf) fun _ => WorkM.pure none from rfl]
  unfold WorkM.bind
  match hm : Work.defineAbbrev pf p with
  | ((.ok a, s'), l) => rw [hm] at h1 h2; have := h2 a rfl; simp only [WorkM.pure] at this ⊢; exact ⟨by omega, fun _ _ => by omega⟩
  | ((.err e, s'), l) => rw [hm] at h1; simp only at h1 ⊢; exact ⟨by omega, by simp⟩
  | ((.panic e, s'), l) => rw [hm] at h1; simp only at h1 ⊢; exact ⟨by omega, by simp⟩
  | ((.diverge, s'), l) => rw [hm] at h1; simp only at h1 ⊢; exact ⟨by omega, by simp⟩

theorem info_capacity (l : U64) (p : Parser) : ((withCapacity l : PM Unit) p).2.blockinfo = p.blockinfo := by
  unfold withCapacity
  split <;> rfl

theorem rspends_parseUnabbrev (pf : Profile) {n : Nat} {p : Parser} (hp : PInv p ∧ InfoLe n p) :
    RSpends 0 1 p (Work.parseUnabbrev pf) := by
  refine (spends_pfree (pgood_scope (A := fun _ => True)) info_scope n).then hp (k' := 0) (j' := 1) (fun s p₁ _ hp => ?_)
    (by omega) (by omega) (by omega)
  split
  · exact (rspends_free (PGood.throw (A := fun _ => True) _ 0) hp.1).weaken (by omega) (by omega)
  · refine (spends_onCursor (spends_vbr pf 6)).then hp (k' := 0) (j' := 1) (fun code p₂ _ hp => ?_) (by omega) (by omega) (by omega)
    refine (spends_onCursor (spends_vbr pf 6)).then hp (k' := 0) (j' := 1) (fun l p₃ _ hp => ?_) (by omega) (by omega) (by omega)
    refine (spends_pfree (pgood_withCapacity (pf := pf) l) (info_capacity l) n).then hp (k' := 0) (j' := 1) (fun _ p₄ _ hp => ?_)
      (by omega) (by omega) (by omega)
    refine (spends_onCursor (spends_vbr6s pf _)).then hp (k' := 0) (j' := 0) (fun fields p₅ _ hp => ?_) (by omega) (by omega) (by omega)
    refine rspends_free (A := fun _ => True) (pgood_scope.bind0 fun s => ?_) hp.1
    split
    · refine (pgood_blockInfoCode code).bind0 fun c => ?_
      cases c
      · cases fields with
        | nil => exact PGood.panic trivial 0
        | cons b _ => exact (pgood_scopeMut (blockMap_setBid b)).bind0 fun _ => PGood.pure _
      · exact PGood.pure _
      · exact PGood.pure _
    · exact PGood.pure _

/-- The operands of every abbreviation in force are at most `n`, and each could have been defined. -/
def ScopesLe (n : Nat) (p : Parser) : Prop := ∀ s ∈ p.scopes, ∀ a ∈ s.abbrevs, OpsWF a.operands ∧ a.operands.length ≤ n

theorem rspends_parseWithAbbrev (pf : Profile) {n : Nat} {p : Parser} (hp : PInv p ∧ InfoLe n p) (hs : ScopesLe n p) {id : U64}
    (hid : 4 ≤ id.toNat) : RSpends (2 * n) (2 * n + 2) p (Work.parseWithAbbrev pf id) := by
  obtain ⟨s, rest, hsc, hok⟩ := scope_ok hp.1
  refine (spends_pfree (pgood_scope (A := fun _ => True)) info_scope n).then hp (k' := 2 * n) (j' := 2 * n + 2) (fun s' p₁ h1 hp => ?_)
    (by omega) (by omega) (by omega)
  obtain ⟨rfl, rfl⟩ : s' = s ∧ p₁ = p := by
    rw [show (free Parser.scope p).1 = Parser.scope p from rfl, hok] at h1
    simpa [eq_comm] using h1
  refine (spends_pfree (pgood_getAbbrev (A := fun _ => True) (pf := pf) (s := s') hid) (fun _ => rfl) n).then hp (k' := 2 * n) (j' := 2 * n + 2)
    (fun a p₂ h2 hp => ?_) (by omega) (by omega) (by omega)
  obtain ⟨hga, -⟩ : s'.getAbbrev pf id = .ok a ∧ p₁ = p₂ := by simpa [free, cost, StM.lift_apply] using h2
  obtain ⟨hwf, hlen⟩ := hs s' (by rw [hsc]; simp) a (getAbbrev_mem hid hga)
  refine SpendsOn.then (m := WorkM.tick a.operands.length) (spends_pcost (PGood.pure (A := fun _ => True) ()) (fun _ => rfl) n _) hp (k' := n)
    (j' := n + 2) (fun _ p₃ _ hp => ?_) (by omega) (by omega) (by omega)
  refine (spends_onCursor (spends_fields pf a.operands hwf)).then hp (k' := 0) (j' := 0) (fun xs p₄ _ hp => ?_) (by omega) (by omega) (by omega)
  refine rspends_free (A := fun _ => True) ?_ hp.1
  cases xs with
  | nil => exact PGood.panic trivial 0
  | cons code xs =>
    refine pgood_scope.bind0 fun s => ?_
    split <;> exact PGood.pure _

/-- One round. -/
theorem rspends_step (pf : Profile) {n : Nat} {p : Parser} (hp : PInv p) (hi : InfoLe n p) (hs : ScopesLe n p) :
    RSpends (2 * n) (2 * n + 2) p (Work.step pf) := by
  refine SpendsOn.then (k := 1) (j := 1) (m := WorkM.tick 1) (spends_pcost (PGood.pure (A := fun _ => True) ()) (fun _ => rfl) n 1) ⟨hp, hi⟩
    (k' := 2 * n - 1) (j' := 2 * n + 1) (fun _ p₁ h1 _ => ?_) (by omega) (by omega) (by omega)
  obtain rfl : p = p₁ := by simpa [WorkM.tick, cost, StM.pure_apply] using h1
  refine (spends_pfree (PGood.get (A := fun _ => True)) (fun _ => rfl) n).then ⟨hp, hi⟩ (k' := 2 * n - 1) (j' := 2 * n + 1)
    (fun q p₂ h2 _ => ?_) (by omega) (by omega) (by omega)
  obtain ⟨rfl, rfl⟩ : p = q ∧ p = p₂ := by simpa [free, cost, StM.get] using h2
  by_cases hx : p.cursor.exhausted = true
  · rw [if_pos hx]
    constructor
    · simp only [free, cost, StM.throw]; omega
    · intro a ha; simp [free, cost, StM.throw] at ha
  rw [if_neg hx]
  obtain ⟨s, rest, hsc, hok⟩ := scope_ok hp
  refine (spends_pfree (pgood_scope (A := fun _ => True)) info_scope n).then ⟨hp, hi⟩ (k' := 2 * n - 1) (j' := 2 * n + 1) (fun s' p₁ h1 _ => ?_)
    (by omega) (by omega) (by omega)
  obtain ⟨rfl, rfl⟩ : s = s' ∧ p = p₁ := by
    rw [show (free Parser.scope p).1 = Parser.scope p from rfl, hok] at h1
    simpa using h1
  refine (spends_onCursor (spends_read s.abbrevIdWidth.toNat)).then ⟨hp, hi⟩ (k' := 2 * n) (j' := 2 * n + 2) (fun id p' h3 hp' => ?_)
    (by omega) (by omega) (by omega)
  have hs' : ScopesLe n p' := by
    have : p'.scopes = p.scopes := by rw [← show _ = p' from congrArg Prod.snd h3]; rfl
    unfold ScopesLe; rw [this]; exact hs
  unfold Work.dispatch
  have key : ∀ k : U64, ¬ id = k → id.toNat ≠ k.toNat := fun k hk hc => hk (BitVec.eq_of_toNat_eq hc)
  split
  · exact (rspends_free (pgood_exitBlock (A := fun _ => True)) hp'.1).weaken (by omega) (by omega)
  split
  · exact ((spends_enterBlock pf n).round hp').weaken (by omega) (by omega)
  split
  · exact (rspends_defineAbbrev pf hp').weaken (by omega) (by omega)
  split
  · exact (rspends_parseUnabbrev pf hp').weaken (by omega) (by omega)
  · next h0 h1 h2 h3 =>
    have e0 := key _ h0
    have e1 := key _ h1
    have e2 := key _ h2
    have e3 := key _ h3
    simp at e0 e1 e2 e3
    exact rspends_parseWithAbbrev pf hp' hs' (by omega)

/-! ## Calls -/

theorem mul_step {L a b c : Nat} (h : b + 1 ≤ c) (ha : a ≤ 2 * L * (b + 1)) : 2 * L + a ≤ 2 * L * (c + 1) := by
  have h1 : 2 * L * (b + 2) ≤ 2 * L * (c + 1) := Nat.mul_le_mul_left _ (by omega)
  have h2 : 2 * L * (b + 2) = 2 * L * (b + 1) + 2 * L := Nat.mul_succ _ _
  omega

theorem work_advance (pf : Profile) (fuel : Nat) {p : Parser} (hp : PInv p) (hs : p.Small) (hf : p.Frugal) :
    p.cursor.tellBit ≤ (Work.advanceFuel pf fuel p).1.2.cursor.tellBit ∧
    (Work.advanceFuel pf fuel p).2 ≤ 2 * ((Work.advanceFuel pf fuel p).1.2.cursor.tellBit - p.cursor.tellBit) +
      2 * p.cursor.bitLen * ((Work.advanceFuel pf fuel p).1.2.cursor.tellBit - p.cursor.tellBit + 1) + 2 := by
  induction fuel generalizing p with
  | zero => exact ⟨Nat.le_refl _, by simp [Work.advanceFuel, free, cost]⟩
  | succ n ih =>
    have hl : p.cursor.tellBit ≤ p.cursor.bitLen := tellBit_le hp.cur
    have hr := rspends_step pf (n := p.cursor.bitLen) hp (fun id => Nat.le_trans (hf.one id) hl) (hs.mono hl).1
    have hg := pgood_step (pf := pf) p hp
    have hsm := (small_step (pf := pf) hp hs).1
    have hfr := frugal_step (pf := pf) hp hf
    have he := runs_step pf p
    unfold RSpends at hr
    rw [show Work.advanceFuel pf (n + 1) = WorkM.bind (Work.step pf) (fun r => match r with
      | some e => pure e
      | none => Work.advanceFuel pf n) from rfl]
    unfold WorkM.bind
    match hx : Work.step pf p with
    | ((.ok none, p'), l) =>
      rw [hx] at hr he
      rw [← he] at hg hsm hfr
      obtain ⟨h1, h2⟩ := ih (p := p') hg.inv hsm hfr
      have h3 := hg.eats _ rfl
      have h4 := hr.2 _ rfl
      have h5 : p'.cursor.bitLen = p.cursor.bitLen := by unfold bitLen; rw [show p'.cursor.byteLen = p.cursor.byteLen from hg.same.2]
      simp only at h3 h4 ⊢
      rw [h5] at h2
      refine ⟨by omega, ?_⟩
      have := mul_step (L := p.cursor.bitLen) (b := (Work.advanceFuel pf n p').1.2.cursor.tellBit - p'.cursor.tellBit)
        (c := (Work.advanceFuel pf n p').1.2.cursor.tellBit - p.cursor.tellBit) (by omega) (Nat.le_refl _)
      omega
    | ((.ok (some e), p'), l) =>
      rw [hx] at hr he
      rw [← he] at hg
      have h3 := hg.mono
      have h4 := hr.1
      simp only [Pure.pure, WorkM.pure] at h3 h4 ⊢
      refine ⟨h3, ?_⟩
      have : 2 * p.cursor.bitLen * 1 ≤ 2 * p.cursor.bitLen * (p'.cursor.tellBit - p.cursor.tellBit + 1) := Nat.mul_le_mul_left _ (by omega)
      omega
    | ((.err e, p'), l) =>
      rw [hx] at hr he
      rw [← he] at hg
      have h3 := hg.mono
      have h4 := hr.1
      simp only at h3 h4 ⊢
      refine ⟨h3, ?_⟩
      have : 2 * p.cursor.bitLen * 1 ≤ 2 * p.cursor.bitLen * (p'.cursor.tellBit - p.cursor.tellBit + 1) := Nat.mul_le_mul_left _ (by omega)
      omega
    | ((.panic e, p'), l) =>
      rw [hx] at hr he
      rw [← he] at hg
      have h3 := hg.mono
      have h4 := hr.1
      simp only at h3 h4 ⊢
      refine ⟨h3, ?_⟩
      have : 2 * p.cursor.bitLen * 1 ≤ 2 * p.cursor.bitLen * (p'.cursor.tellBit - p.cursor.tellBit + 1) := Nat.mul_le_mul_left _ (by omega)
      omega
    | ((.diverge, p'), l) =>
      rw [hx] at he
      rw [← he] at hg
      exact absurd rfl hg.nodiv

theorem next_advances (pf : Profile) (b : Bitstream) : (Bitstream.next pf b).2.parser = (Parser.advance pf b.parser).2 := by
  unfold Bitstream.next Bitstream.advance
  match Parser.advance pf b.parser with
  | (.ok e, p') => rfl
  | (.err e, p') => cases e <;> rfl
  | (.panic e, p') => rfl
  | (.diverge, p') => rfl

/-! ## At least a step for each field -/

/-- The action takes a step for each element of the list it gives. -/
def Worth (m : WorkM Cursor ε (List α)) : Prop := ∀ c xs, (m c).1.1 = .ok xs → xs.length ≤ (m c).2

theorem work_bind_ok {m : WorkM σ ε α} {f : α → WorkM σ ε β} {s : σ} {b : β} (h : ((m >>= f) s).1.1 = .ok b) :
    ∃ a, (m s).1.1 = .ok a ∧ (f a (m s).1.2).1.1 = .ok b ∧ ((m >>= f) s).2 = (m s).2 + (f a (m s).1.2).2 ∧
      ((m >>= f) s).1.2 = (f a (m s).1.2).1.2 := by
  rw [show (m >>= f) = WorkM.bind m f from rfl] at h ⊢
  unfold WorkM.bind at h ⊢
  match hm : m s with
  | ((.ok a, s'), n) => rw [hm] at h; exact ⟨a, rfl, h, rfl, rfl⟩
  | ((.err e, s'), n) => rw [hm] at h; simp at h
  | ((.panic e, s'), n) => rw [hm] at h; simp at h
  | ((.diverge, s'), n) => rw [hm] at h; simp at h

theorem worth_one {m : WorkM Cursor ε α} (h : ∀ c a, (m c).1.1 = .ok a → 1 ≤ (m c).2) : Worth (do let v ← m; pure [v]) := by
  intro c xs hx
  obtain ⟨a, h1, h2, h3, -⟩ := work_bind_ok hx
  have := h c a h1
  simp [Pure.pure, WorkM.pure] at h2
  rw [h3, ← h2]
  simp only [List.length_cons, List.length_nil]; omega

theorem worth_append {m n : WorkM Cursor ε (List α)} (hm : Worth m) (hn : Worth n) : Worth (do let xs ← m; let ys ← n; pure (xs ++ ys)) := by
  intro c zs hz
  obtain ⟨xs, h1, h2, h3, -⟩ := work_bind_ok hz
  obtain ⟨ys, g1, g2, g3, -⟩ := work_bind_ok h2
  simp [Pure.pure, WorkM.pure] at g2
  have := hm c xs h1
  have := hn _ ys g1
  rw [h3, g3, ← g2, List.length_append]
  omega

theorem worth_then {m : WorkM Cursor ε α} {f : α → WorkM Cursor ε (List β)} (h : ∀ a, Worth (f a)) : Worth (m >>= f) := by
  intro c xs hx
  obtain ⟨a, h1, h2, h3, -⟩ := work_bind_ok hx
  have := h a _ xs h2
  omega

theorem worth_repeat {body : WorkM Cursor BErr (List U64)} (h : Worth body) (n : Nat) : Worth (Work.repeatFields body n) := by
  induction n with
  | zero => intro c xs hx; simp [Work.repeatFields, Pure.pure, WorkM.pure] at hx; subst hx; exact Nat.zero_le _
  | succ n ih => exact worth_append h ih

theorem worth_op (pf : Profile) (o : AbbrevOp) : Worth (Work.op pf o) := by
  have one : ∀ {m : WorkM Cursor BErr (List U64)}, (∀ c xs, (m c).1.1 = .ok xs → xs.length = 1) → Worth (do WorkM.tick 1; m) := by
    intro m hm c xs hx
    have h1 : (m c).1.1 = .ok xs := hx
    rw [hm c xs h1]
    show 1 ≤ 1 + (m c).2
    omega
  have single : ∀ {β : Type} (m : WorkM Cursor BErr β) (f : β → U64), ∀ c xs,
      ((do let v ← m; pure [f v] : WorkM Cursor BErr (List U64)) c).1.1 = .ok xs → xs.length = 1 := by
    intro β m f c xs hx
    obtain ⟨a, h1, h2, -, -⟩ := work_bind_ok hx
    simp [Pure.pure, WorkM.pure] at h2
    rw [← h2]; rfl
  induction o with
  | literal v =>
    refine one fun c xs hx => ?_
    simp [Pure.pure, WorkM.pure] at hx
    rw [← hx]; rfl
  | vbr w => exact one (single _ id)
  | fixed w => exact one (single _ id)
  | array e ih => exact worth_then fun _ => worth_then fun n => worth_then fun _ => worth_repeat ih _
  | char6 =>
    refine one fun c xs hx => ?_
    obtain ⟨a, h1, h2, -, -⟩ := work_bind_ok hx
    exact single _ id _ _ h2
  | blob =>
    refine worth_then fun _ => worth_then fun n => worth_then fun _ => worth_then fun _ => ?_
    intro c xs hx
    obtain ⟨ys, h1, h2, h3, -⟩ := work_bind_ok hx
    obtain ⟨_, g1, g2, g3, -⟩ := work_bind_ok h2
    simp [Pure.pure, WorkM.pure] at g2
    have := worth_repeat (worth_one (m := cost 1 (cur (readExact .u8))) fun c a h => by simp [cost]) _ c ys h1
    rw [h3, ← g2]
    omega

theorem worth_fields (pf : Profile) (ops : List AbbrevOp) : Worth (Work.fields pf ops) := by
  induction ops with
  | nil => intro c xs hx; simp [Work.fields, Pure.pure, WorkM.pure] at hx; subst hx; exact Nat.zero_le _
  | cons o ops ih => exact worth_append (worth_op pf o) ih

theorem st_bind_ok {m : StM σ ε α} {f : α → StM σ ε β} {s : σ} {b : β} (h : ((m >>= f) s).1 = .ok b) :
    ∃ a, (m s).1 = .ok a ∧ (f a (m s).2).1 = .ok b := by
  rw [show (m >>= f) = StM.bind m f from rfl] at h
  unfold StM.bind at h
  match hm : m s with
  | (.ok a, s') => rw [hm] at h; exact ⟨a, rfl, h⟩
  | (.err e, s') => rw [hm] at h; simp at h
  | (.panic e, s') => rw [hm] at h; simp at h
  | (.diverge, s') => rw [hm] at h; simp at h

theorem work_vbr_pos (pf : Profile) (w : Nat) (c : Cursor) (x : U64) (h : (Work.vbr pf w c).1.1 = .ok x) : 1 ≤ (Work.vbr pf w c).2 := by
  unfold Work.vbr WorkM.mapErr at h ⊢
  simp only at h ⊢
  split at h
  · simp [free, cost, StM.throw, Out.mapErr] at h
  · rw [if_neg (by assumption)]
    unfold Work.vbrLoop
    match hr : (cost 1 (Cursor.read w) : WorkM Cursor CErr U64) c with
    | ((o, c'), l) =>
      have hl : l = 1 := by simp [cost] at hr; exact hr.2.symm
      rw [show ∀ (m : WorkM Cursor CErr U64) (f : U64 → WorkM Cursor CErr U64), (m >>= f) = WorkM.bind m f from fun _ _ => rfl]
      unfold WorkM.bind
      rw [hr]
      cases o <;> simp only <;> omega

theorem worth_vbr6s (pf : Profile) (n : Nat) : Worth (Work.vbr6s pf n) := by
  induction n with
  | zero => intro c xs hx; simp [Work.vbr6s, Pure.pure, WorkM.pure] at hx; subst hx; exact Nat.zero_le _
  | succ n ih => 
    intro c xs hx
    obtain ⟨x, h1, h2, h3, -⟩ := work_bind_ok hx
    obtain ⟨ys, g1, g2, g3, -⟩ := work_bind_ok h2
    simp [Pure.pure, WorkM.pure] at g2
    have := work_vbr_pos pf 6 c x h1
    have := ih _ ys g1
    unfold Work.vbr6s
    rw [h3, g3, ← g2, List.length_cons]
    omega

/-- The action takes a step for each field of the record it gives. -/
def EntryWorth (m : WorkM Parser BErr (Option StreamEntry)) : Prop := ∀ p e, (m p).1.1 = .ok (some e) → Props.weight e ≤ (m p).2

theorem EntryWorth.after {m : WorkM Parser BErr α} {f : α → WorkM Parser BErr (Option StreamEntry)} (h : ∀ a, EntryWorth (f a)) :
    EntryWorth (m >>= f) := by
  intro p e he
  obtain ⟨a, h1, h2, h3, -⟩ := work_bind_ok he
  have := h a _ e h2
  omega

theorem entryWorth_free {m : StM Parser BErr (Option StreamEntry)} (h : ∀ p e, (m p).1 = .ok (some e) → Props.weight e = 0) :
    EntryWorth (free m) := fun p e he => by rw [h p e he]; exact Nat.zero_le _

theorem entryWorth_unabbrev (pf : Profile) : EntryWorth (Work.parseUnabbrev pf) := by
  refine EntryWorth.after fun s => ?_
  split
  · exact entryWorth_free fun p e he => by simp [StM.throw] at he
  · refine EntryWorth.after fun code => EntryWorth.after fun n => EntryWorth.after fun _ => ?_
    intro p e he
    obtain ⟨xs, h1, h2, h3, -⟩ := work_bind_ok he
    have hw := worth_vbr6s pf n.toNat p.cursor xs h1
    suffices hs : Props.weight e ≤ xs.length by
      rw [h3]
      exact Nat.le_trans hs (Nat.le_trans hw (Nat.le_add_right _ _))
    obtain ⟨s, h4, h5⟩ := st_bind_ok h2
    split at h5
    · obtain ⟨c, h6, h7⟩ := st_bind_ok h5
      cases c with
      | setBid =>
        cases xs with
        | nil => simp [StM.panic] at h7
        | cons bid _ =>
          obtain ⟨_, -, h8⟩ := st_bind_ok h7
          simp [Pure.pure, StM.pure] at h8
      | blockName => simp [Pure.pure, StM.pure] at h7
      | setRecordName => simp [Pure.pure, StM.pure] at h7
    · simp [Pure.pure, StM.pure] at h5
      rw [← h5]
      exact Nat.le_refl _

theorem entryWorth_abbrev (pf : Profile) (id : U64) : EntryWorth (Work.parseWithAbbrev pf id) := by
  refine EntryWorth.after fun s => EntryWorth.after fun a => EntryWorth.after fun _ => ?_
  intro p e he
  obtain ⟨xs, h1, h2, h3, -⟩ := work_bind_ok he
  have hw := worth_fields pf a.operands p.cursor xs h1
  suffices hs : Props.weight e ≤ xs.length by
    rw [h3]
    exact Nat.le_trans hs (Nat.le_trans hw (Nat.le_add_right _ _))
  cases xs with
  | nil => simp [free, cost, StM.panic] at h2
  | cons code xs =>
    obtain ⟨s, h4, h5⟩ := st_bind_ok h2
    split at h5
    · simp [Pure.pure, StM.pure] at h5
    · simp [Pure.pure, StM.pure] at h5
      rw [← h5]
      exact Nat.le_succ _

theorem entryWorth_enter (pf : Profile) : EntryWorth (Work.enterBlock pf) := by
  refine EntryWorth.after fun id => EntryWorth.after fun w => EntryWorth.after fun _ => ?_
  split
  · exact entryWorth_free fun p e he => by simp [StM.throw] at he
  · refine EntryWorth.after fun words => EntryWorth.after fun len => EntryWorth.after fun _ => EntryWorth.after fun q => ?_
    have last : EntryWorth (do
        let s ← (WorkM.free Parser.scope : WorkM Parser BErr Scope)
        if s.isBlockinfo then pure none
        else pure (some (StreamEntry.subBlock { blockId := id, len := len }))) := by
      refine EntryWorth.after fun s => ?_
      split
      · intro p e he; simp [Pure.pure, WorkM.pure] at he
      · intro p e he; simp [Pure.pure, WorkM.pure] at he; rw [← he]; exact Nat.zero_le _
    cases q.blockinfo id with
    | some l => exact EntryWorth.after fun _ => last
    | none => exact last

theorem entryWorth_step (pf : Profile) : EntryWorth (Work.step pf) := by
  refine EntryWorth.after fun _ => EntryWorth.after fun p => ?_
  split
  · exact entryWorth_free fun p e he => by simp [StM.throw] at he
  · refine EntryWorth.after fun s => EntryWorth.after fun id => ?_
    unfold Work.dispatch
    split
    · refine entryWorth_free fun p e he => ?_
      obtain ⟨_, -, h1⟩ := st_bind_ok he
      obtain ⟨q, -, h2⟩ := st_bind_ok h1
      match hq : q.scopes with
      | [] => rw [hq] at h2; simp [StM.throw] at h2
      | [_] => rw [hq] at h2; simp [StM.throw] at h2
      | s :: t :: rest =>
        rw [hq] at h2
        obtain ⟨_, -, h3⟩ := st_bind_ok h2
        split at h3
        · simp [Pure.pure, StM.pure] at h3
        · simp [Pure.pure, StM.pure] at h3
          rw [← h3]
          rfl
    split
    · exact entryWorth_enter pf
    split
    · refine EntryWorth.after fun _ => ?_
      intro p e he; simp [Pure.pure, WorkM.pure] at he
    split
    · exact entryWorth_unabbrev pf
    · exact entryWorth_abbrev pf id

theorem worth_advance (pf : Profile) (fuel : Nat) (p : Parser) (e : StreamEntry) (he : (Work.advanceFuel pf fuel p).1.1 = .ok e) :
    Props.weight e ≤ (Work.advanceFuel pf fuel p).2 := by
  induction fuel generalizing p with
  | zero => simp [Work.advanceFuel, free, cost, StM.diverge] at he
  | succ n ih =>
    obtain ⟨r, h1, h2, h3, -⟩ := work_bind_ok he
    unfold Work.advanceFuel
    rw [h3]
    cases r with
    | some e' =>
      have := entryWorth_step pf p e' h1
      simp [Pure.pure, WorkM.pure] at h2
      rw [← h2]
      exact Nat.le_trans this (Nat.le_add_right _ _)
    | none => exact Nat.le_trans (ih _ h2) (Nat.le_add_left _ _)

/-! ## C87 -/

/-- C87: counting steps does not change what is read. -/
theorem C87_same (pf : Profile) (p : Parser) : (Work.advance pf p).1 = Parser.advance pf p := runs_advanceFuel pf _ p

theorem next_pos (pf : Profile) (b : Bitstream) : (Bitstream.next pf b).2.pos = (Work.advance pf b.parser).1.2.cursor.tellBit := by
  unfold Bitstream.pos
  rw [next_advances, C87_same]

/-- C87: a call of `next` takes, for each bit it consumes and once more, at most twice as many steps as the input has bits
(and one): whatever lengths and widths the input announces. -/
theorem C87_call (pf : Profile) {b : Bitstream} (h : Reach pf b) :
    Work.next pf b ≤ 2 * ((Bitstream.next pf b).2.pos - b.pos + 1) * (b.len + 1) := by
  obtain ⟨hp, hs⟩ := reach_small h
  obtain ⟨-, hf⟩ := reach_frugal h
  obtain ⟨h1, h2⟩ := work_advance pf (b.parser.cursor.bitLen + 1) hp hs hf
  rw [next_pos]
  unfold Work.next Work.advance Bitstream.pos Bitstream.len
  generalize (Work.advanceFuel pf (b.parser.cursor.bitLen + 1) b.parser).1.2.cursor.tellBit - b.parser.cursor.tellBit = d at h2 ⊢
  rw [Nat.mul_succ, Nat.mul_right_comm]
  omega

theorem next_le (pf : Profile) {b : Bitstream} (h : Reach pf b) :
    b.pos ≤ (Bitstream.next pf b).2.pos ∧ (Bitstream.next pf b).2.len = b.len := by
  have := next_progress (pf := pf) (reach_small h).1
  exact ⟨this.2.2.1, this.2.1⟩

/-- C87, for a number of calls: at most twice the length of the input in bits, and one, for each bit consumed and for each
call. -/
theorem C87_calls (pf : Profile) (n : Nat) {b : Bitstream} (h : Reach pf b) :
    Work.calls pf n b ≤ 2 * ((iterate pf n b).2.pos - b.pos + n) * (b.len + 1) ∧ b.pos ≤ (iterate pf n b).2.pos := by
  induction n generalizing b with
  | zero => exact ⟨Nat.zero_le _, Nat.le_refl _⟩
  | succ n ih =>
    obtain ⟨h1, h2⟩ := next_le pf h
    obtain ⟨h3, h4⟩ := ih h.next
    have h5 := C87_call pf h
    have h6 : (iterate pf (n + 1) b).2 = (iterate pf n (Bitstream.next pf b).2).2 := rfl
    rw [h6]
    refine ⟨?_, by omega⟩
    rw [h2] at h3
    have h7 := Nat.add_le_add h5 h3
    rw [← Nat.add_mul] at h7
    refine Nat.le_trans h7 (Nat.mul_le_mul_right _ ?_)
    omega

/-- C87, to the end: reading an input to its end, or to the first failure, takes a number of steps that is bounded by the
square of its length: whatever counts, widths and lengths it announces. -/
theorem C87_all (pf : Profile) {bytes : List U8} {w : Option BitcodeWrapper} {b : Bitstream} (h : Bitstream.from pf bytes = .ok (w, b))
    (n : Nat) (hn : (items (iterate pf n b).1).length = n) : Work.calls pf (n + 1) b ≤ 2 * (16 * bytes.length + 1) * (8 * bytes.length + 1) := by
  have hr : Reach pf b := .opened (.auto h)
  have hl := from_len h
  have h1 := (C87_calls pf (n + 1) hr).1
  have h2 := iterate_bound (pf := pf) n (reach_small hr).1
  have h3 := (iterate_bound (pf := pf) (n + 1) (reach_small hr).1).2.2
  refine Nat.le_trans h1 (Nat.mul_le_mul ?_ (by omega))
  omega

theorem item_weight {pf : Profile} {b : Bitstream} {e : StreamEntry} (h : (Bitstream.next pf b).1 = .item e) : Props.weight e ≤ Work.next pf b := by
  refine worth_advance pf _ _ e ?_
  have : (Parser.advance pf b.parser).1 = .ok e := by
    unfold Bitstream.next Bitstream.advance at h
    match hr : Parser.advance pf b.parser with
    | (.ok e', p') => rw [hr] at h; simpa using h
    | (.err e, p') => rw [hr] at h; cases e <;> simp at h
    | (.panic e, p') => rw [hr] at h; simp at h
    | (.diverge, p') => rw [hr] at h; simp at h
  rw [← this, ← C87_same]
  rfl

/-- C87, the count is not idle: a step is counted for each field of a record that is given. -/
theorem C87_fields (pf : Profile) (n : Nat) (b : Bitstream) : ((items (iterate pf n b).1).map Props.weight).sum ≤ Work.calls pf n b := by
  induction n generalizing b with
  | zero => exact Nat.zero_le _
  | succ n ih =>
    have := ih (Bitstream.next pf b).2
    have h1 := fun e => item_weight (pf := pf) (b := b) (e := e)
    unfold Work.calls iterate
    cases hx : (Bitstream.next pf b).1 with
    | item e =>
      have := h1 e hx
      simp only [hx, items, List.map_cons, List.sum_cons]
      omega
    | _ => simp only [hx, items]; omega

/-- C87, the bound is reached, up to a constant: `60 + 11 n` bytes can take `n ^ 2` steps to read. -/
theorem C87_squared (pf : Profile) (n : Nat) (hn : n ≤ 2 ^ 29) : ∃ bytes b m, bytes.length ≤ 60 + 11 * n ∧
    Bitstream.from pf bytes = .ok (none, b) ∧ (items (iterate pf m b).1).length = m ∧ n ^ 2 ≤ Work.calls pf m b := by
  obtain ⟨bytes, b, es, h1, h2, h3, h4⟩ := C54_squared pf n hn
  have h5 := C87_fields pf es.length b
  rw [delivers_iterate h3] at h5
  exact ⟨bytes, b, es.length, h1, h2, by rw [delivers_iterate h3], by omega⟩

/-! ## Examples -/

/-- The steps of the first calls of `next` for a bare stream, added up. -/
def workRaw (pf : Profile) (n : Nat) (bytes : List U8) : List Nat :=
  match Bitstream.fromRaw bytes with
  | .ok b => (List.range n).map fun i => Work.calls pf (i + 1) b
  | _ => []

/-- A record that announces 2^60 - 1 fields, of which the data has none: the call that fails takes 18 steps. -/
example (pf : Profile) : workRaw pf 2 Props.announcesOperands = [5, 23] := by cases pf <;> decide +kernel

/-- A stream with a BLOCKINFO block and a record read by an abbreviation from there. -/
example (pf : Profile) : workRaw pf 4 Props.exInfo = [31, 38, 40, 41] := by cases pf <;> decide +kernel

/-- The hypotheses of `C87_all` hold of that stream. -/
example (pf : Profile) : ∃ b, Bitstream.from pf Props.exInfo = .ok (none, b) ∧ (items (iterate pf 3 b).1).length = 3 ∧
    Work.calls pf 4 b ≤ 2 * (16 * Props.exInfo.length + 1) * (8 * Props.exInfo.length + 1) := by
  have key : (match Bitstream.from pf Props.exInfo with
      | .ok (none, b) => decide ((items (iterate pf 3 b).1).length = 3)
      | _ => false) = true := by cases pf <;> decide +kernel
  match hb : Bitstream.from pf Props.exInfo with
  | .ok (none, b) =>
    rw [hb] at key
    have h := of_decide_eq_true key
    exact ⟨b, rfl, h, C87_all pf hb 3 h⟩
  | .ok (some _, _) => rw [hb] at key; simp at key
  | .err _ => rw [hb] at key; simp at key
  | .panic _ => rw [hb] at key; simp at key
  | .diverge => rw [hb] at key; simp at key

end Verif
