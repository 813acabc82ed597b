import Verif.Props.Work

/-! C87, from below: the steps account for all bits that are consumed and for all operands that are copied. -/

set_option linter.unusedSimpArgs false

namespace Verif
open Spec Cursor
open WorkM (cost free)

variable {σ ε ε' α β : Type}

/-! ## Bits -/

/-- If the action succeeds, it keeps the invariant `I` and has consumed at most 64 bits for each of its steps, and `k`. -/
def PaysOn (tell : σ → Nat) (I : σ → Prop) (k : Int) (m : WorkM σ ε α) : Prop := ∀ c, I c → ∀ a, (m c).1.1 = .ok a →
  I (m c).1.2 ∧ (tell (m c).1.2 : Int) ≤ tell c + 64 * (m c).2 + k

section
variable {tell : σ → Nat} {I : σ → Prop}

theorem PaysOn.weaken {k k' : Int} {m : WorkM σ ε α} (h : PaysOn tell I k m) (hk : k ≤ k') : PaysOn tell I k' m := by
  intro c hc a ha
  obtain ⟨h1, h2⟩ := h c hc a ha
  exact ⟨h1, by omega⟩

theorem pays_pure (a : α) : PaysOn tell I 0 (Pure.pure a : WorkM σ ε α) := by
  intro c hc b hb
  exact ⟨hc, by simp [Pure.pure, WorkM.pure]⟩

theorem PaysOn.bind {k k' k₀ : Int} {m : WorkM σ ε α} {f : α → WorkM σ ε β} (h : PaysOn tell I k m) (hf : ∀ a, PaysOn tell I k' (f a))
    (hk : k + k' ≤ k₀) : PaysOn tell I k₀ (m >>= f) := by
  intro c hc b hb
  obtain ⟨a, h1, h2, h3, h4⟩ := work_bind_ok hb
  obtain ⟨g1, g2⟩ := h c hc a h1
  obtain ⟨f1, f2⟩ := hf a _ g1 b h2
  rw [h3, h4]
  exact ⟨f1, by omega⟩

theorem PaysOn.mapErr {k : Int} {m : WorkM σ ε α} (f : ε → ε') (h : PaysOn tell I k m) : PaysOn tell I k (WorkM.mapErr f m) := by
  intro c hc a ha
  simp only [WorkM.mapErr] at ha ⊢
  cases hx : (m c).1.1 with
  | ok x => exact h c hc x hx
  | err e => rw [hx] at ha; simp at ha
  | panic e => rw [hx] at ha; simp at ha
  | diverge => rw [hx] at ha; simp at ha

theorem PaysOn.tick {k k' : Int} {m : WorkM σ ε α} (h : PaysOn tell I k m) (n : Nat) (hk : k ≤ k' + 64 * n) :
    PaysOn tell I k' (do WorkM.tick n; m) := by
  intro c hc a ha
  obtain ⟨h1, h2⟩ := h c hc a ha
  refine ⟨h1, ?_⟩
  show (tell (m c).1.2 : Int) ≤ tell c + 64 * ((n + (m c).2 : Nat) : Int) + k'
  omega

/-- An action that does not succeed. -/
theorem pays_never {m : WorkM σ ε α} (h : ∀ c a, (m c).1.1 ≠ .ok a) (k : Int) : PaysOn tell I k m := fun c _ a ha => (h c a ha).elim

/-- An action that consumes nothing. -/
theorem pays_still {m : StM σ ε α} (hI : ∀ c, I c → I (m c).2) (h : ∀ c, tell (m c).2 = tell c) : PaysOn tell I 0 (free m) := by
  intro c hc a _
  refine ⟨hI c hc, ?_⟩
  simp only [free, cost, h]; omega

end

/-- The relation for a cursor. -/
abbrev Pays (k : Int) (m : WorkM Cursor ε α) : Prop := PaysOn Cursor.tellBit Cursor.Inv k m

theorem pays_same {m : StM Cursor ε α} (h : ∀ c, (m c).2 = c) : Pays 0 (free m) :=
  pays_still (fun c hc => by rw [h]; exact hc) (fun c => by rw [h])

theorem pays_cursorRead (w : Nat) : Pays (-1) (cost 1 (Cursor.read w) : WorkM Cursor CErr U64) := by
  intro c hc a ha
  simp only [cost] at ha ⊢
  rcases read_cases hc w with ⟨-, e⟩ | ⟨-, g2, -, v, c', e, -, hi, -, -, ht, -⟩ | ⟨-, -, -, e⟩ | ⟨-, -, -, -, c', e, -⟩
  · rw [e] at ha; simp at ha
  · rw [e]; exact ⟨hi, by simp only; omega⟩
  · rw [e] at ha; simp at ha
  · rw [e] at ha; simp at ha

theorem pays_cur {m : CurM α} (h : Pays (-1) (cost 1 m)) : Pays (-1) (cost 1 (cur m)) := h.mapErr BErr.cursor

theorem pays_read (w : Nat) : Pays (-1) (Work.read w) := pays_cur (pays_cursorRead w)

theorem pays_readAs (t : IntTy) (w : Nat) : Pays (-1) (cost 1 (cur (readAs t w))) := by
  refine pays_cur fun c hc a ha => ?_
  have h := pays_cursorRead w c hc
  simp only [cost, readAs] at ha h ⊢
  match hr : Cursor.read w c with
  | (.ok v, c') =>
    rw [hr] at ha h
    have := h v rfl
    simp only at ha ⊢
    split at ha <;> split <;> exact this
  | (.err e, c') => rw [hr] at ha; simp at ha
  | (.panic e, c') => rw [hr] at ha; simp at ha
  | (.diverge, c') => rw [hr] at ha; simp at ha

theorem pays_align : Pays 31 (free align) := by
  intro c hc a _
  obtain ⟨-, hi, -, h2, -⟩ := align32_spec hc
  refine ⟨hi, ?_⟩
  show (c.align32.tellBit : Int) ≤ c.tellBit + 64 * (0 : Nat) + 31
  omega

theorem pays_vbrLoop (pf : Profile) (w fuel : Nat) : ∀ (r : U64) (shift : Nat), Pays (-1) (Work.vbrLoop pf w fuel r shift) := by
  induction fuel with
  | zero => exact fun r shift => pays_never (fun c a h => by simp [Work.vbrLoop, free, cost, StM.diverge] at h) _
  | succ n ih =>
    intro r shift
    refine (pays_cursorRead w).bind (k' := 0) (fun b => ?_) (by omega)
    cases shl64 pf (b &&& ~~~(1#64 <<< (w - 1))) shift with
    | none => exact pays_never (fun c a h => by simp [free, cost, StM.panic] at h) _
    | some x =>
      simp only
      split
      · exact (ih _ _).weaken (by omega)
      · exact pays_pure _

theorem pays_vbr (pf : Profile) (w : Nat) : Pays (-1) (Work.vbr pf w) := by
  refine PaysOn.mapErr _ fun c hc => ?_
  by_cases hw : 2 ≤ w ∧ w ≤ 32
  · simp only [hw, not_true, if_false, and_self]
    exact pays_vbrLoop pf w _ _ _ c hc
  · simp only [hw, not_false_eq_true, if_true]
    exact fun a h => by simp [free, cost, StM.throw] at h

theorem pays_repeat {body : WorkM Cursor BErr (List U64)} (h : Pays 0 body) (n : Nat) : Pays 0 (Work.repeatFields body n) := by
  induction n with
  | zero => exact pays_pure _
  | succ n ih => exact h.bind (fun _ => ih.bind (k₀ := 0) (fun _ => pays_pure _) (by omega)) (by omega)

theorem capacity_same (l : U64) (c : σ) : ((withCapacity l : StM σ ε Unit) c).2 = c := by
  unfold withCapacity
  split <;> rfl

theorem pays_op (pf : Profile) (o : AbbrevOp) : Pays 0 (Work.op pf o) := by
  induction o with
  | literal v => exact (pays_pure _).tick 1 (by omega)
  | vbr w => exact ((pays_vbr pf _).bind (k₀ := 0) (fun _ => pays_pure _) (by omega)).tick 1 (by omega)
  | fixed w => exact ((pays_readAs _ _).bind (k₀ := 0) (fun _ => pays_pure _) (by omega)).tick 1 (by omega)
  | array e ih =>
    exact PaysOn.tick (k := 0) ((pays_vbr pf 6).bind (fun n => (pays_same (capacity_same n)).bind (k₀ := 0)
      (fun _ => pays_repeat ih _) (by omega)) (by omega)) 1 (by omega)
  | char6 =>
    refine PaysOn.tick (k := 0) ((pays_readAs .u8 6).bind (k' := 0) (fun c => ?_) (by omega)) 1 (by omega)
    refine PaysOn.bind (k := 0) (k' := 0) (pays_same fun c' => ?_) (fun _ => pays_pure _) (by omega)
    unfold decodeChar6
    cases char6Alphabet[c.toNat]? <;> rfl
  | blob =>
    refine PaysOn.tick (k := 61) ((pays_vbr pf 6).bind (k' := 62) (fun n => ?_) (by omega)) 1 (by omega)
    refine pays_align.bind (k' := 31) (fun _ => ?_) (by omega)
    refine (pays_same (capacity_same n)).bind (k' := 31) (fun _ => ?_) (by omega)
    refine (pays_repeat ?_ _).bind (k' := 31) (fun _ => pays_align.bind (fun _ => pays_pure _) (by omega)) (by omega)
    exact (pays_readAs .u8 _).bind (fun _ => pays_pure _) (by omega)

theorem pays_fields (pf : Profile) (ops : List AbbrevOp) : Pays 0 (Work.fields pf ops) := by
  induction ops with
  | nil => exact pays_pure _
  | cons o ops ih => exact (pays_op pf o).bind (fun _ => ih.bind (k₀ := 0) (fun _ => pays_pure _) (by omega)) (by omega)

theorem tryFrom_same (e : U64) (c : Cursor) : (AbbrevOpEnc.tryFrom e c).2 = c := by
  unfold AbbrevOpEnc.tryFrom
  repeat' split
  all_goals rfl

theorem sub_same (pf : Profile) (q : PanicSite) (a b : U64) (c : Cursor) : ((subU64 pf q a b : BM U64) c).2 = c := by
  unfold subU64
  split
  · rfl
  · cases pf <;> rfl

theorem pays_width (pf : Profile) (f : U64 → α) : Pays 0 (do let w ← Work.vbr pf 5; pure (f w)) :=
  (pays_vbr pf 5).bind (fun _ => pays_pure _) (by omega)

theorem pays_throw {tell : σ → Nat} {I : σ → Prop} (e : ε) (k : Int) : PaysOn tell I k (free (StM.throw e) : WorkM σ ε α) :=
  pays_never (fun c a h => by simp [free, cost, StM.throw] at h) k

theorem pays_arrayElem (pf : Profile) : Pays 0 (Work.arrayElem pf) := by
  refine (pays_read 1).bind (k' := 0) (fun _ => (pays_read 3).bind (k' := 0) (fun e =>
    (pays_same (tryFrom_same e)).bind (k' := 0) (fun enc => ?_) (Int.le_refl _)) (by omega)) (by omega)
  cases enc
  · exact pays_width pf _
  · exact pays_width pf _
  · exact pays_throw _ _
  · exact pays_pure _
  · exact pays_throw _ _

theorem pays_encoded (pf : Profile) (num idx : U64) : Pays 0 (Work.encodedOperand pf num idx) := by
  refine (pays_read 3).bind (k' := 0) (fun e => (pays_same (tryFrom_same e)).bind (k' := 0) (fun enc => ?_) (by omega)) (by omega)
  cases enc
  · exact pays_width pf _
  · exact pays_width pf _
  · refine (pays_same (sub_same pf _ num 2)).bind (k' := 0) (fun last2 => ?_) (by omega)
    split
    · exact pays_throw _ _
    · exact (pays_arrayElem pf).bind (fun _ => pays_pure _) (by omega)
  · exact pays_pure _
  · refine (pays_same (sub_same pf _ num 1)).bind (k' := 0) (fun last => ?_) (by omega)
    split
    · exact pays_throw _ _
    · exact pays_pure _

theorem pays_operands (pf : Profile) (num : U64) (n : Nat) : Pays 0 (Work.operands pf num n) := by
  induction n with
  | zero => exact pays_pure _
  | succ n ih =>
    refine (pays_read 1).bind (k' := 0) (fun kind => ?_) (by omega)
    split
    · exact (pays_vbr pf 8).bind (k' := 0) (fun _ => ih.bind (fun _ => pays_pure _) (by omega)) (by omega)
    · refine (pays_encoded pf num _).bind (k' := 0) (fun r => ?_) (by omega)
      obtain ⟨o, d⟩ := r
      cases d
      · exact ih.bind (fun _ => pays_pure _) (by omega)
      · exact pays_pure _

theorem pays_abbrevNew (pf : Profile) : Pays 0 (Work.abbrevNew pf) := by
  refine (pays_vbr pf 5).bind (k' := 0) (fun num => ?_) (by omega)
  split
  · exact pays_throw _ _
  · exact (pays_operands pf num _).bind (fun _ => pays_pure _) (by omega)

theorem pays_vbr6s (pf : Profile) (n : Nat) : Pays 0 (Work.vbr6s pf n) := by
  induction n with
  | zero => exact pays_pure _
  | succ n ih => exact (pays_vbr pf 6).bind (k' := 0) (fun _ => ih.bind (fun _ => pays_pure _) (by omega)) (by omega)

/-- The relation for a parser. -/
abbrev PPays (k : Int) (m : WorkM Parser BErr α) : Prop := PaysOn (fun p : Parser => p.cursor.tellBit) (fun p => p.cursor.Inv) k m

theorem pays_onCursor {k : Int} {m : WorkM Cursor BErr α} (h : Pays k m) : PPays k (Work.onCursor m) := fun p hp a ha => h p.cursor hp a ha

/-- The action leaves the cursor alone. -/
def Stays (m : PM α) : Prop := ∀ p, (m p).2.cursor = p.cursor

theorem Stays.pays {m : PM α} (h : Stays m) : PPays 0 (free m) :=
  pays_still (fun c hc => by rw [h]; exact hc) (fun c => by rw [h])

theorem Stays.bind {m : PM α} {f : α → PM β} (h : Stays m) (hf : ∀ a, Stays (f a)) : Stays (m >>= f) := by
  intro p
  rw [StM.bind_apply]
  have := h p
  match hm : m p with
  | (.ok a, p') => rw [hm] at this; exact (hf a p').trans this
  | (.err e, p') => rw [hm] at this; exact this
  | (.panic e, p') => rw [hm] at this; exact this
  | (.diverge, p') => rw [hm] at this; exact this

theorem stays_pure (a : α) : Stays (Pure.pure a : PM α) := fun _ => rfl

theorem stays_throw (e : BErr) : Stays (StM.throw e : PM α) := fun _ => rfl

theorem stays_panic (e : PanicSite) : Stays (StM.panic e : PM α) := fun _ => rfl

theorem stays_scope : Stays Parser.scope := by
  intro p
  unfold Parser.scope
  split <;> rfl

theorem stays_scopeMut (f : Scope → Out BErr Scope) : Stays (Parser.scopeMut f) := by
  intro p
  unfold Parser.scopeMut
  split
  · rfl
  · split <;> rfl

theorem stays_mul4 (pf : Profile) (x : U64) : Stays (Parser.mul4 pf x) := by
  intro p
  unfold Parser.mul4
  split
  · rfl
  · cases pf <;> rfl

theorem stays_capacity (l : U64) : Stays (withCapacity l : PM Unit) := fun p => by rw [capacity_same]

theorem stays_code (c : U64) : Stays (Parser.BlockInfoCode.tryFrom c) := by
  intro p
  unfold Parser.BlockInfoCode.tryFrom
  repeat' split
  all_goals rfl

theorem pays_palign : PPays 31 (free (Parser.onCursor align)) := fun p hp _ ha => pays_align p.cursor hp () ha

theorem pays_enterBlock (pf : Profile) : PPays 28 (Work.enterBlock pf) := by
  refine (pays_onCursor (pays_vbr pf 8)).bind (k' := 29) (fun id => ?_) (by omega)
  refine (pays_onCursor (pays_vbr pf 4)).bind (k' := 30) (fun w => ?_) (by omega)
  refine pays_palign.bind (k' := -1) (fun _ => ?_) (by omega)
  split
  · exact pays_throw _ _
  · refine (pays_onCursor (pays_read 32)).bind (k' := 0) (fun words => ?_) (by omega)
    refine (stays_mul4 pf words).pays.bind (k' := 0) (fun len => ?_) (by omega)
    refine (Stays.pays (m := Parser.pushScope _) fun _ => rfl).bind (k' := 0) (fun _ => ?_) (by omega)
    refine (Stays.pays (m := StM.get) fun _ => rfl).bind (k' := 0) (fun p => ?_) (by omega)
    have last : PPays 0 (do
        let s ← (WorkM.free Parser.scope : WorkM Parser BErr Scope)
        if s.isBlockinfo then pure none
        else pure (some (StreamEntry.subBlock { blockId := id, len := len }))) := by
      refine stays_scope.pays.bind (k' := 0) (fun s => ?_) (by omega)
      split <;> exact pays_pure _
    cases p.blockinfo id with
    | some l =>
      refine PaysOn.bind (k := 0) (k' := 0) ?_ (fun _ => last) (by omega)
      intro q hq a ha
      simp only [cost]
      rw [stays_scopeMut _ q]
      exact ⟨hq, by omega⟩
    | none => exact last

theorem pays_defineAbbrev (pf : Profile) : PPays 0 (Work.defineAbbrev pf) := by
  refine (pays_onCursor (pays_abbrevNew pf)).bind (k' := 0) (fun a => Stays.pays (stays_scope.bind fun s => ?_)) (by omega)
  split
  · split
    · exact stays_throw _
    · exact fun _ => rfl
  · exact stays_scopeMut _

theorem pays_parseUnabbrev (pf : Profile) : PPays 0 (Work.parseUnabbrev pf) := by
  refine stays_scope.pays.bind (k' := 0) (fun s => ?_) (by omega)
  split
  · exact pays_throw _ _
  · refine (pays_onCursor (pays_vbr pf 6)).bind (k' := 0) (fun code => ?_) (by omega)
    refine (pays_onCursor (pays_vbr pf 6)).bind (k' := 0) (fun n => ?_) (by omega)
    refine (stays_capacity n).pays.bind (k' := 0) (fun _ => ?_) (by omega)
    refine (pays_onCursor (pays_vbr6s pf _)).bind (k' := 0) (fun fields => Stays.pays (stays_scope.bind fun s => ?_)) (by omega)
    split
    · refine (stays_code code).bind fun c => ?_
      cases c
      · cases fields with
        | nil => exact stays_panic _
        | cons b _ => exact (stays_scopeMut _).bind fun _ => stays_pure _
      · exact stays_pure _
      · exact stays_pure _
    · exact stays_pure _

theorem pays_parseWithAbbrev (pf : Profile) (id : U64) : PPays 0 (Work.parseWithAbbrev pf id) := by
  refine stays_scope.pays.bind (k' := 0) (fun s => ?_) (by omega)
  refine (Stays.pays (m := StM.lift _) fun _ => rfl).bind (k' := 0) (fun a => ?_) (by omega)
  refine PaysOn.tick (k := 0) ((pays_onCursor (pays_fields pf _)).bind (k' := 0) (fun xs => Stays.pays ?_) (by omega)) _ (by omega)
  cases xs with
  | nil => exact stays_panic _
  | cons code xs =>
    refine stays_scope.bind fun s => ?_
    split <;> exact stays_pure _

theorem exitBlock_cursor (p : Parser) : (Parser.exitBlock p).2.cursor = p.cursor.align32 := by
  have h : Stays (do
      let p ← StM.get
      match p.scopes with
      | [] => StM.throw (.badScope .emptyStack)
      | [_] => StM.throw (.badScope .emptyStack)
      | s :: rest => do
        StM.set { p with scopes := rest }
        if s.isBlockinfo then pure none
        else pure (some .endBlock) : PM (Option StreamEntry)) := by
    intro p
    match hs : p.scopes with
    | [] => simp [StM.bind_apply, StM.get, hs, StM.throw]
    | [_] => simp [StM.bind_apply, StM.get, hs, StM.throw]
    | s :: t :: rest =>
      simp only [StM.bind_apply, StM.get, hs, StM.set]
      split <;> rfl
  exact h { p with cursor := p.cursor.align32 }

theorem pays_exitBlock : PPays 31 (free Parser.exitBlock) := by
  intro p hp a _
  have h := pays_align p.cursor hp () rfl
  simp only [free, cost]
  rw [exitBlock_cursor]
  exact h

/-- One round. -/
theorem pays_step (pf : Profile) : PPays 0 (Work.step pf) := by
  refine PaysOn.tick (k := 31) ?_ 1 (by omega)
  refine (Stays.pays (m := StM.get) fun _ => rfl).bind (k' := 31) (fun p => ?_) (by omega)
  split
  · exact pays_throw _ _
  · refine stays_scope.pays.bind (k' := 31) (fun s => ?_) (by omega)
    refine (pays_onCursor (pays_read _)).bind (k' := 31) (fun id => ?_) (by omega)
    unfold Work.dispatch
    split
    · exact pays_exitBlock
    split
    · exact (pays_enterBlock pf).weaken (by omega)
    split
    · exact (pays_defineAbbrev pf).bind (fun _ => pays_pure _) (by omega)
    split
    · exact (pays_parseUnabbrev pf).weaken (by omega)
    · exact (pays_parseWithAbbrev pf id).weaken (by omega)

theorem pays_advance (pf : Profile) (fuel : Nat) : PPays 0 (Work.advanceFuel pf fuel) := by
  induction fuel with
  | zero => exact pays_never (fun c a h => by simp [Work.advanceFuel, free, cost, StM.diverge] at h) _
  | succ n ih =>
    refine (pays_step pf).bind (k' := 0) (fun r => ?_) (by omega)
    cases r with
    | none => exact ih
    | some e => exact pays_pure _

/-! ## Copies -/

/-- The operands that are copied or interpreted for an item, given the parser after it: those of the abbreviations in force when a block
is entered, and twice those of the abbreviation by which a record is read. -/
def operandsFor (pf : Profile) (p : Parser) : StreamEntry → Nat
  | .subBlock _ => operandCount ((p.scopes.head?.map Scope.abbrevs).getD [])
  | .record r =>
    match r.abbrevId, p.scopes with
    | some id, s :: _ =>
      match s.getAbbrev pf id with
      | .ok a => 2 * a.operands.length
      | _ => 0
    | _, _ => 0
  | .endBlock => 0

/-- The action takes a step for each of these operands. -/
def Copies (pf : Profile) (m : WorkM Parser BErr (Option StreamEntry)) : Prop :=
  ∀ p e, (m p).1.1 = .ok (some e) → operandsFor pf (m p).1.2 e ≤ (m p).2

theorem Copies.after {pf : Profile} {m : WorkM Parser BErr α} {f : α → WorkM Parser BErr (Option StreamEntry)} (h : ∀ a, Copies pf (f a)) :
    Copies pf (m >>= f) := by
  intro p e he
  obtain ⟨a, h1, h2, h3, h4⟩ := work_bind_ok he
  have := h a _ e h2
  rw [h3, h4]
  omega

theorem copies_never {pf : Profile} {m : WorkM Parser BErr (Option StreamEntry)} (h : ∀ p e, (m p).1.1 ≠ .ok (some e)) : Copies pf m :=
  fun p e he => (h p e he).elim

theorem steps_op (pf : Profile) (o : AbbrevOp) (c : Cursor) (xs : List U64) (h : (Work.op pf o c).1.1 = .ok xs) : 1 ≤ (Work.op pf o c).2 := by
  have key : ∀ m : WorkM Cursor BErr (List U64), 1 ≤ ((do WorkM.tick 1; m : WorkM Cursor BErr (List U64)) c).2 := by
    intro m
    show 1 ≤ 1 + (m c).2
    omega
  cases o <;> exact key _

theorem steps_fields (pf : Profile) (ops : List AbbrevOp) (c : Cursor) (xs : List U64) (h : (Work.fields pf ops c).1.1 = .ok xs) :
    ops.length ≤ (Work.fields pf ops c).2 := by
  induction ops generalizing c xs with
  | nil => exact Nat.zero_le _
  | cons o ops ih =>
    obtain ⟨ys, h1, h2, h3, -⟩ := work_bind_ok h
    obtain ⟨zs, g1, -, g3, -⟩ := work_bind_ok h2
    have := steps_op pf o c ys h1
    have := ih _ zs g1
    unfold Work.fields
    rw [h3, g3, List.length_cons]
    omega

theorem scope_same (p : Parser) : (Parser.scope p).2 = p := by
  unfold Parser.scope
  split <;> rfl

theorem copies_abbrev (pf : Profile) (id : U64) : Copies pf (Work.parseWithAbbrev pf id) := by
  intro p e he
  obtain ⟨s, h1, h2, h3, h4⟩ := work_bind_ok he
  obtain ⟨a, g1, g2, g3, g4⟩ := work_bind_ok h2
  obtain ⟨_, k1, k2, k3, k4⟩ := work_bind_ok g2
  obtain ⟨xs, l1, l2, l3, l4⟩ := work_bind_ok k2
  have hs : (free Parser.scope p : (Out BErr Scope × Parser) × Nat).1.2 = p := scope_same p
  rw [hs] at g1 g3 g4 h3 h4 k1 k3 k4 l1 l2 l3 l4
  have hget : s.getAbbrev pf id = .ok a := g1
  have hst : ((free (StM.lift (s.getAbbrev pf id)) : WorkM Parser BErr Abbrev) p).1.2 = p := rfl
  rw [hst] at k1 k3 k4 l1 l2 l3 l4 g3 g4
  have htk : ((WorkM.tick a.operands.length : WorkM Parser BErr Unit) p).1.2 = p := rfl
  rw [htk] at l1 l2 l3 l4 k3 k4
  have hf : a.operands.length ≤ ((Work.onCursor (Work.fields pf a.operands) : WorkM Parser BErr (List U64)) p).2 :=
    steps_fields pf a.operands p.cursor xs l1
  have htop : ∃ rest, p.scopes = s :: rest := by
    have h1 : (Parser.scope p).1 = .ok s := h1
    unfold Parser.scope at h1
    match hp : p.scopes with
    | [] => rw [hp] at h1; simp at h1
    | t :: rest => rw [hp] at h1; simp at h1; exact ⟨rest, by rw [h1]⟩
  obtain ⟨rest, htop⟩ := htop
  have hcost : ((WorkM.tick a.operands.length : WorkM Parser BErr Unit) p).2 = a.operands.length := rfl
  rw [hcost] at k3
  have hsteps : 2 * a.operands.length ≤ (Work.parseWithAbbrev pf id p).2 := by
    unfold Work.parseWithAbbrev
    rw [h3, g3, k3, l3]
    omega
  suffices hle : operandsFor pf (Work.parseWithAbbrev pf id p).1.2 e ≤ 2 * a.operands.length from Nat.le_trans hle hsteps
  have hend : (Work.parseWithAbbrev pf id p).1.2.scopes = p.scopes := by
    unfold Work.parseWithAbbrev
    rw [h4, g4, k4, l4]
    cases xs with
    | nil => rfl
    | cons code xs =>
      obtain ⟨s', m1, m2⟩ := st_bind_ok l2
      simp only [free, cost, StM.bind_apply]
      have hq := scope_same (((Work.onCursor (Work.fields pf a.operands) : WorkM Parser BErr (List U64)) p).1.2)
      match hm : Parser.scope (((Work.onCursor (Work.fields pf a.operands) : WorkM Parser BErr (List U64)) p).1.2) with
      | (.ok s'', p') =>
        rw [hm] at hq
        simp only at hq ⊢
        rw [hq]
        split <;> rfl
      | (.err _, p') => rw [hm] at m1; simp at m1
      | (.panic _, p') => rw [hm] at m1; simp at m1
      | (.diverge, p') => rw [hm] at m1; simp at m1
  have hr : ∃ code fs, e = .record { abbrevId := some id, code := code, fields := fs } := by
    cases xs with
    | nil => simp [free, cost, StM.panic] at l2
    | cons code xs =>
      obtain ⟨s', m1, m2⟩ := st_bind_ok l2
      split at m2
      · simp [Pure.pure, StM.pure] at m2
      · simp [Pure.pure, StM.pure] at m2
        exact ⟨code, xs, m2.symm⟩
  obtain ⟨code, fs, rfl⟩ := hr
  unfold operandsFor
  rw [hend, htop]
  simp only [hget]
  exact Nat.le_refl _

theorem copies_unabbrev (pf : Profile) : Copies pf (Work.parseUnabbrev pf) := by
  refine Copies.after fun s => ?_
  split
  · exact copies_never fun p e he => by simp [free, cost, StM.throw] at he
  · refine Copies.after fun code => Copies.after fun n => Copies.after fun _ => Copies.after fun xs => ?_
    intro p e he
    suffices h : ∃ c fs, e = .record { abbrevId := none, code := c, fields := fs } by
      obtain ⟨c, fs, rfl⟩ := h
      exact Nat.zero_le _
    obtain ⟨s, h4, h5⟩ := st_bind_ok he
    split at h5
    · obtain ⟨c, h6, h7⟩ := st_bind_ok h5
      cases c with
      | setBid =>
        cases xs with
        | nil => simp [StM.panic] at h7
        | cons bid _ =>
          obtain ⟨_, -, h8⟩ := st_bind_ok h7
          simp [Pure.pure, StM.pure] at h8
      | blockName => simp [Pure.pure, StM.pure] at h7
      | setRecordName => simp [Pure.pure, StM.pure] at h7
    · simp [Pure.pure, StM.pure] at h5
      exact ⟨_, _, h5.symm⟩

theorem copies_enter (pf : Profile) : Copies pf (Work.enterBlock pf) := by
  refine Copies.after fun id => Copies.after fun w => Copies.after fun _ => ?_
  split
  · exact copies_never fun p e he => by simp [free, cost, StM.throw] at he
  · refine Copies.after fun words => Copies.after fun len => ?_
    intro p e he
    obtain ⟨_, -, h2, h3, h4⟩ := work_bind_ok he
    rw [h3, h4]
    generalize hp : ((free (Parser.pushScope (Scope.new w id)) : WorkM Parser BErr Unit) p).1.2 = p₁ at h2 ⊢
    have hs : p₁.scopes = Scope.new w id :: p.scopes := by rw [← hp]; rfl
    have last : ∀ q e', ((do
        let s ← (WorkM.free Parser.scope : WorkM Parser BErr Scope)
        if s.isBlockinfo then pure none
        else pure (some (StreamEntry.subBlock { blockId := id, len := len }))) q).1.1 = .ok (some e') →
        e' = .subBlock { blockId := id, len := len } ∧ ((do
        let s ← (WorkM.free Parser.scope : WorkM Parser BErr Scope)
        if s.isBlockinfo then pure none
        else pure (some (StreamEntry.subBlock { blockId := id, len := len }))) q).1.2 = q := by
      intro q e' h
      obtain ⟨s, k1, k2, -, k4⟩ := work_bind_ok h
      rw [k4, show ((free Parser.scope : WorkM Parser BErr Scope) q).1.2 = q from scope_same q]
      split at k2
      · simp [Pure.pure, WorkM.pure] at k2
      · simp [Pure.pure, WorkM.pure] at k2
        exact ⟨k2.symm, by split <;> rfl⟩
    obtain ⟨q, h5, h6, h7, h8⟩ := work_bind_ok h2
    obtain rfl : p₁ = q := by simpa [free, cost, StM.get] using h5
    rw [show ((free StM.get : WorkM Parser BErr Parser) p₁).1.2 = p₁ from rfl] at h6 h7 h8
    cases hl : p₁.blockinfo id with
    | some l =>
      rw [hl] at h6 h7 h8
      obtain ⟨_, -, k2, k3, k4⟩ := work_bind_ok h6
      have hm : ((cost (operandCount l) (Parser.scopeMut (Scope.extendAbbrevs l)) : WorkM Parser BErr Unit) p₁) =
          ((.ok (), { p₁ with scopes := .block w id none l :: p.scopes }), operandCount l) := by
        simp [cost, Parser.scopeMut, hs, Scope.new, Scope.extendAbbrevs]
      rw [hm] at k2 k3 k4
      obtain ⟨rfl, k5⟩ := last _ e k2
      rw [h7, h8]
      refine Nat.le_trans ?_ (Nat.le_trans (Nat.le_of_eq k3.symm |> Nat.le_trans (Nat.le_add_right _ _)) (Nat.le_trans (Nat.le_add_left _ _) (Nat.le_add_left _ _)))
      rw [show ∀ x : Parser, operandsFor pf x (.subBlock { blockId := id, len := len }) =
        operandCount ((x.scopes.head?.map Scope.abbrevs).getD []) from fun _ => rfl]
      simp only at k4 ⊢
      rw [k4, k5]
      exact Nat.le_refl _
    | none =>
      rw [hl] at h6 h8
      obtain ⟨rfl, k5⟩ := last _ e h6
      rw [h8]
      rw [show ∀ x : Parser, operandsFor pf x (.subBlock { blockId := id, len := len }) =
        operandCount ((x.scopes.head?.map Scope.abbrevs).getD []) from fun _ => rfl]
      simp only
      rw [k5, hs]
      exact Nat.zero_le _

theorem copies_step (pf : Profile) : Copies pf (Work.step pf) := by
  refine Copies.after fun _ => Copies.after fun p => ?_
  split
  · exact copies_never fun p e he => by simp [free, cost, StM.throw] at he
  · refine Copies.after fun s => Copies.after fun id => ?_
    unfold Work.dispatch
    split
    · intro p e he
      suffices h : e = .endBlock by rw [h]; exact Nat.zero_le _
      obtain ⟨_, -, h1⟩ := st_bind_ok he
      obtain ⟨q, -, h2⟩ := st_bind_ok h1
      match hq : q.scopes with
      | [] => rw [hq] at h2; simp [StM.throw] at h2
      | [_] => rw [hq] at h2; simp [StM.throw] at h2
      | s :: t :: rest =>
        rw [hq] at h2
        obtain ⟨_, -, h3⟩ := st_bind_ok h2
        split at h3
        · simp [Pure.pure, StM.pure] at h3
        · simp [Pure.pure, StM.pure] at h3
          exact h3.symm
    split
    · exact copies_enter pf
    split
    · refine Copies.after fun _ => copies_never fun p e he => by simp [Pure.pure, WorkM.pure] at he
    split
    · exact copies_unabbrev pf
    · exact copies_abbrev pf id

theorem copies_advance (pf : Profile) (fuel : Nat) (p : Parser) (e : StreamEntry) (he : (Work.advanceFuel pf fuel p).1.1 = .ok e) :
    operandsFor pf (Work.advanceFuel pf fuel p).1.2 e ≤ (Work.advanceFuel pf fuel p).2 := by
  induction fuel generalizing p with
  | zero => simp [Work.advanceFuel, free, cost, StM.diverge] at he
  | succ n ih =>
    obtain ⟨r, h1, h2, h3, h4⟩ := work_bind_ok he
    unfold Work.advanceFuel
    rw [h3, h4]
    cases r with
    | some e' =>
      have := copies_step pf p e' h1
      simp [Pure.pure, WorkM.pure] at h2
      rw [← h2]
      exact Nat.le_trans this (Nat.le_add_right _ _)
    | none => exact Nat.le_trans (ih _ h2) (Nat.le_add_left _ _)

/-! ## C87 -/

theorem item_advance {pf : Profile} {b : Bitstream} {e : StreamEntry} (h : (Bitstream.next pf b).1 = .item e) :
    (Work.advance pf b.parser).1.1 = .ok e := by
  rw [C87_same]
  unfold Bitstream.next Bitstream.advance at h
  match hr : Parser.advance pf b.parser with
  | (.ok e', p') => rw [hr] at h; simpa using h
  | (.err e, p') => rw [hr] at h; cases e <;> simp at h
  | (.panic e, p') => rw [hr] at h; simp at h
  | (.diverge, p') => rw [hr] at h; simp at h

/-- C87, the count leaves no bits out: a call of `next` that gives an item takes a step at least for each 64 bits that it
consumes. -/
theorem C87_bits (pf : Profile) {b : Bitstream} (h : Reach pf b) {e : StreamEntry} (he : (Bitstream.next pf b).1 = .item e) :
    (Bitstream.next pf b).2.pos ≤ b.pos + 64 * Work.next pf b := by
  have h1 := (pays_advance pf _ b.parser (reach_small h).1.cur e (item_advance he)).2
  simp only at h1
  rw [next_pos]
  unfold Work.next Work.advance Bitstream.pos
  omega

/-- C87, the count leaves no copies out: a call of `next` that enters a block takes a step for each operand of the abbreviations
that are then in force, and one that gives a record that is read by an abbreviation takes two for each of its operands. -/
theorem C87_copies (pf : Profile) {b : Bitstream} :
    (∀ k s rest, (Bitstream.next pf b).1 = .item (.subBlock k) → (Bitstream.next pf b).2.parser.scopes = s :: rest →
      operandCount s.abbrevs ≤ Work.next pf b) ∧
    ∀ r id s rest a, (Bitstream.next pf b).1 = .item (.record r) → r.abbrevId = some id →
      (Bitstream.next pf b).2.parser.scopes = s :: rest → s.getAbbrev pf id = .ok a → 2 * a.operands.length ≤ Work.next pf b := by
  have key : ∀ e, (Bitstream.next pf b).1 = .item e → operandsFor pf (Bitstream.next pf b).2.parser e ≤ Work.next pf b := by
    intro e he
    rw [next_advances, ← C87_same]
    exact copies_advance pf _ b.parser e (item_advance he)
  constructor
  · intro k s rest he hs
    have := key _ he
    simpa [operandsFor, hs] using this
  · intro r id s rest a he hr hs ha
    have := key _ he
    simpa [operandsFor, hs, hr, ha] using this

/-! ## Examples -/

/-- What the first calls of `next` for a bare stream give, where they end, the steps they take and
the operands that are copied or interpreted for the item. -/
def bitsRaw (pf : Profile) (n : Nat) (bytes : List U8) : List (Bool × Nat × Nat × Nat) :=
  match Bitstream.fromRaw bytes with
  | .ok b => (List.range n).map fun i =>
    let b := (iterate pf i b).2
    (match (Bitstream.next pf b).1 with | .item _ => true | _ => false, (Bitstream.next pf b).2.pos, Work.next pf b,
      match (Bitstream.next pf b).1 with | .item e => operandsFor pf (Bitstream.next pf b).2.parser e | _ => 0)
  | _ => []

/-- A stream with a BLOCKINFO block: the first call reads that block and enters another, for which an abbreviation with two operands is
registered, the second gives a record that is read by it. -/
example (pf : Profile) : bitsRaw pf 4 Props.exInfo = [(true, 256, 31, 2), (true, 265, 7, 4), (true, 288, 2, 0), (false, 288, 1, 0)] := by
  cases pf <;> decide +kernel

end Verif
