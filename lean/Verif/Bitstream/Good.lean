import Verif.Bitstream.Parser
import Verif.Cursor.Good

/-!
Facts that hold of the bitstream parser on every input: the invariant, progress, the panic sites.
-/

set_option linter.unusedSimpArgs false

namespace Verif
open Cursor Spec

variable {α β : Type}

/-- The panics that malformed input can cause while parsing a bitstream; those in `debug` builds only are
marked. -/
def StreamPanic (pf : Profile) (p : PanicSite) : Prop :=
  (p = .vbrShift ∧ pf = .debug) ∨ (p = .abbrevArraySub ∧ pf = .debug) ∨ p = .capacity ∨ p = .setBidField ∨
    p = .recordCodeRemove

/-! ## Abbreviations -/

section
variable {pf : Profile}

theorem good_cur {A : PanicSite → Prop} {k : Nat} {m : CurM α} (h : Good A k m) : Good A k (cur m) := h.mapErr _

theorem good_vbr (w : Nat) : Good (StreamPanic pf) w (cur (readVbr pf w)) :=
  good_cur (good_readVbr pf w (fun h => .inl ⟨rfl, h⟩))

theorem good_withCapacity (n : U64) : Good (StreamPanic pf) 0 (withCapacity n : BM Unit) := by
  unfold withCapacity
  split
  · exact Good.panic (.inr (.inr (.inl rfl))) 0
  · exact Good.pure ()

theorem good_alignB (A : PanicSite → Prop) : Good A 0 align := good_align32 A

theorem Cursor.Good.bind0 {ε : Type} {A : PanicSite → Prop} {k : Nat} {m : StM Cursor ε α} {f : α → StM Cursor ε β} (hm : Good A k m)
    (hf : ∀ a, Good A 0 (f a)) : Good A k (m >>= f) := hm.bind hf

theorem good_repeatFields {A : PanicSite → Prop} {body : BM (List U64)} (h : Good A 0 body) (n : Nat) :
    Good A 0 (repeatFields body n) := by
  induction n with
  | zero => exact Good.pure _
  | succ n ih => exact h.bind fun xs => ih.bind fun ys => Good.pure _

theorem char6_get {i : Nat} (h : i < 64) : ∃ b, char6Alphabet[i]? = some b := by
  have : i < char6Alphabet.length := by simpa [char6Alphabet] using h
  exact ⟨_, List.getElem?_eq_getElem this⟩

/-- `read_as::<u8>(6)` is below 64, so the table lookup never panics. -/
theorem good_char6 (A : PanicSite → Prop) :
    Good A 6 (do let c ← cur (readAs .u8 6); let v ← decodeChar6 c; pure [v] : BM (List U64)) := by
  intro c h
  have hg := good_cur (good_readAs .u8 6 A) c h
  match hr : cur (readAs .u8 6) c with
  | (.ok v, c') =>
    rw [StM.bind_ok hr]
    rw [hr] at hg
    have hv : v.toNat < 64 := by
      simp only [cur, StM.mapErr] at hr
      simp only [readAs] at hr
      rcases read_cases h 6 with ⟨-, e⟩ | ⟨-, -, -, x, c₁, e, -, -, hx, -⟩ | ⟨-, -, -, e⟩ | ⟨-, -, -, -, c₁, e, -⟩
      · rw [e] at hr; simp at hr
      · rw [e] at hr
        simp only at hr
        split at hr
        · simp at hr
          rw [← hr.1, hx]
          have := natOfBits_lt (c.rest.take 6)
          refine Nat.lt_of_lt_of_le this (Nat.pow_le_pow_right (n := 2) (by omega) (j := 6) ?_)
          simp; omega
        · simp at hr
      · rw [e] at hr; simp at hr
      · rw [e] at hr; simp at hr
    obtain ⟨b, hb⟩ := char6_get hv
    have : decodeChar6 v = pure (b.setWidth 64) := by simp [decodeChar6, hb]
    rw [this]
    exact ⟨hg.same, hg.inv, hg.mono, hg.word, by simp [StM.bind_apply, StM.pure_apply],
      by simp [StM.bind_apply, StM.pure_apply], fun _ _ => hg.eats v rfl⟩
  | (.err e, c') =>
    rw [StM.bind_err hr]; rw [hr] at hg
    exact ⟨hg.same, hg.inv, hg.mono, hg.word, by simp, by simp, by simp⟩
  | (.panic p, c') =>
    rw [StM.bind_panic hr]; rw [hr] at hg
    exact ⟨hg.same, hg.inv, hg.mono, hg.word, by simp, by simpa using hg.panics p rfl, by simp⟩
  | (.diverge, c') => rw [hr] at hg; exact absurd rfl hg.nodiv

theorem good_opParse (op : AbbrevOp) : Good (StreamPanic pf) 0 (op.parse pf) := by
  induction op with
  | literal v => exact Good.pure _
  | vbr w => exact ((good_vbr _).bind0 fun _ => Good.pure _).weaken (Nat.zero_le _)
  | fixed w => exact ((good_cur (good_readAs _ _ _)).bind0 fun _ => Good.pure _).weaken (Nat.zero_le _)
  | array e ih =>
    refine ((good_vbr 6).bind0 fun n => ?_).weaken (Nat.zero_le _)
    exact (good_withCapacity n).bind0 fun _ => good_repeatFields ih _
  | char6 => exact (good_char6 _).weaken (Nat.zero_le _)
  | blob =>
    refine ((good_vbr 6).bind0 fun n => ?_).weaken (Nat.zero_le _)
    refine (good_alignB _).bind0 fun _ => (good_withCapacity n).bind0 fun _ => ?_
    refine Good.bind0 (good_repeatFields ?_ _) fun _ => (good_alignB _).bind0 fun _ => Good.pure _
    exact ((good_cur (good_readExact _ _)).bind0 fun _ => Good.pure _).weaken (Nat.zero_le _)

theorem good_parseFields (ops : List AbbrevOp) : Good (StreamPanic pf) 0 (parseFields pf ops) := by
  induction ops with
  | nil => exact Good.pure _
  | cons op ops ih => exact (good_opParse op).bind0 fun _ => ih.bind0 fun _ => Good.pure _

theorem good_tryFrom (A : PanicSite → Prop) (v : U64) : Good A 0 (AbbrevOpEnc.tryFrom v) := by
  unfold AbbrevOpEnc.tryFrom
  repeat' split
  all_goals first | exact Good.pure _ | exact Good.throw _ _

/-- The panics that a definition of an abbreviation can cause. -/
def DefPanic (pf : Profile) (p : PanicSite) : Prop :=
  (p = .vbrShift ∧ pf = .debug) ∨ (p = .abbrevArraySub ∧ pf = .debug)

theorem good_defVbr (w : Nat) : Good (DefPanic pf) w (cur (readVbr pf w)) :=
  good_cur (good_readVbr pf w (fun h => .inl ⟨rfl, h⟩))

theorem good_width (f : U64 → α) : Good (DefPanic pf) 0 (do let w ← cur (readVbr pf 5); pure (f w) : BM α) :=
  ((good_defVbr 5).bind0 fun _ => Good.pure _).weaken (Nat.zero_le _)

theorem good_parseArrayElem : Good (DefPanic pf) 0 (parseArrayElem pf) := by
  unfold parseArrayElem
  refine ((good_cur (good_read 1 _)).bind0 fun _ => ?_).weaken (Nat.zero_le _)
  refine ((good_cur (good_read 3 _)).bind0 fun e => ?_).weaken (Nat.zero_le _)
  refine (good_tryFrom _ e).bind0 fun enc => ?_
  cases enc
  · exact good_width _
  · exact good_width _
  · exact Good.throw _ _
  · exact Good.pure _
  · exact Good.throw _ _

/-- The operand count is at least 1 inside the loop, so `num - 1` never underflows; `num - 2` does when
`num = 1`. -/
theorem good_parseEncodedOperand (num idx : U64) (h1 : 1 ≤ num.toNat) :
    Good (DefPanic pf) 0 (parseEncodedOperand pf num idx) := by
  unfold parseEncodedOperand
  refine ((good_cur (good_read 3 _)).bind0 fun e => ?_).weaken (Nat.zero_le _)
  refine (good_tryFrom _ e).bind0 fun enc => ?_
  cases enc
  · exact good_width _
  · exact good_width _
  · refine Good.bind0 (k := 0) ?_ fun last2 => ?_
    · unfold subU64
      split
      · exact Good.pure _
      · cases pf with
        | debug => exact Good.panic (.inr ⟨rfl, rfl⟩) 0
        | release => exact Good.pure _
    · split
      · exact Good.throw _ _
      · exact good_parseArrayElem.bind0 fun _ => Good.pure _
  · exact Good.pure _
  · refine Good.bind0 (k := 0) ?_ fun last => ?_
    · unfold subU64
      rw [if_pos (by simpa using h1)]
      exact Good.pure _
    · split
      · exact Good.throw _ _
      · exact Good.pure _

theorem good_parseOperands (num : U64) (h1 : 1 ≤ num.toNat) (n : Nat) :
    Good (DefPanic pf) 0 (parseOperands pf num n) := by
  induction n with
  | zero => exact Good.pure _
  | succ n ih =>
    refine ((good_cur (good_read 1 _)).bind0 fun kind => ?_).weaken (Nat.zero_le _)
    split
    · exact ((good_defVbr 8).bind0 fun _ => ih.bind0 fun _ => Good.pure _).weaken (Nat.zero_le _)
    · refine (good_parseEncodedOperand num _ h1).bind0 fun r => ?_
      obtain ⟨op, d⟩ := r
      cases d
      · exact ih.bind0 fun _ => Good.pure _
      · exact Good.pure _

theorem good_abbrevNew' : Good (DefPanic pf) 0 (Abbrev.new pf) := by
  unfold Abbrev.new
  refine ((good_defVbr 5).bind0 fun num => ?_).weaken (Nat.zero_le _)
  split
  · exact Good.throw _ _
  · next h =>
    refine (good_parseOperands num ?_ _).bind0 fun _ => Good.pure _
    rw [BitVec.lt_def] at h
    simp at h
    omega

theorem good_abbrevNew : Good (StreamPanic pf) 0 (Abbrev.new pf) := by
  intro c h
  obtain ⟨h1, h2, h3, h4, h5, h6, h7⟩ := good_abbrevNew' (pf := pf) c h
  refine ⟨h1, h2, h3, h4, h5, fun p hp => ?_, h7⟩
  rcases h6 p hp with h | h
  · exact .inl h
  · exact .inr (.inl h)

end

/-! ## The parser -/

/-- The stack has blocks on top of exactly one initial scope. -/
def StackOK : List Scope → Prop
  | [] => False
  | [s] => s = .initial
  | s :: rest => s ≠ .initial ∧ StackOK rest

theorem StackOK.ne_nil {l : List Scope} (h : StackOK l) : l ≠ [] := by rintro rfl; exact h

theorem StackOK.push {l : List Scope} (h : StackOK l) {s : Scope} (hs : s ≠ .initial) : StackOK (s :: l) := by
  cases l with
  | nil => exact absurd h (by simp [StackOK])
  | cons a l => exact ⟨hs, h⟩

theorem StackOK.pop {s a : Scope} {l : List Scope} (h : StackOK (s :: a :: l)) : StackOK (a :: l) := h.2

theorem StackOK.replace {s s' : Scope} {l : List Scope} (h : StackOK (s :: l)) (hs : s ≠ .initial) (hs' : s' ≠ .initial) :
    StackOK (s' :: l) := by
  cases l with
  | nil => exact absurd h hs
  | cons a l => exact ⟨hs', h.2⟩

structure PInv (p : Parser) : Prop where
  cur : Inv p.cursor
  stack : StackOK p.scopes

/-- `r` is an acceptable result of a parser action started in `p` that, if successful, consumes at least `k`
bits. -/
structure PStep (A : PanicSite → Prop) (k : Nat) (p : Parser) (r : Out BErr α × Parser) : Prop where
  same : SameBuf p.cursor r.2.cursor
  inv : PInv r.2
  mono : p.cursor.tellBit ≤ r.2.cursor.tellBit
  word : p.cursor.byteLen % 4 = 0 → p.cursor.bytePos % 4 = 0 → r.2.cursor.bytePos % 4 = 0
  nodiv : r.1 ≠ .diverge
  panics : ∀ q, r.1 = .panic q → A q
  eats : ∀ a, r.1 = .ok a → p.cursor.tellBit + k ≤ r.2.cursor.tellBit

def PGood (A : PanicSite → Prop) (k : Nat) (m : PM α) : Prop := ∀ p, PInv p → PStep A k p (m p)

section
variable {A : PanicSite → Prop} {pf : Profile}

theorem PStep.refl {p : Parser} (h : PInv p) {x : Out BErr α} (h1 : x ≠ .diverge) (h2 : ∀ q, x = .panic q → A q) :
    PStep A 0 p (x, p) :=
  ⟨.rfl', h, Nat.le_refl _, fun _ h => h, h1, h2, fun _ _ => Nat.le_refl _⟩

theorem PGood.pure (a : α) : PGood A 0 (Pure.pure a : PM α) := fun _ h =>
  PStep.refl h (by simp) (by simp)

theorem PGood.throw (e : BErr) (k : Nat) : PGood A k (StM.throw e : PM α) := fun _ h =>
  ⟨.rfl', h, Nat.le_refl _, fun _ h => h, by simp [StM.throw], by simp [StM.throw], by simp [StM.throw]⟩

theorem PGood.panic {s : PanicSite} (hs : A s) (k : Nat) : PGood A k (StM.panic s : PM α) := fun _ h =>
  ⟨.rfl', h, Nat.le_refl _, fun _ h => h, by simp [StM.panic], by
    intro q hq; simp [StM.panic] at hq; exact hq ▸ hs, by simp [StM.panic]⟩

theorem PGood.get : PGood A 0 (StM.get : PM Parser) := fun _ h =>
  PStep.refl h (by simp) (by simp)

theorem PGood.weaken {k j : Nat} {m : PM α} (h : PGood A k m) (hj : j ≤ k) : PGood A j m := by
  intro c hc
  obtain ⟨h1, h2, h3, h4, h5, h6, h7⟩ := h c hc
  exact ⟨h1, h2, h3, h4, h5, h6, fun a ha => by have := h7 a ha; omega⟩

theorem PStep.bind {k j : Nat} {m : PM α} {f : α → PM β} {p : Parser} (hm : PStep A k p (m p))
    (hf : ∀ a p', m p = (.ok a, p') → PStep A j p' (f a p')) : PStep A (k + j) p ((m >>= f) p) := by
  obtain ⟨h1, h2, h3, h4, h5, h6, h7⟩ := hm
  match hr : m p with
  | (.ok a, c') =>
    rw [StM.bind_ok hr]
    rw [hr] at h1 h2 h3 h4 h7
    obtain ⟨g1, g2, g3, g4, g5, g6, g7⟩ := hf a c' hr
    have h7' := h7 a rfl
    simp only at h3 h7'
    refine ⟨h1.trans g1, g2, by omega, ?_, g5, g6, ?_⟩
    · intro ha hb; exact g4 (by rw [h1.2]; exact ha) (h4 ha hb)
    · intro b hb; have := g7 b hb; omega
  | (.err e, c') =>
    rw [StM.bind_err hr]; rw [hr] at h1 h2 h3 h4
    exact ⟨h1, h2, h3, h4, by simp, by simp, by simp⟩
  | (.panic s, c') =>
    rw [StM.bind_panic hr]; rw [hr] at h1 h2 h3 h4 h6
    exact ⟨h1, h2, h3, h4, by simp, by simpa using h6, by simp⟩
  | (.diverge, c') => rw [hr] at h5; exact absurd rfl h5

theorem PGood.bind {k j : Nat} {m : PM α} {f : α → PM β} (hm : PGood A k m)
    (hf : ∀ a, PGood A j (f a)) : PGood A (k + j) (m >>= f) := fun p hp =>
  (hm p hp).bind fun a p' hr => hf a p' (by have := (hm p hp).inv; rw [hr] at this; exact this)

theorem PGood.bind0 {k : Nat} {m : PM α} {f : α → PM β} (hm : PGood A k m)
    (hf : ∀ a, PGood A 0 (f a)) : PGood A k (m >>= f) := hm.bind hf

theorem pgood_onCursor {k : Nat} {m : BM α} (h : Good A k m) : PGood A k (Parser.onCursor m) := by
  intro p hp
  obtain ⟨h1, h2, h3, h4, h5, h6, h7⟩ := h p.cursor hp.cur
  exact ⟨h1, ⟨h2, hp.stack⟩, h3, h4, h5, h6, h7⟩

theorem scope_ok {p : Parser} (h : PInv p) : ∃ s rest, p.scopes = s :: rest ∧ Parser.scope p = (.ok s, p) := by
  cases hs : p.scopes with
  | nil => exact absurd hs h.stack.ne_nil
  | cons s rest => exact ⟨s, rest, rfl, by simp [Parser.scope, hs]⟩

theorem pgood_scope : PGood A 0 Parser.scope := by
  intro p hp
  obtain ⟨s, rest, -, e⟩ := scope_ok hp
  rw [e]; exact PStep.refl hp (by simp) (by simp)

/-- A scope update that refuses the initial scope and keeps blocks blocks. -/
def BlockMap (f : Scope → Out BErr Scope) : Prop :=
  (∃ e, f .initial = .err e) ∧ ∀ s, s ≠ .initial → ∃ s', f s = .ok s' ∧ s' ≠ .initial

theorem blockMap_extend (l : List Abbrev) : BlockMap (Scope.extendAbbrevs l) :=
  ⟨⟨_, rfl⟩, fun s hs => by cases s with
    | initial => exact absurd rfl hs
    | block w id b l' => exact ⟨_, rfl, by simp⟩⟩

theorem blockMap_setBid (b : U64) : BlockMap (Scope.setBlockinfoBlockId b) :=
  ⟨⟨_, rfl⟩, fun s hs => by cases s with
    | initial => exact absurd rfl hs
    | block w id b l' => exact ⟨_, rfl, by simp⟩⟩

theorem pgood_scopeMut {f : Scope → Out BErr Scope} (hf : BlockMap f) : PGood A 0 (Parser.scopeMut f) := by
  intro p hp
  obtain ⟨s, rest, hs, -⟩ := scope_ok hp
  simp only [Parser.scopeMut, hs]
  by_cases hi : s = .initial
  · obtain ⟨e, he⟩ := hf.1
    rw [hi, he]
    exact PStep.refl hp (by simp) (by simp)
  · obtain ⟨s', he, hs'⟩ := hf.2 s hi
    rw [he]
    refine ⟨.rfl', ⟨hp.cur, ?_⟩, Nat.le_refl _, fun _ h => h, by simp, by simp, fun _ _ => Nat.le_refl _⟩
    have := hp.stack; rw [hs] at this
    exact this.replace hi hs'

theorem pgood_withCapacity (n : U64) : PGood (StreamPanic pf) 0 (withCapacity n : PM Unit) := by
  unfold withCapacity
  split
  · exact PGood.panic (.inr (.inr (.inl rfl))) 0
  · exact PGood.pure ()

theorem pgood_pushScope {s : Scope} (hs : s ≠ .initial) : PGood A 0 (Parser.pushScope s) := by
  intro p hp
  exact ⟨.rfl', ⟨hp.cur, hp.stack.push hs⟩, Nat.le_refl _, fun _ h => h, by simp [Parser.pushScope, StM.modify],
    by simp [Parser.pushScope, StM.modify], fun _ _ => Nat.le_refl _⟩

theorem pgood_pushBlockinfo (id : U64) (a : Abbrev) : PGood A 0 (Parser.pushBlockinfo id a) := by
  intro p hp
  exact ⟨.rfl', ⟨hp.cur, hp.stack⟩, Nat.le_refl _, fun _ h => h, by simp [Parser.pushBlockinfo, StM.modify],
    by simp [Parser.pushBlockinfo, StM.modify], fun _ _ => Nat.le_refl _⟩

/-- The value read by `read(32)` is below 2^32, so `* 4` never overflows. -/
theorem read_value_lt {c : Cursor} (h : Inv c) {n : Nat} {v : U64} {c' : Cursor} (hr : Cursor.read n c = (.ok v, c')) :
    v.toNat < 2 ^ n ∧ 1 ≤ n ∧ n ≤ 63 := by
  rcases read_cases h n with ⟨-, e⟩ | ⟨g1, g2, -, x, c₁, e, -, -, hx, -⟩ | ⟨-, -, -, e⟩ | ⟨-, -, -, -, c₁, e, -⟩
  · rw [e] at hr; simp at hr
  · rw [e] at hr; simp at hr
    refine ⟨?_, g1, g2⟩
    rw [← hr.1, hx]
    refine Nat.lt_of_lt_of_le (natOfBits_lt _) (Nat.pow_le_pow_right (by omega) ?_)
    simp; omega
  · rw [e] at hr; simp at hr
  · rw [e] at hr; simp at hr

theorem onCursor_cur_ok {m : CurM α} {p p' : Parser} {a : α} (h : Parser.onCursor (cur m) p = (.ok a, p')) :
    m p.cursor = (.ok a, p'.cursor) ∧ p'.scopes = p.scopes ∧ p'.blockinfo = p.blockinfo := by
  simp only [Parser.onCursor, cur, StM.mapErr, Prod.mk.injEq] at h
  obtain ⟨h1, rfl⟩ := h
  refine ⟨?_, rfl, rfl⟩
  match hm : m p.cursor with
  | (.ok x, c) => rw [hm] at h1; simp at h1; rw [h1]
  | (.err e, c) => rw [hm] at h1; simp at h1
  | (.panic q, c) => rw [hm] at h1; simp at h1
  | (.diverge, c) => rw [hm] at h1; simp at h1

theorem mul4_ok {pf : Profile} {x : U64} (h : x.toNat < 2 ^ 32) : Parser.mul4 pf x = pure (x * 4) := by
  simp only [Parser.mul4]; rw [if_pos (by omega)]

theorem pgood_lenAnd {k : U64 → PM α} (hk : ∀ x, PGood A 0 (k x)) :
    PGood A 32 (do let words ← Parser.onCursor (cur (Cursor.read 32)); let l ← Parser.mul4 pf words; k l) := by
  intro p hp
  refine (pgood_onCursor (good_cur (good_read 32 A)) p hp).bind (j := 0) fun a p' hr => ?_
  have hv := (read_value_lt hp.cur (onCursor_cur_ok hr).1).1
  rw [mul4_ok hv]
  have hinv := (pgood_onCursor (good_cur (good_read 32 A)) p hp).inv
  rw [hr] at hinv
  exact hk _ p' hinv

theorem pgood_enterBlock : PGood (StreamPanic pf) 0 (Parser.enterBlock pf) := by
  unfold Parser.enterBlock
  refine ((pgood_onCursor (good_vbr 8)).bind0 fun blockId => ?_).weaken (Nat.zero_le _)
  refine ((pgood_onCursor (good_vbr 4)).bind0 fun w => ?_).weaken (Nat.zero_le _)
  refine (pgood_onCursor (good_alignB _)).bind0 fun _ => ?_
  split
  · exact PGood.throw _ _
  · refine (pgood_lenAnd fun len => ?_).weaken (Nat.zero_le _)
    refine (pgood_pushScope (by simp [Scope.new])).bind0 fun _ => PGood.get.bind0 fun q => ?_
    have hend : PGood (StreamPanic pf) 0 (do
        let s ← Parser.scope
        if s.isBlockinfo then pure none
        else pure (some (StreamEntry.subBlock { blockId := blockId, len := len }))) := by
      refine pgood_scope.bind0 fun s => ?_
      split <;> exact PGood.pure _
    split
    · exact (pgood_scopeMut (blockMap_extend _)).bind0 fun _ => hend
    · exact (PGood.pure ()).bind0 fun _ => hend

theorem pgood_exitBlock : PGood A 0 Parser.exitBlock := by
  unfold Parser.exitBlock
  refine (pgood_onCursor (good_alignB _)).bind0 fun _ => ?_
  intro p hp
  rw [StM.bind_ok (show StM.get p = (.ok p, p) from rfl)]
  match hs : p.scopes with
  | [] => exact PGood.throw _ _ p hp
  | [s] => exact PGood.throw _ _ p hp
  | s :: a :: rest =>
    simp only
    have hst := hp.stack
    rw [hs] at hst
    have hset : PStep A 0 p ((StM.set { p with scopes := a :: rest } : PM Unit) p) :=
      ⟨.rfl', ⟨hp.cur, hst.pop⟩, Nat.le_refl _, fun _ h => h, by simp [StM.set],
        by simp [StM.set], fun _ _ => Nat.le_refl _⟩
    refine hset.bind (j := 0) fun _ p' he => ?_
    have hp' := hset.inv
    rw [he] at hp'
    split <;> exact PGood.pure _ p' hp'

theorem pgood_defineAbbrev : PGood (StreamPanic pf) 0 (Parser.defineAbbrev pf) := by
  unfold Parser.defineAbbrev
  refine (pgood_onCursor good_abbrevNew).bind0 fun a => pgood_scope.bind0 fun s => ?_
  split
  · split
    · exact PGood.throw _ _
    · exact pgood_pushBlockinfo _ _
  · exact pgood_scopeMut (blockMap_extend _)

theorem good_readVbr6s (n : Nat) : Good (StreamPanic pf) 0 (Parser.readVbr6s pf n) := by
  induction n with
  | zero => exact Good.pure _
  | succ n ih => exact ((good_vbr 6).bind0 fun _ => ih.bind0 fun _ => Good.pure _).weaken (Nat.zero_le _)

theorem pgood_blockInfoCode (v : U64) : PGood A 0 (Parser.BlockInfoCode.tryFrom v) := by
  unfold Parser.BlockInfoCode.tryFrom
  repeat' split
  all_goals first | exact PGood.pure _ | exact PGood.throw _ _

theorem pgood_parseUnabbrev : PGood (StreamPanic pf) 0 (Parser.parseUnabbrev pf) := by
  unfold Parser.parseUnabbrev
  refine pgood_scope.bind0 fun s => ?_
  split
  · exact PGood.throw _ _
  · refine ((pgood_onCursor (good_vbr 6)).bind0 fun code => ?_).weaken (Nat.zero_le _)
    refine ((pgood_onCursor (good_vbr 6)).bind0 fun n => ?_).weaken (Nat.zero_le _)
    refine (pgood_withCapacity n).bind0 fun _ => (pgood_onCursor (good_readVbr6s _)).bind0 fun fields => ?_
    refine pgood_scope.bind0 fun s => ?_
    split
    · refine (pgood_blockInfoCode code).bind0 fun c => ?_
      cases c
      · cases fields with
        | nil => exact PGood.panic (.inr (.inr (.inr (.inl rfl)))) 0
        | cons b _ => exact (pgood_scopeMut (blockMap_setBid b)).bind0 fun _ => PGood.pure _
      · exact PGood.pure _
      · exact PGood.pure _
    · exact PGood.pure _

/-- Abbreviation ids passed to `get_abbrev` are at least 4, so the subtraction never underflows. -/
theorem pgood_getAbbrev {s : Scope} {id : U64} (hid : 4 ≤ id.toNat) :
    PGood A 0 (StM.lift (s.getAbbrev pf id)) := by
  intro p hp
  have : s.getAbbrev pf id = .err (.badScope .noRecords) ∨ ∃ a, s.getAbbrev pf id = .ok a ∨ s.getAbbrev pf id = .err (.badAbbrev id) := by
    cases s with
    | initial => exact .inl rfl
    | block w i b l =>
      simp only [Scope.getAbbrev]
      rw [if_neg (by omega)]
      cases h : l[(id - 4).toNat]? with
      | none => right; exact ⟨⟨[]⟩, .inr rfl⟩
      | some a => right; exact ⟨a, .inl rfl⟩
  rcases this with h | ⟨a, h | h⟩ <;> rw [h] <;> exact PStep.refl hp (by simp) (by simp)

theorem pgood_parseWithAbbrev {id : U64} (hid : 4 ≤ id.toNat) :
    PGood (StreamPanic pf) 0 (Parser.parseWithAbbrev pf id) := by
  unfold Parser.parseWithAbbrev
  refine pgood_scope.bind0 fun s => (pgood_getAbbrev hid).bind0 fun a => ?_
  refine (pgood_onCursor (good_parseFields _)).bind0 fun fields => ?_
  cases fields with
  | nil => exact PGood.panic (.inr (.inr (.inr (.inr rfl)))) 0
  | cons code fields =>
    refine pgood_scope.bind0 fun s => ?_
    split <;> exact PGood.pure _

/-- One round of `advance` consumes at least one bit when it succeeds. -/
theorem pgood_step : PGood (StreamPanic pf) 1 (Parser.step pf) := by
  intro p hp
  unfold Parser.step
  rw [StM.bind_ok (show StM.get p = (.ok p, p) from rfl)]
  split
  · exact PGood.throw _ _ p hp
  · obtain ⟨s, rest, hs, hsc⟩ := scope_ok hp
    rw [StM.bind_ok hsc]
    have hg := pgood_onCursor (A := StreamPanic pf) (good_cur (good_read s.abbrevIdWidth.toNat (StreamPanic pf))) p hp
    by_cases hw : 1 ≤ s.abbrevIdWidth.toNat
    · have hg1 : PStep (StreamPanic pf) 1 p _ := ⟨hg.same, hg.inv, hg.mono, hg.word, hg.nodiv, hg.panics,
        fun a ha => by have := hg.eats a ha; omega⟩
      refine hg1.bind (j := 0) fun id p' hr => ?_
      have hp' := hg.inv
      rw [hr] at hp'
      have key : ∀ k : U64, ¬ id = k → id.toNat ≠ k.toNat := fun k hk hc => hk (BitVec.eq_of_toNat_eq hc)
      split
      · exact pgood_exitBlock p' hp'
      · split
        · exact pgood_enterBlock p' hp'
        · split
          · exact pgood_defineAbbrev.bind0 (fun _ => PGood.pure _) p' hp'
          · split
            · exact pgood_parseUnabbrev p' hp'
            · next h0 h1 h2 h3 =>
              refine pgood_parseWithAbbrev ?_ p' hp'
              have e0 := key _ h0
              have e1 := key _ h1
              have e2 := key _ h2
              have e3 := key _ h3
              simp at e0 e1 e2 e3
              omega
    · have h0 : s.abbrevIdWidth.toNat = 0 := by omega
      rw [h0]
      have hr : Parser.onCursor (cur (Cursor.read 0)) p = (.err (.cursor .invalidReadSize), p) := by
        simp [Parser.onCursor, cur, StM.mapErr, read_invalid p.cursor (n := 0) (.inl rfl)]
      rw [StM.bind_err hr]
      exact ⟨.rfl', hp, Nat.le_refl _, fun _ h => h, by simp, by simp, by simp⟩

theorem psteps_advanceFuel (fuel : Nat) {p : Parser} (hp : PInv p) (hf : p.cursor.rest.length < fuel) :
    PStep (StreamPanic pf) 1 p (Parser.advanceFuel pf fuel p) := by
  induction fuel generalizing p with
  | zero => omega
  | succ fuel ih =>
    simp only [Parser.advanceFuel]
    have hs := pgood_step (pf := pf) p hp
    refine hs.bind (j := 0) fun r p' hr => ?_
    rw [hr] at hs
    cases r with
    | some e => exact PGood.pure _ p' hs.inv
    | none =>
      have h1 := hs.eats _ rfl
      have hl := rest_length hp.cur
      have hl' := rest_length hs.inv.cur
      have htl := tellBit_le hs.inv.cur
      have hb : p'.cursor.byteLen = p.cursor.byteLen := hs.same.2
      simp only at h1 hl' htl
      have := ih hs.inv (by rw [hl', hb]; rw [hb] at htl; omega)
      exact ⟨this.same, this.inv, this.mono, this.word, this.nodiv, this.panics,
        fun a ha => Nat.le_trans (Nat.le_add_right _ 1) (this.eats a ha)⟩

theorem pstep_advance {p : Parser} (hp : PInv p) : PStep (StreamPanic pf) 1 p (Parser.advance pf p) := by
  refine psteps_advanceFuel _ hp ?_
  rw [rest_length hp.cur]; simp only [bitLen]; omega

/-- Enough fuel is enough. -/
theorem advanceFuel_stable (n m : Nat) {p : Parser} (hp : PInv p) (hn : p.cursor.rest.length < n)
    (hm : p.cursor.rest.length < m) : Parser.advanceFuel pf n p = Parser.advanceFuel pf m p := by
  induction n generalizing m p with
  | zero => omega
  | succ n ih =>
    cases m with
    | zero => omega
    | succ m =>
      simp only [Parser.advanceFuel]
      have hs := pgood_step (pf := pf) p hp
      simp only [StM.bind_apply]
      match hr : Parser.step pf p with
      | (.ok (some e), p') => rfl
      | (.ok none, p') =>
        rw [hr] at hs
        have h1 := hs.eats _ rfl
        have hl := rest_length hp.cur
        have hl' := rest_length hs.inv.cur
        have htl := tellBit_le hs.inv.cur
        have hb : p'.cursor.byteLen = p.cursor.byteLen := hs.same.2
        simp only at h1 hl' htl
        rw [hb] at htl hl'
        exact ih m hs.inv (by omega) (by omega)
      | (.err e, p') => rfl
      | (.panic q, p') => rfl
      | (.diverge, p') => rfl

/-- `advance` without fuel: as the Rust code is written. -/
theorem advance_unfold {p : Parser} (hp : PInv p) :
    Parser.advance pf p = match Parser.step pf p with
      | (.ok (some e), p') => (.ok e, p')
      | (.ok none, p') => Parser.advance pf p'
      | (.err e, p') => (.err e, p')
      | (.panic q, p') => (.panic q, p')
      | (.diverge, p') => (.diverge, p') := by
  have hs := pgood_step (pf := pf) p hp
  have hl := rest_length hp.cur
  conv => lhs; simp only [Parser.advance, Parser.advanceFuel]
  simp only [StM.bind_apply]
  match hr : Parser.step pf p with
  | (.ok (some e), p') => rfl
  | (.ok none, p') =>
    rw [hr] at hs
    have h1 := hs.eats _ rfl
    have hl' := rest_length hs.inv.cur
    have htl := tellBit_le hs.inv.cur
    have hb : p'.cursor.byteLen = p.cursor.byteLen := hs.same.2
    simp only at h1 hl' htl
    simp only [Parser.advance]
    refine advanceFuel_stable _ _ hs.inv ?_ ?_
    · rw [hl', hb]; rw [hb] at htl; simp only [bitLen]; omega
    · rw [hl']; simp only [bitLen]; omega
  | (.err e, p') => rfl
  | (.panic q, p') => rfl
  | (.diverge, p') => rfl

end
end Verif
