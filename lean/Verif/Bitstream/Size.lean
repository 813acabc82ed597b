import Verif.Bitstream.Run

/-!
How many fields a record can have: never more than the bits read so far.
-/

set_option linter.unusedSimpArgs false

namespace Verif
open Spec Cursor Parser

/-- If `m` succeeds with a list, it has consumed at least one bit per element, but for `k` of them. -/
def Grows {α : Type} (k : Nat) (m : BM (List α)) : Prop :=
  ∀ c c' xs, c.Inv → m c = (.ok xs, c') → c'.Inv ∧ c.tellBit + xs.length ≤ c'.tellBit + k

/-- A successful action that eats at least one bit. -/
def Eats {α : Type} (m : BM α) : Prop :=
  ∀ c c' a, c.Inv → m c = (.ok a, c') → c'.Inv ∧ c.tellBit + 1 ≤ c'.tellBit

/-- A successful action keeps the invariant and does not go back. -/
def Moves {α : Type} (m : BM α) : Prop :=
  ∀ c c' a, c.Inv → m c = (.ok a, c') → c'.Inv ∧ c.tellBit ≤ c'.tellBit

theorem Eats.moves {α : Type} {m : BM α} (h : Eats m) : Moves m := fun c c' a hc hm => by
  have := h c c' a hc hm
  exact ⟨this.1, by omega⟩

theorem moves_of_good {α : Type} {A : PanicSite → Prop} {k : Nat} {m : BM α} (h : Good A k m) : Moves m := by
  intro c c' a hc hm
  have hs := h c hc
  rw [hm] at hs
  exact ⟨hs.inv, hs.mono⟩

theorem eats_of_good {α : Type} {A : PanicSite → Prop} {k : Nat} {m : BM α} (h : Good A k m) (hk : 1 ≤ k) : Eats m := by
  intro c c' a hc hm
  have hs := h c hc
  rw [hm] at hs
  have := hs.eats a rfl
  exact ⟨hs.inv, by simp only at this; omega⟩

theorem cur_ok {α : Type} {m : CurM α} {c c' : Cursor} {a : α} (h : cur m c = (.ok a, c')) : m c = (.ok a, c') := by
  simp only [cur, StM.mapErr, Prod.mk.injEq] at h
  obtain ⟨h1, rfl⟩ := h
  match hm : m c with
  | (.ok x, c₁) => rw [hm] at h1; simp at h1; rw [h1]
  | (.err e, c₁) => rw [hm] at h1; simp at h1
  | (.panic q, c₁) => rw [hm] at h1; simp at h1
  | (.diverge, c₁) => rw [hm] at h1; simp at h1

theorem eats_vbr (pf : Profile) (w : Nat) : Eats (cur (readVbr pf w)) := by
  by_cases hw : 2 ≤ w
  · exact eats_of_good (good_vbr (pf := pf) w) (by omega)
  · intro c c' a _ h
    have := cur_ok h
    simp only [readVbr] at this
    rw [if_pos (by omega)] at this
    simp at this

theorem eats_readAs (t : IntTy) (w : Nat) : Eats (cur (readAs t w)) := by
  intro c c' a hc h
  have hr := cur_ok h
  have h1 : 1 ≤ w := by
    simp only [readAs] at hr
    match hm : Cursor.read w c with
    | (.ok v, c₁) => exact (read_value_lt hc hm).2.1
    | (.err e, c₁) => rw [hm] at hr; simp at hr
    | (.panic q, c₁) => rw [hm] at hr; simp at hr
    | (.diverge, c₁) => rw [hm] at hr; simp at hr
  exact eats_of_good (good_cur (good_readAs t w (fun _ => True))) h1 c c' a hc h

theorem grows_pure {α : Type} (xs : List α) : Grows xs.length (pure xs : BM (List α)) := by
  intro c c' ys hc h
  obtain ⟨rfl, rfl⟩ := pure_inv h
  exact ⟨hc, Nat.le_refl _⟩

theorem Moves.grows {α β : Type} {k : Nat} {m : BM α} (hm : Moves m) {f : α → BM (List β)} (hf : ∀ a, Grows k (f a)) :
    Grows k (m >>= f) := by
  intro c c' xs hc h
  obtain ⟨a, c₁, h1, h2⟩ := bind_inv h
  obtain ⟨hi, hle⟩ := hm _ _ _ hc h1
  obtain ⟨hi', hle'⟩ := hf a _ _ _ hi h2
  exact ⟨hi', by omega⟩

theorem Eats.grows {α β : Type} {k : Nat} {m : BM α} (hm : Eats m) {f : α → BM (List β)} (hf : ∀ a, Grows (k + 1) (f a)) :
    Grows k (m >>= f) := by
  intro c c' xs hc h
  obtain ⟨a, c₁, h1, h2⟩ := bind_inv h
  obtain ⟨hi, hle⟩ := hm _ _ _ hc h1
  obtain ⟨hi', hle'⟩ := hf a _ _ _ hi h2
  exact ⟨hi', by omega⟩

/-- One after the other. -/
theorem Grows.append {α : Type} {k j : Nat} {m n : BM (List α)} (hm : Grows k m) (hn : Grows j n) :
    Grows (k + j) (do let xs ← m; let ys ← n; pure (xs ++ ys)) := by
  intro c c' zs hc h
  obtain ⟨xs, c₁, h1, h⟩ := bind_inv h
  obtain ⟨ys, c₂, h2, h⟩ := bind_inv h
  obtain ⟨rfl, rfl⟩ := pure_inv h
  obtain ⟨hi, hle⟩ := hm _ _ _ hc h1
  obtain ⟨hi', hle'⟩ := hn _ _ _ hi h2
  exact ⟨hi', by rw [List.length_append]; omega⟩

theorem Grows.weaken {α : Type} {k j : Nat} {m : BM (List α)} (h : Grows k m) (hj : k ≤ j) : Grows j m := by
  intro c c' xs hc hm
  have := h _ _ _ hc hm
  exact ⟨this.1, by omega⟩

theorem grows_repeat {body : BM (List U64)} (h : Grows 0 body) (n : Nat) : Grows 0 (repeatFields body n) := by
  induction n with
  | zero => exact grows_pure []
  | succ n ih => exact h.append ih

theorem grows_elem (pf : Profile) {op : AbbrevOp} (h : op.isElem) : Grows 0 (op.parse pf) := by
  cases op with
  | vbr w => exact (eats_vbr pf _).grows fun v => grows_pure [v]
  | fixed w => exact (eats_readAs _ _).grows fun v => grows_pure [v]
  | char6 =>
    refine (eats_readAs _ _).grows fun v => ?_
    refine Moves.grows (m := decodeChar6 v) ?_ fun v => grows_pure [v]
    intro c c' a hc h
    cases hb : char6Alphabet[v.toNat]? with
    | some b =>
      simp only [decodeChar6, hb] at h
      obtain ⟨-, rfl⟩ := pure_inv h
      exact ⟨hc, Nat.le_refl _⟩
    | none =>
      simp only [decodeChar6, hb] at h
      exact (panic_inv h).elim
  | literal v => exact h.elim
  | array e => exact h.elim
  | blob => exact h.elim

theorem moves_capacity (n : U64) : Moves (withCapacity n : BM Unit) := moves_of_good (good_withCapacity (pf := .debug) n)

theorem moves_align : Moves align := moves_of_good (good_alignB fun _ => True)

theorem grows_scalar (pf : Profile) {op : AbbrevOp} (h : op.isScalar) : Grows 1 (op.parse pf) := by
  cases op with
  | literal v => exact grows_pure [v]
  | vbr w => exact (grows_elem pf (op := .vbr w) trivial).weaken (by omega)
  | fixed w => exact (grows_elem pf (op := .fixed w) trivial).weaken (by omega)
  | char6 => exact (grows_elem pf (op := .char6) trivial).weaken (by omega)
  | array e => exact h.elim
  | blob => exact h.elim

theorem grows_last (pf : Profile) {op : AbbrevOp} (h : op.isLast) : Grows 1 (op.parse pf) := by
  cases op with
  | literal v => exact grows_pure [v]
  | vbr w => exact grows_scalar pf trivial
  | fixed w => exact grows_scalar pf trivial
  | char6 => exact grows_scalar pf trivial
  | array e =>
    refine ((eats_vbr pf 6).moves.grows fun n => (moves_capacity n).grows fun _ => ?_ : Grows 0 _).weaken (by omega)
    exact grows_repeat (grows_elem pf h) _
  | blob =>
    refine ((eats_vbr pf 6).moves.grows fun n => moves_align.grows fun _ => (moves_capacity n).grows fun _ => ?_ :
      Grows 0 _).weaken (by omega)
    intro c c' xs hc h
    obtain ⟨ys, c₁, h1, h⟩ := bind_inv h
    obtain ⟨_, c₂, h2, h⟩ := bind_inv h
    obtain ⟨rfl, rfl⟩ := pure_inv h
    have hb : Grows 0 (repeatFields (do let b ← cur (Cursor.readExact .u8); pure [b]) n.toNat) :=
      grows_repeat ((eats_of_good (good_cur (good_readExact .u8 (fun _ => True))) (by decide)).grows fun v => grows_pure [v]) _
    obtain ⟨hi, hle⟩ := hb _ _ _ hc h1
    obtain ⟨hi', hle'⟩ := moves_align _ _ _ hi h2
    exact ⟨hi', by omega⟩

/-- An abbreviation with `n` operands gives at most `n` more fields than it takes bits. -/
theorem grows_fields (pf : Profile) (ops : List AbbrevOp) (h : OpsWF ops) : Grows ops.length (parseFields pf ops) := by
  induction ops with
  | nil => exact h.elim
  | cons op ops ih =>
    cases ops with
    | nil =>
      have hl : op.isLast := h
      exact (grows_last pf hl).append (grows_pure [])
    | cons op' ops =>
      have := (grows_scalar pf h.1).append (ih h.2)
      refine this.weaken ?_
      simp only [List.length_cons]; omega

theorem grows_vbr6s (pf : Profile) (n : Nat) : Grows 0 (readVbr6s pf n) := by
  induction n with
  | zero => exact grows_pure []
  | succ n ih =>
    intro c c' xs hc h
    simp only [readVbr6s] at h
    obtain ⟨a, c₁, h1, h⟩ := bind_inv h
    obtain ⟨ys, c₂, h2, h⟩ := bind_inv h
    obtain ⟨rfl, rfl⟩ := pure_inv h
    obtain ⟨hi, hle⟩ := eats_vbr pf 6 _ _ _ hc h1
    obtain ⟨hi', hle'⟩ := ih _ _ _ hi h2
    exact ⟨hi', by rw [List.length_cons]; omega⟩

/-- The definition of an abbreviation takes at least one bit per operand. -/
theorem grows_operands (pf : Profile) (num : U64) (h1 : 1 ≤ num.toNat) (n : Nat) : Grows 0 (parseOperands pf num n) := by
  induction n with
  | zero => exact grows_pure []
  | succ n ih =>
    simp only [parseOperands]
    refine Eats.grows (eats_of_good (good_cur (good_read 1 (fun _ => True))) (by decide)) fun k => ?_
    split
    · refine (eats_vbr pf 8).moves.grows fun v => ?_
      intro c c' xs hc h
      obtain ⟨ys, c₂, h2, h⟩ := bind_inv h
      obtain ⟨rfl, rfl⟩ := pure_inv h
      obtain ⟨hi, hle⟩ := ih _ _ _ hc h2
      exact ⟨hi, by rw [List.length_cons]; omega⟩
    · refine (moves_of_good (good_parseEncodedOperand (pf := pf) num _ h1)).grows fun r => ?_
      obtain ⟨op, d⟩ := r
      cases d
      · intro c c' xs hc h
        simp only [Bool.false_eq_true, if_false] at h
        obtain ⟨ys, c₂, h2, h⟩ := bind_inv h
        obtain ⟨rfl, rfl⟩ := pure_inv h
        obtain ⟨hi, hle⟩ := ih _ _ _ hc h2
        exact ⟨hi, by rw [List.length_cons]; omega⟩
      · exact grows_pure [op]

theorem abbrevNew_size {pf : Profile} {c c' : Cursor} {a : Abbrev} (hc : c.Inv) (h : Abbrev.new pf c = (.ok a, c')) :
    a.operands.length ≤ c'.tellBit := by
  unfold Abbrev.new at h
  obtain ⟨num, c₁, h1, h⟩ := bind_inv h
  split at h
  · exact (throw_inv h).elim
  · next hn =>
    obtain ⟨ops, c₂, hops, h⟩ := bind_inv h
    obtain ⟨rfl, rfl⟩ := pure_inv h
    rw [BitVec.lt_def] at hn
    simp at hn
    obtain ⟨hi, -⟩ := eats_vbr pf 5 _ _ _ hc h1
    have := (grows_operands pf num (by omega) _ _ _ _ hi hops).2
    simp only
    omega

/-! ## The parser -/

def Scope.abbrevs : Scope → List Abbrev
  | .initial => []
  | .block _ _ _ l => l

/-- All abbreviations are well-formed and have at most `n` operands. -/
def Small (n : Nat) (sc : List Scope) (info : Info) : Prop :=
  (∀ s ∈ sc, ∀ a ∈ s.abbrevs, OpsWF a.operands ∧ a.operands.length ≤ n) ∧
  ∀ k l, info k = some l → ∀ a ∈ l, OpsWF a.operands ∧ a.operands.length ≤ n

theorem Small.mono {n m : Nat} {sc : List Scope} {info : Info} (h : Small n sc info) (hm : n ≤ m) : Small m sc info :=
  ⟨fun s hs a ha => ⟨(h.1 s hs a ha).1, Nat.le_trans (h.1 s hs a ha).2 hm⟩,
   fun k l hl a ha => ⟨(h.2 k l hl a ha).1, Nat.le_trans (h.2 k l hl a ha).2 hm⟩⟩

/-- The abbreviations of a parser are small. -/
def Parser.Small (p : Parser) : Prop := Verif.Small p.cursor.tellBit p.scopes p.blockinfo

theorem onCursor_inv {α : Type} {m : BM α} {p p' : Parser} {a : α} (h : onCursor m p = (.ok a, p')) :
    m p.cursor = (.ok a, p'.cursor) ∧ p'.scopes = p.scopes ∧ p'.blockinfo = p.blockinfo := by
  simp only [onCursor, Prod.mk.injEq] at h
  obtain ⟨h1, rfl⟩ := h
  exact ⟨Prod.ext h1 rfl, rfl, rfl⟩

theorem scope_bind_inv {α : Type} {f : Scope → PM α} {p p' : Parser} {b : α} (h : (scope >>= f) p = (.ok b, p')) :
    ∃ s rest, p.scopes = s :: rest ∧ f s p = (.ok b, p') := by
  obtain ⟨s, q, h1, h2⟩ := bind_inv h
  obtain ⟨rest, hs, hq⟩ := scope_inv h1
  rw [hq] at h2
  exact ⟨s, rest, hs, h2⟩

theorem Keeps.inv {α : Type} {m : PM α} (hm : Keeps m) {p p' : Parser} {a : α} (h : m p = (.ok a, p')) :
    p'.scopes = p.scopes ∧ p'.blockinfo = p.blockinfo := by
  have := hm p
  rw [h] at this
  exact this

theorem PGood.inv {α : Type} {A : PanicSite → Prop} {k : Nat} {m : PM α} (hm : PGood A k m) {p p' : Parser} {a : α}
    (hp : PInv p) (h : m p = (.ok a, p')) : PInv p' ∧ p.cursor.tellBit + k ≤ p'.cursor.tellBit := by
  have hs := hm p hp
  rw [h] at hs
  exact ⟨hs.inv, hs.eats _ rfl⟩

theorem small_exitBlock {p p' : Parser} {r : Option StreamEntry} (hp : PInv p) (hs : p.Small)
    (h : exitBlock p = (.ok r, p')) : p'.Small ∧ ∀ x, r ≠ some (.record x) := by
  have hm := (pgood_exitBlock (A := fun _ => True)).inv hp h
  unfold exitBlock at h
  obtain ⟨_, p₁, h1, h⟩ := bind_inv h
  obtain ⟨-, e1, e2⟩ := onCursor_inv h1
  rw [get_bind] at h
  match hsc : p₁.scopes with
  | [] => rw [hsc] at h; exact (throw_inv h).elim
  | [s] => rw [hsc] at h; exact (throw_inv h).elim
  | s :: a :: rest =>
    rw [hsc] at h
    simp only at h
    rw [StM.bind_ok (show (StM.set { p₁ with scopes := a :: rest } : PM Unit) p₁ = (.ok (), _) from rfl)] at h
    have hsm : Verif.Small p'.cursor.tellBit (a :: rest) p₁.blockinfo := by
      have := hs.mono hm.2
      rw [e1] at hsc
      refine ⟨fun t ht => this.1 t (by rw [hsc]; exact List.mem_cons_of_mem _ ht), by rw [e2]; exact this.2⟩
    split at h
    · obtain ⟨rfl, rfl⟩ := pure_inv h
      exact ⟨hsm, by simp⟩
    · obtain ⟨rfl, rfl⟩ := pure_inv h
      exact ⟨hsm, by simp⟩

theorem enterBlock_inv {pf : Profile} {p p' : Parser} {r : Option StreamEntry} (h : enterBlock pf p = (.ok r, p')) :
    (∃ id w, p'.scopes = .block w id none ((p.blockinfo id).getD []) :: p.scopes) ∧ p'.blockinfo = p.blockinfo ∧
      ∀ x, r ≠ some (.record x) := by
  unfold enterBlock at h
  obtain ⟨id, p₁, h1, h⟩ := bind_inv h
  obtain ⟨w, p₂, h2, h⟩ := bind_inv h
  obtain ⟨_, p₃, h3, h⟩ := bind_inv h
  split at h
  · exact (throw_inv h).elim
  · obtain ⟨n, p₄, h4, h⟩ := bind_inv h
    obtain ⟨len, p₅, h5, h⟩ := bind_inv h
    have e1 := (keeps_onCursor _).inv h1
    have e2 := (keeps_onCursor _).inv h2
    have e3 := (keeps_onCursor _).inv h3
    have e4 := (keeps_onCursor _).inv h4
    have e5 := (keeps_mul4 _ _).inv h5
    have hsc : p₅.scopes = p.scopes := by rw [e5.1, e4.1, e3.1, e2.1, e1.1]
    have hin : p₅.blockinfo = p.blockinfo := by rw [e5.2, e4.2, e3.2, e2.2, e1.2]
    rw [StM.bind_ok (show pushScope (Scope.new w id) p₅ =
        (.ok (), { p₅ with scopes := Scope.new w id :: p₅.scopes }) from rfl), get_bind] at h
    have fin : ∀ q : Parser, ((do
        let s ← scope
        if s.isBlockinfo then pure none
        else pure (some (StreamEntry.subBlock { blockId := id, len := len })) : PM (Option StreamEntry)) q) = (.ok r, p') →
        p' = q ∧ ∀ x, r ≠ some (.record x) := by
      intro q hq
      obtain ⟨s, q₁, h1, h2⟩ := bind_inv hq
      obtain ⟨_, _, hqq⟩ := scope_inv h1
      split at h2
      · obtain ⟨rfl, rfl⟩ := pure_inv h2; exact ⟨hqq, by simp⟩
      · obtain ⟨rfl, rfl⟩ := pure_inv h2; exact ⟨hqq, by simp⟩
    simp only at h
    cases hb : p₅.blockinfo id with
    | none =>
      rw [hb] at h
      obtain ⟨rfl, hx⟩ := fin _ h
      rw [hin] at hb
      exact ⟨⟨id, w, by simp only [Scope.new, hsc, hb, Option.getD_none]⟩, hin, hx⟩
    | some l =>
      rw [hb] at h
      obtain ⟨rfl, hx⟩ := fin { p₅ with scopes := .block w id none ([] ++ l) :: p₅.scopes } h
      rw [hin] at hb
      exact ⟨⟨id, w, by simp only [hsc, hb, Option.getD_some, List.nil_append]⟩, hin, hx⟩

theorem small_enterBlock {pf : Profile} {p p' : Parser} {r : Option StreamEntry} (hp : PInv p) (hs : p.Small)
    (h : enterBlock pf p = (.ok r, p')) : p'.Small ∧ ∀ x, r ≠ some (.record x) := by
  have hm := (pgood_enterBlock (pf := pf)).inv hp h
  have hs' := hs.mono hm.2
  obtain ⟨⟨id, w, h1⟩, h2, h3⟩ := enterBlock_inv h
  refine ⟨⟨fun s hsm a ha => ?_, by rw [h2]; exact hs'.2⟩, h3⟩
  rw [h1, List.mem_cons] at hsm
  rcases hsm with rfl | hsm
  · simp only [Scope.abbrevs] at ha
    cases hb : p.blockinfo id with
    | none => rw [hb] at ha; cases ha
    | some l => rw [hb] at ha; exact hs'.2 _ _ hb a ha
  · exact hs'.1 s hsm a ha

theorem small_defineAbbrev {pf : Profile} {p p' : Parser} (hp : PInv p) (hs : p.Small)
    (h : defineAbbrev pf p = (.ok (), p')) : p'.Small := by
  have hm := (pgood_defineAbbrev (pf := pf)).inv hp h
  have hs' := hs.mono hm.2
  unfold defineAbbrev at h
  obtain ⟨a, p₁, h1, h⟩ := bind_inv h
  obtain ⟨ha, e1, e2⟩ := onCursor_inv h1
  obtain ⟨s, rest, hsc, h⟩ := scope_bind_inv h
  have hwf := abbrevNew_wf ha
  have hsz := abbrevNew_size hp.cur ha
  split at h
  · cases hb : s.blockinfoBlockId with
    | none => rw [hb] at h; exact (throw_inv h).elim
    | some id =>
      rw [hb] at h
      simp only [pushBlockinfo, StM.modify, Prod.mk.injEq, true_and] at h
      subst h
      refine ⟨by simp only [e1]; exact hs'.1, fun k l hl x hx => ?_⟩
      simp only at hl
      rw [e2] at hl
      split at hl
      · cases hl
        rcases List.mem_append.1 hx with hx | hx
        · cases hi : p.blockinfo id with
          | none => rw [hi] at hx; cases hx
          | some l => rw [hi] at hx; exact hs'.2 _ _ hi x hx
        · rw [List.mem_singleton] at hx
          subst hx
          exact ⟨hwf, hsz⟩
      · exact hs'.2 _ _ hl x hx
  · cases s with
    | initial => simp [scopeMut, hsc, Scope.extendAbbrevs] at h
    | block w id bid l =>
      simp only [scopeMut, hsc, Scope.extendAbbrevs, Prod.mk.injEq, true_and] at h
      subst h
      refine ⟨fun t ht x hx => ?_, by simp only [e2]; exact hs'.2⟩
      rw [e1] at hsc
      simp only [List.mem_cons] at ht
      rcases ht with rfl | ht
      · simp only [Scope.abbrevs, List.mem_append, List.mem_singleton] at hx
        rcases hx with hx | rfl
        · exact hs'.1 (.block w id bid l) (by rw [hsc]; simp) x hx
        · exact ⟨hwf, hsz⟩
      · exact hs'.1 t (by rw [hsc]; exact List.mem_cons_of_mem _ ht) x hx

theorem small_parseUnabbrev {pf : Profile} {p p' : Parser} {r : Option StreamEntry} (hp : PInv p) (hs : p.Small)
    (h : parseUnabbrev pf p = (.ok r, p')) :
    p'.Small ∧ ∀ x, r = some (.record x) → x.fields.length < p'.cursor.tellBit := by
  have hm := (pgood_parseUnabbrev (pf := pf)).inv hp h
  have hs' := hs.mono hm.2
  unfold parseUnabbrev at h
  obtain ⟨s, rest, hsc, h⟩ := scope_bind_inv h
  split at h
  · exact (throw_inv h).elim
  · obtain ⟨code, p₂, h2, h⟩ := bind_inv h
    obtain ⟨n, p₃, h3, h⟩ := bind_inv h
    obtain ⟨_, p₄, h4, h⟩ := bind_inv h
    obtain ⟨fields, p₅, h5, h⟩ := bind_inv h
    obtain ⟨s', rest', hsc', h⟩ := scope_bind_inv h
    obtain ⟨c2, e2⟩ := onCursor_inv h2
    obtain ⟨c3, e3⟩ := onCursor_inv h3
    have e4 := (keeps_withCapacity _).inv h4
    obtain ⟨c5, e5⟩ := onCursor_inv h5
    have hk : p₅.scopes = p.scopes ∧ p₅.blockinfo = p.blockinfo :=
      ⟨by rw [e5.1, e4.1, e3.1, e2.1], by rw [e5.2, e4.2, e3.2, e2.2]⟩
    have m2 := eats_vbr pf 6 _ _ _ hp.cur c2
    have m3 := eats_vbr pf 6 _ _ _ m2.1 c3
    have h34 : p₄.cursor = p₃.cursor := by
      unfold withCapacity at h4
      split at h4
      · exact (panic_inv h4).elim
      · rw [(pure_inv h4).2]
    rw [h34] at c5
    have m5 := grows_vbr6s pf _ _ _ _ m3.1 c5
    split at h
    · obtain ⟨bc, p₇, h7, h⟩ := bind_inv h
      have e7 := (keeps_tryFrom _).inv h7
      cases bc with
      | setBid =>
        cases fields with
        | nil => exact (panic_inv h).elim
        | cons t ts =>
          simp only at h
          obtain ⟨_, p₈, h8, h⟩ := bind_inv h
          obtain ⟨rfl, hpp⟩ := pure_inv h
          subst hpp
          refine ⟨?_, by simp⟩
          cases s' with
          | initial => simp [scopeMut, e7.1, hsc', Scope.setBlockinfoBlockId] at h8
          | block w id bid l =>
            simp only [scopeMut, e7.1, hsc', Scope.setBlockinfoBlockId, Prod.mk.injEq, true_and] at h8
            subst h8
            refine ⟨fun t ht x hx => ?_, by simp only [e7.2, hk.2]; exact hs'.2⟩
            simp only [List.mem_cons] at ht
            rcases ht with rfl | ht
            · exact hs'.1 (.block w id bid l) (by rw [← hk.1, hsc']; simp) x hx
            · exact hs'.1 t (by rw [← hk.1, hsc']; exact List.mem_cons_of_mem _ ht) x hx
      | blockName =>
        obtain ⟨rfl, hpp⟩ := pure_inv h
        subst hpp
        exact ⟨by unfold Parser.Small; rw [e7.1, e7.2, hk.1, hk.2]; exact hs', by simp⟩
      | setRecordName =>
        obtain ⟨rfl, hpp⟩ := pure_inv h
        subst hpp
        exact ⟨by unfold Parser.Small; rw [e7.1, e7.2, hk.1, hk.2]; exact hs', by simp⟩
    · obtain ⟨rfl, hpp⟩ := pure_inv h
      subst hpp
      refine ⟨by unfold Parser.Small; rw [hk.1, hk.2]; exact hs', fun x hx => ?_⟩
      simp only [Option.some.injEq, StreamEntry.record.injEq] at hx
      subst hx
      simp only
      omega

theorem small_parseWithAbbrev {pf : Profile} {n : U64} (hn : 4 ≤ n.toNat) {p p' : Parser} {r : Option StreamEntry}
    (hp : PInv p) (hs : p.Small) (h : parseWithAbbrev pf n p = (.ok r, p')) :
    p'.Small ∧ ∀ x, r = some (.record x) → x.fields.length < p'.cursor.tellBit := by
  have hm := (pgood_parseWithAbbrev (pf := pf) hn).inv hp h
  have hs' := hs.mono hm.2
  unfold parseWithAbbrev at h
  obtain ⟨s, rest, hsc, h⟩ := scope_bind_inv h
  obtain ⟨a, p₁, h1, h⟩ := bind_inv h
  have h2 : s.getAbbrev pf n = .ok a ∧ p = p₁ := by
    simpa [StM.lift_apply] using h1
  obtain ⟨hga, hpp⟩ := h2
  rw [← hpp] at h
  obtain ⟨fields, p₂, h3, h⟩ := bind_inv h
  obtain ⟨c3, e3⟩ := onCursor_inv h3
  have hmem : a ∈ s.abbrevs := by
    cases s with
    | initial => simp [Scope.getAbbrev] at hga
    | block w id bid l =>
      simp only [Scope.getAbbrev] at hga
      rw [if_neg (by omega), toNat_sub4 hn] at hga
      cases hl : l[n.toNat - 4]? with
      | none => rw [hl] at hga; simp at hga
      | some b =>
        rw [hl] at hga
        simp only [Out.ofOption, Out.ok.injEq] at hga
        subst hga
        exact List.mem_of_getElem? hl
  obtain ⟨hwf, hsz⟩ := hs.1 s (by rw [hsc]; simp) a hmem
  have hg := grows_fields pf a.operands hwf _ _ _ hp.cur c3
  cases fields with
  | nil => exact (panic_inv h).elim
  | cons code fields =>
    simp only at h
    obtain ⟨s', _, -, h⟩ := scope_bind_inv h
    split at h
    · obtain ⟨rfl, hpp⟩ := pure_inv h
      subst hpp
      exact ⟨by unfold Parser.Small; rw [e3.1, e3.2]; exact hs', by simp⟩
    · obtain ⟨rfl, hpp⟩ := pure_inv h
      subst hpp
      refine ⟨by unfold Parser.Small; rw [e3.1, e3.2]; exact hs', fun x hx => ?_⟩
      simp only [Option.some.injEq, StreamEntry.record.injEq] at hx
      subst hx
      have := hg.2
      simp only [List.length_cons] at this ⊢
      omega

theorem small_step {pf : Profile} {p : Parser} (hp : PInv p) (hs : p.Small) :
    (Parser.step pf p).2.Small ∧ ∀ x, (Parser.step pf p).1 = .ok (some (.record x)) →
      x.fields.length < (Parser.step pf p).2.cursor.tellBit := by
  have hg := pgood_step (pf := pf) p hp
  have he := eff_step pf p
  have fail : (∀ a, (Parser.step pf p).1 ≠ .ok a) → (Parser.step pf p).2.Small := by
    intro hx
    have hs' := hs.mono hg.mono
    unfold Eff at he
    generalize (Parser.step pf p).1 = r at *
    unfold Parser.Small
    generalize (Parser.step pf p).2.cursor.tellBit = t at *
    generalize (Parser.step pf p).2.scopes = sc at *
    generalize (Parser.step pf p).2.blockinfo = info at *
    cases he with
    | fail => exact hs'
    | enter => exact absurd rfl (hx _)
    | exit => exact absurd rfl (hx _)
    | define => exact absurd rfl (hx _)
    | register => exact absurd rfl (hx _)
    | setBid => exact absurd rfl (hx _)
    | ignore => exact absurd rfl (hx _)
    | record => exact absurd rfl (hx _)
  match hr : Parser.step pf p with
  | (.err e, p') => rw [hr] at fail; exact ⟨fail (by simp), by simp⟩
  | (.panic e, p') => rw [hr] at fail; exact ⟨fail (by simp), by simp⟩
  | (.diverge, p') => rw [hr] at fail; exact ⟨fail (by simp), by simp⟩
  | (.ok r, p') =>
    simp only [Out.ok.injEq]
    unfold Parser.step at hr
    rw [get_bind] at hr
    split at hr
    · exact (throw_inv hr).elim
    · obtain ⟨s, _, -, hr⟩ := scope_bind_inv hr
      obtain ⟨id, p₁, h1, hr⟩ := bind_inv hr
      obtain ⟨c1, e1⟩ := onCursor_inv h1
      have hi := (pgood_onCursor (good_cur (good_read s.abbrevIdWidth.toNat fun _ => True))).inv hp h1
      have hs1 : p₁.Small := by
        unfold Parser.Small
        rw [e1.1, e1.2]
        exact hs.mono (by omega)
      have key : ∀ k : U64, ¬ id = k → id.toNat ≠ k.toNat := fun k hk hc => hk (BitVec.eq_of_toNat_eq hc)
      split at hr
      · obtain ⟨g1, g2⟩ := small_exitBlock hi.1 hs1 hr
        exact ⟨g1, fun x hx => absurd hx (g2 x)⟩
      · split at hr
        · obtain ⟨g1, g2⟩ := small_enterBlock hi.1 hs1 hr
          exact ⟨g1, fun x hx => absurd hx (g2 x)⟩
        · split at hr
          · obtain ⟨⟨⟩, p₂, h2, hr⟩ := bind_inv hr
            obtain ⟨rfl, hpp⟩ := pure_inv hr
            subst hpp
            exact ⟨small_defineAbbrev hi.1 hs1 h2, by simp⟩
          · split at hr
            · exact small_parseUnabbrev hi.1 hs1 hr
            · next h0 h1 h2 h3 =>
              refine small_parseWithAbbrev ?_ hi.1 hs1 hr
              have e0 := key _ h0
              have e1 := key _ h1
              have e2 := key _ h2
              have e3 := key _ h3
              simp at e0 e1 e2 e3
              omega

theorem small_rounds {pf : Profile} {p q : Parser} (h : Rounds pf p q) (hp : PInv p) (hs : p.Small) : q.Small := by
  induction h with
  | refl => exact hs
  | step h _ ih =>
    have h1 := (pgood_step (pf := pf) _ hp).inv
    have h2 := (small_step (pf := pf) hp hs).1
    rw [h] at h1 h2
    exact ih h1 h2

theorem small_next {pf : Profile} {b : Bitstream} (hp : PInv b.parser) (hs : b.parser.Small) :
    (Bitstream.next pf b).2.parser.Small ∧ ∀ x, (Bitstream.next pf b).1 = .item (.record x) →
      x.fields.length < (Bitstream.next pf b).2.pos := by
  obtain ⟨q, hr, hq, hne, he⟩ := advance_rounds (pf := pf) hp
  obtain ⟨g1, g2⟩ := small_step (pf := pf) hq (small_rounds hr hp hs)
  unfold Bitstream.next Bitstream.advance
  rw [he]
  match hst : Parser.step pf q with
  | (.ok (some e), p') =>
    rw [hst] at g1 g2
    refine ⟨g1, fun x hx => g2 x ?_⟩
    simp only [finish, Bitstream.Next.item.injEq] at hx
    rw [hx]
  | (.ok none, p') => rw [hst] at hne; simp at hne
  | (.err e, p') => rw [hst] at g1; cases e <;> exact ⟨g1, by simp [finish]⟩
  | (.panic e, p') => rw [hst] at g1; exact ⟨g1, by simp [finish]⟩
  | (.diverge, p') => rw [hst] at g1; exact ⟨g1, by simp [finish]⟩

theorem small_new (c : Cursor) : (Parser.new c).Small := by
  refine ⟨fun s hs a ha => ?_, by simp [Parser.new]⟩
  simp only [Parser.new, List.mem_singleton] at hs
  subst hs
  cases ha

end Verif
