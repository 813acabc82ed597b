import Verif.Bitstream.KeptSpec
import Verif.Props.Sizes
import Verif.Props.Depth
import Verif.Props.Slack

/-!
# Property C84: how much the reader keeps

Vocabulary: `Verif/Bitstream/KeptSpec.lean` (`openBlocks`, `openOperands`, `registeredOperands`), `Verif/Bitstream/RunSpec.lean`
(`Reach`, `iterate`).
-/

set_option linter.unusedSimpArgs false

namespace Verif
open Spec Cursor Parser

theorem operandCount_append (l m : List Abbrev) : operandCount (l ++ m) = operandCount l + operandCount m := by
  simp [operandCount]

/-- What is kept for block ids. -/
def regCount (info : Info) (ids : List U64) : Nat := (ids.map fun id => operandCount ((info id).getD [])).sum

/-- What is kept is at most `n` for each open block and for all that is registered, and there is an open block for 44 bits. -/
structure Frugal (n : Nat) (sc : List Scope) (info : Info) : Prop where
  each : ∀ s ∈ sc, operandCount s.abbrevs ≤ n
  reg : ∀ ids : List U64, ids.Nodup → regCount info ids ≤ n
  depth : 44 * sc.length ≤ n + 44

theorem Frugal.mono {n m : Nat} {sc : List Scope} {info : Info} (h : Frugal n sc info) (hm : n ≤ m) : Frugal m sc info :=
  ⟨fun s hs => Nat.le_trans (h.each s hs) hm, fun ids hi => Nat.le_trans (h.reg ids hi) hm, by have := h.depth; omega⟩

theorem Frugal.one {n : Nat} {sc : List Scope} {info : Info} (h : Frugal n sc info) (id : U64) :
    operandCount ((info id).getD []) ≤ n := by
  have := h.reg [id] (by simp)
  simpa [regCount] using this

/-- The relation for a parser. -/
def Parser.Frugal (p : Parser) : Prop := Verif.Frugal p.cursor.tellBit p.scopes p.blockinfo

theorem abbrevNew_cost {pf : Profile} {c c' : Cursor} {a : Abbrev} (hc : c.Inv) (h : Abbrev.new pf c = (.ok a, c')) :
    c.tellBit + a.operands.length ≤ c'.tellBit := by
  unfold Abbrev.new at h
  obtain ⟨num, c₁, h1, h⟩ := bind_inv h
  split at h
  · exact (throw_inv h).elim
  · next hn =>
    obtain ⟨ops, c₂, hops, h⟩ := bind_inv h
    obtain ⟨rfl, rfl⟩ := pure_inv h
    rw [BitVec.lt_def] at hn
    simp at hn
    obtain ⟨hi, hle⟩ := eats_vbr pf 5 _ _ _ hc h1
    have := (grows_operands pf num (by omega) _ _ _ _ hi hops).2
    simp only
    omega

theorem regCount_push (info : Info) (t : U64) (a : Abbrev) : ∀ ids : List U64, ids.Nodup →
    regCount (fun k => if k = t then some ((info t).getD [] ++ [a]) else info k) ids ≤ regCount info ids + a.operands.length := by
  intro ids
  have away : ∀ ids : List U64, t ∉ ids →
      regCount (fun k => if k = t then some ((info t).getD [] ++ [a]) else info k) ids = regCount info ids := by
    intro ids
    induction ids with
    | nil => intro _; rfl
    | cons id ids ih =>
      intro ht
      simp only [List.mem_cons, not_or] at ht
      have := ih ht.2
      simp only [regCount, List.map_cons, List.sum_cons] at this ⊢
      rw [this, if_neg (Ne.symm ht.1)]
  induction ids with
  | nil => intro _; simp [regCount]
  | cons id ids ih =>
    intro hn
    obtain ⟨h1, h2⟩ := List.nodup_cons.1 hn
    by_cases hid : id = t
    · subst hid
      have := away ids h1
      simp only [regCount, List.map_cons, List.sum_cons] at this ⊢
      rw [this, if_pos trivial, Option.getD_some, operandCount_append]
      simp only [operandCount, List.map_cons, List.map_nil, List.sum_cons, List.sum_nil]
      omega
    · have := ih h2
      simp only [regCount, List.map_cons, List.sum_cons] at this ⊢
      rw [if_neg hid]
      omega

theorem frugal_exitBlock {p p' : Parser} {r : Option StreamEntry} (hp : PInv p) (hs : p.Frugal)
    (h : exitBlock p = (.ok r, p')) : p'.Frugal := by
  have hm := (pgood_exitBlock (A := fun _ => True)).inv hp h
  unfold exitBlock at h
  obtain ⟨_, p₁, h1, h⟩ := bind_inv h
  obtain ⟨-, e1, e2⟩ := onCursor_inv h1
  rw [get_bind] at h
  match hsc : p₁.scopes with
  | [] => rw [hsc] at h; exact (throw_inv h).elim
  | [s] => rw [hsc] at h; exact (throw_inv h).elim
  | s :: a :: rest =>
    rw [hsc] at h
    simp only at h
    rw [StM.bind_ok (show (StM.set { p₁ with scopes := a :: rest } : PM Unit) p₁ = (.ok (), _) from rfl)] at h
    have hsm : Verif.Frugal p'.cursor.tellBit (a :: rest) p₁.blockinfo := by
      have := hs.mono hm.2
      rw [e1] at hsc
      refine ⟨fun t ht => this.each t (by rw [hsc]; exact List.mem_cons_of_mem _ ht), by rw [e2]; exact this.reg, ?_⟩
      have := this.depth
      rw [hsc, List.length_cons] at this
      omega
    split at h
    · obtain ⟨rfl, rfl⟩ := pure_inv h
      exact hsm
    · obtain ⟨rfl, rfl⟩ := pure_inv h
      exact hsm

/-- Entering a block takes 44 bits. -/
theorem enterBlock_cost {pf : Profile} {p p' : Parser} {r : Option StreamEntry} (hp : PInv p)
    (h : enterBlock pf p = (.ok r, p')) : p.cursor.tellBit + 44 ≤ p'.cursor.tellBit := by
  unfold enterBlock at h
  obtain ⟨id, p₁, h1, h⟩ := bind_inv h
  obtain ⟨w, p₂, h2, h⟩ := bind_inv h
  obtain ⟨_, p₃, h3, h⟩ := bind_inv h
  have g1 := (pgood_onCursor (good_vbr (pf := pf) 8)).inv hp h1
  have g2 := (pgood_onCursor (good_vbr (pf := pf) 4)).inv g1.1 h2
  have g3 := (pgood_onCursor (good_alignB fun _ => True)).inv g2.1 h3
  split at h
  · exact (throw_inv h).elim
  · obtain ⟨n, p₄, h4, h⟩ := bind_inv h
    have g4 := (pgood_onCursor (good_cur (good_read 32 fun _ => True))).inv g3.1 h4
    obtain ⟨len, p₅, h5, h⟩ := bind_inv h
    have h45 : p₅.cursor = p₄.cursor := by
      unfold mul4 at h5
      split at h5
      · rw [(pure_inv h5).2]
      · split at h5
        · exact (panic_inv h5).elim
        · rw [(pure_inv h5).2]
    rw [StM.bind_ok (show pushScope (Scope.new w id) p₅ =
        (.ok (), { p₅ with scopes := Scope.new w id :: p₅.scopes }) from rfl), get_bind] at h
    have fin : ∀ q : Parser, ((do
        let s ← scope
        if s.isBlockinfo then pure none
        else pure (some (StreamEntry.subBlock { blockId := id, len := len })) : PM (Option StreamEntry)) q) = (.ok r, p') →
        p' = q := by
      intro q hq
      obtain ⟨s, q₁, h1, h2⟩ := bind_inv hq
      obtain ⟨_, _, hqq⟩ := scope_inv h1
      split at h2
      · obtain ⟨rfl, rfl⟩ := pure_inv h2; exact hqq
      · obtain ⟨rfl, rfl⟩ := pure_inv h2; exact hqq
    simp only at h
    have hc : p'.cursor = p₅.cursor := by
      cases hb : p₅.blockinfo id with
      | none => rw [hb] at h; rw [fin _ h]
      | some l => rw [hb] at h; rw [fin { p₅ with scopes := .block w id none ([] ++ l) :: p₅.scopes } h]
    rw [hc, h45]
    omega

theorem frugal_enterBlock {pf : Profile} {p p' : Parser} {r : Option StreamEntry} (hp : PInv p) (hs : p.Frugal)
    (h : enterBlock pf p = (.ok r, p')) : p'.Frugal := by
  have hc := enterBlock_cost hp h
  have hs' : Verif.Frugal _ _ _ := hs.mono (Nat.le_trans (Nat.le_add_right _ 44) hc)
  obtain ⟨⟨id, w, h1⟩, h2, -⟩ := enterBlock_inv h
  refine ⟨fun s hsm => ?_, by rw [h2]; exact hs'.reg, ?_⟩
  · rw [h1, List.mem_cons] at hsm
    rcases hsm with rfl | hsm
    · exact hs'.one id
    · exact hs'.each s hsm
  · have : 44 * p.scopes.length ≤ p.cursor.tellBit + 44 := hs.depth
    rw [h1, List.length_cons]
    omega

theorem frugal_defineAbbrev {pf : Profile} {p p' : Parser} (hp : PInv p) (hs : p.Frugal)
    (h : defineAbbrev pf p = (.ok (), p')) : p'.Frugal := by
  unfold defineAbbrev at h
  obtain ⟨a, p₁, h1, h⟩ := bind_inv h
  obtain ⟨ha, e1, e2⟩ := onCursor_inv h1
  obtain ⟨s, rest, hsc, h⟩ := scope_bind_inv h
  have hsz := abbrevNew_cost hp.cur ha
  have hs' : Verif.Frugal p₁.cursor.tellBit p.scopes p.blockinfo := hs.mono (by omega)
  split at h
  · cases hb : s.blockinfoBlockId with
    | none => rw [hb] at h; exact (throw_inv h).elim
    | some id =>
      rw [hb] at h
      simp only [pushBlockinfo, StM.modify, Prod.mk.injEq, true_and] at h
      subst h
      refine ⟨by simp only [e1]; exact hs'.each, fun ids hn => ?_, by simp only [e1]; exact hs'.depth⟩
      simp only [e2]
      have h1 := regCount_push p.blockinfo id a ids hn
      have h2 : _ ≤ p.cursor.tellBit := hs.reg ids hn
      omega
  · cases s with
    | initial => simp [scopeMut, hsc, Scope.extendAbbrevs] at h
    | block w id bid l =>
      simp only [scopeMut, hsc, Scope.extendAbbrevs, Prod.mk.injEq, true_and] at h
      subst h
      rw [e1] at hsc
      refine ⟨fun t ht => ?_, by simp only [e2]; exact hs'.reg, ?_⟩
      · simp only [List.mem_cons] at ht
        rcases ht with rfl | ht
        · have h2 : operandCount l ≤ p.cursor.tellBit := hs.each (.block w id bid l) (by rw [hsc]; simp)
          simp only [Scope.abbrevs, operandCount_append]
          simp only [operandCount, List.map_cons, List.map_nil, List.sum_cons, List.sum_nil] at h2 ⊢
          omega
        · exact hs'.each t (by rw [hsc]; exact List.mem_cons_of_mem _ ht)
      · have := hs'.depth
        rw [hsc] at this
        exact this

theorem frugal_parseUnabbrev {pf : Profile} {p p' : Parser} {r : Option StreamEntry} (hp : PInv p) (hs : p.Frugal)
    (h : parseUnabbrev pf p = (.ok r, p')) : p'.Frugal := by
  have hm := (pgood_parseUnabbrev (pf := pf)).inv hp h
  have hs' : Verif.Frugal p'.cursor.tellBit p.scopes p.blockinfo := hs.mono hm.2
  unfold parseUnabbrev at h
  obtain ⟨s, rest, hsc, h⟩ := scope_bind_inv h
  split at h
  · exact (throw_inv h).elim
  · obtain ⟨code, p₂, h2, h⟩ := bind_inv h
    obtain ⟨n, p₃, h3, h⟩ := bind_inv h
    obtain ⟨_, p₄, h4, h⟩ := bind_inv h
    obtain ⟨fields, p₅, h5, h⟩ := bind_inv h
    obtain ⟨s', rest', hsc', h⟩ := scope_bind_inv h
    obtain ⟨-, e2⟩ := onCursor_inv h2
    obtain ⟨-, e3⟩ := onCursor_inv h3
    have e4 := (keeps_withCapacity _).inv h4
    obtain ⟨-, e5⟩ := onCursor_inv h5
    have hk : p₅.scopes = p.scopes ∧ p₅.blockinfo = p.blockinfo :=
      ⟨by rw [e5.1, e4.1, e3.1, e2.1], by rw [e5.2, e4.2, e3.2, e2.2]⟩
    split at h
    · obtain ⟨bc, p₇, h7, h⟩ := bind_inv h
      have e7 := (keeps_tryFrom _).inv h7
      cases bc with
      | setBid =>
        cases fields with
        | nil => exact (panic_inv h).elim
        | cons t ts =>
          simp only at h
          obtain ⟨_, p₈, h8, h⟩ := bind_inv h
          obtain ⟨rfl, hpp⟩ := pure_inv h
          subst hpp
          cases s' with
          | initial => simp [scopeMut, e7.1, hsc', Scope.setBlockinfoBlockId] at h8
          | block w id bid l =>
            simp only [scopeMut, e7.1, hsc', Scope.setBlockinfoBlockId, Prod.mk.injEq, true_and] at h8
            subst h8
            refine ⟨fun t ht => ?_, by simp only [e7.2, hk.2]; exact hs'.reg, ?_⟩
            · simp only [List.mem_cons] at ht
              rcases ht with rfl | ht
              · exact hs'.each (.block w id bid l) (by rw [← hk.1, hsc']; simp)
              · exact hs'.each t (by rw [← hk.1, hsc']; exact List.mem_cons_of_mem _ ht)
            · have := hs'.depth
              rw [← hk.1, hsc'] at this
              exact this
      | blockName =>
        obtain ⟨rfl, hpp⟩ := pure_inv h
        subst hpp
        unfold Parser.Frugal; rw [e7.1, e7.2, hk.1, hk.2]; exact hs'
      | setRecordName =>
        obtain ⟨rfl, hpp⟩ := pure_inv h
        subst hpp
        unfold Parser.Frugal; rw [e7.1, e7.2, hk.1, hk.2]; exact hs'
    · obtain ⟨rfl, hpp⟩ := pure_inv h
      subst hpp
      unfold Parser.Frugal; rw [hk.1, hk.2]; exact hs'

theorem frugal_parseWithAbbrev {pf : Profile} {n : U64} (hn : 4 ≤ n.toNat) {p p' : Parser} {r : Option StreamEntry}
    (hp : PInv p) (hs : p.Frugal) (h : parseWithAbbrev pf n p = (.ok r, p')) : p'.Frugal := by
  have hm := (pgood_parseWithAbbrev (pf := pf) hn).inv hp h
  have hs' : Verif.Frugal p'.cursor.tellBit p.scopes p.blockinfo := hs.mono hm.2
  unfold parseWithAbbrev at h
  obtain ⟨s, rest, hsc, h⟩ := scope_bind_inv h
  obtain ⟨a, p₁, h1, h⟩ := bind_inv h
  have e1 := (keeps_lift _).inv h1
  obtain ⟨fields, p₂, h3, h⟩ := bind_inv h
  obtain ⟨-, e3⟩ := onCursor_inv h3
  cases fields with
  | nil => exact (panic_inv h).elim
  | cons code fields =>
    simp only at h
    obtain ⟨s', _, -, h⟩ := scope_bind_inv h
    split at h <;>
    · obtain ⟨rfl, hpp⟩ := pure_inv h
      subst hpp
      unfold Parser.Frugal; rw [e3.1, e3.2, e1.1, e1.2]; exact hs'

theorem frugal_step {pf : Profile} {p : Parser} (hp : PInv p) (hs : p.Frugal) : (Parser.step pf p).2.Frugal := by
  have hg := pgood_step (pf := pf) p hp
  have he := eff_step pf p
  have fail : (∀ a, (Parser.step pf p).1 ≠ .ok a) → (Parser.step pf p).2.Frugal := by
    intro hx
    have hs' := hs.mono hg.mono
    unfold Eff at he
    generalize (Parser.step pf p).1 = r at *
    unfold Parser.Frugal
    generalize (Parser.step pf p).2.cursor.tellBit = t at *
    generalize (Parser.step pf p).2.scopes = sc at *
    generalize (Parser.step pf p).2.blockinfo = info at *
    cases he with
    | fail => exact hs'
    | enter => exact absurd rfl (hx _)
    | exit => exact absurd rfl (hx _)
    | define => exact absurd rfl (hx _)
    | register => exact absurd rfl (hx _)
    | setBid => exact absurd rfl (hx _)
    | ignore => exact absurd rfl (hx _)
    | record => exact absurd rfl (hx _)
  match hr : Parser.step pf p with
  | (.err e, p') => rw [hr] at fail; exact fail (by simp)
  | (.panic e, p') => rw [hr] at fail; exact fail (by simp)
  | (.diverge, p') => rw [hr] at fail; exact fail (by simp)
  | (.ok r, p') =>
    simp only
    unfold Parser.step at hr
    rw [get_bind] at hr
    split at hr
    · exact (throw_inv hr).elim
    · obtain ⟨s, _, -, hr⟩ := scope_bind_inv hr
      obtain ⟨id, p₁, h1, hr⟩ := bind_inv hr
      obtain ⟨c1, e1⟩ := onCursor_inv h1
      have hi := (pgood_onCursor (good_cur (good_read s.abbrevIdWidth.toNat fun _ => True))).inv hp h1
      have hs1 : p₁.Frugal := by
        unfold Parser.Frugal
        rw [e1.1, e1.2]
        exact hs.mono (by omega)
      have key : ∀ k : U64, ¬ id = k → id.toNat ≠ k.toNat := fun k hk hc => hk (BitVec.eq_of_toNat_eq hc)
      split at hr
      · exact frugal_exitBlock hi.1 hs1 hr
      · split at hr
        · exact frugal_enterBlock hi.1 hs1 hr
        · split at hr
          · obtain ⟨⟨⟩, p₂, h2, hr⟩ := bind_inv hr
            obtain ⟨rfl, hpp⟩ := pure_inv hr
            subst hpp
            exact frugal_defineAbbrev hi.1 hs1 h2
          · split at hr
            · exact frugal_parseUnabbrev hi.1 hs1 hr
            · next h0 h1 h2 h3 =>
              refine frugal_parseWithAbbrev ?_ hi.1 hs1 hr
              have e0 := key _ h0
              have e1 := key _ h1
              have e2 := key _ h2
              have e3 := key _ h3
              simp at e0 e1 e2 e3
              omega

theorem frugal_rounds {pf : Profile} {p q : Parser} (h : Rounds pf p q) (hp : PInv p) (hs : p.Frugal) : q.Frugal := by
  induction h with
  | refl => exact hs
  | step h _ ih =>
    have h1 := (pgood_step (pf := pf) _ hp).inv
    have h2 := frugal_step (pf := pf) hp hs
    rw [h] at h1 h2
    exact ih h1 h2

theorem frugal_next {pf : Profile} {b : Bitstream} (hp : PInv b.parser) (hs : b.parser.Frugal) :
    (Bitstream.next pf b).2.parser.Frugal := by
  obtain ⟨q, hr, hq, hne, he⟩ := advance_rounds (pf := pf) hp
  have g1 := frugal_step (pf := pf) hq (frugal_rounds hr hp hs)
  unfold Bitstream.next Bitstream.advance
  rw [he]
  match hst : Parser.step pf q with
  | (.ok (some e), p') => rw [hst] at g1; exact g1
  | (.ok none, p') => rw [hst] at hne; simp at hne
  | (.err e, p') => rw [hst] at g1; cases e <;> exact g1
  | (.panic e, p') => rw [hst] at g1; exact g1
  | (.diverge, p') => rw [hst] at g1; exact g1

theorem reach_frugal {pf : Profile} {b : Bitstream} (h : Reach pf b) : PInv b.parser ∧ b.parser.Frugal := by
  induction h with
  | opened h =>
    obtain ⟨h0, h1, h2⟩ := h.start
    refine ⟨h0, fun s hs => ?_, fun ids _ => ?_, by rw [h1]; simp⟩
    · rw [h1, List.mem_singleton] at hs
      subst hs
      exact Nat.zero_le _
    · rw [h2]
      have : ∀ ids : List U64, regCount (fun _ => none) ids = 0 := by
        intro ids
        induction ids with
        | nil => rfl
        | cons id ids ih => simp only [regCount, List.map_cons, List.sum_cons] at ih ⊢; rw [ih]; rfl
      rw [this]
      exact Nat.zero_le _
  | next _ ih => exact ⟨next_pinv ih.1, frugal_next ih.1 ih.2⟩

theorem stack_sum {n : Nat} : ∀ {sc : List Scope}, StackOK sc → (∀ s ∈ sc, operandCount s.abbrevs ≤ n) →
    (sc.map fun s => operandCount s.abbrevs).sum ≤ (sc.length - 1) * n
  | [], h, _ => h.elim
  | [s], h, _ => by
    have h : s = .initial := h
    subst h
    simp [Scope.abbrevs, operandCount]
  | s :: t :: rest, h, hs => by
    have ih := stack_sum (sc := t :: rest) h.2 fun x hx => hs x (List.mem_cons_of_mem _ hx)
    have h1 := hs s (by simp)
    simp only [List.map_cons, List.sum_cons, List.length_cons, Nat.add_sub_cancel] at ih ⊢
    rw [Nat.succ_mul]
    omega

namespace Props

/-- C84. What is kept for all block ids together is at most one operand for each bit read so far. -/
theorem C84_registered (pf : Profile) {b : Bitstream} (h : Reach pf b) (ids : List U64) (hn : ids.Nodup) :
    b.registeredOperands ids ≤ b.pos := (reach_frugal h).2.reg ids hn

/-- C84. What is kept for the open blocks is at most as many operands for each as bits have been read so far. -/
theorem C84_open (pf : Profile) {b : Bitstream} (h : Reach pf b) : b.openOperands ≤ b.openBlocks * b.pos :=
  stack_sum (reach_frugal h).1.stack (reach_frugal h).2.each

/-- C84. At least 44 bits have been read for each open block. -/
theorem C84_depth (pf : Profile) {b : Bitstream} (h : Reach pf b) : 44 * b.openBlocks ≤ b.pos := by
  have := (reach_frugal h).2.depth
  unfold Bitstream.openBlocks Bitstream.pos
  omega

/-- C84 as far as it is true: what is kept is at most the square of what has been read so far, and not proportional to it. -/
theorem C84_total_partial (pf : Profile) {b : Bitstream} (h : Reach pf b) (ids : List U64) (hn : ids.Nodup) :
    44 * (b.openOperands + b.registeredOperands ids) ≤ b.pos * b.pos + 44 * b.pos := by
  have h1 := C84_registered pf h ids hn
  have h2 := C84_open pf h
  have h3 := Nat.mul_le_mul_right b.pos (C84_depth pf h)
  rw [Nat.mul_assoc] at h3
  omega

/-! ### Streams for which a lot is kept -/

/-- SETBID 13, in a BLOCKINFO of width 2. -/
def setBits : List Bool := bitsOfNat 2 3 ++ (rawVbr 6 [1] ++ (rawVbr 6 [1] ++ rawVbr 6 [13]))

/-- The definition of an abbreviation of one literal. -/
def litBits : List Bool := bitsOfNat 2 2 ++ (rawVbr 5 [1] ++ (true :: rawVbr 8 [0]))

def litDef : Def := { scalars := [.lit 0], tail := .nothing }

/-- In BLOCKINFO, `n` abbreviations registered for block 13. -/
def litCtx (k : Ctx) (n : Nat) : Ctx :=
  { width := 2, block := some 0, defs := k.info 0, target := some 13,
    info := fun x => if x = 13 then k.info 13 ++ List.replicate n litDef else k.info x }

theorem set_item (pf : Profile) (k : Ctx) (outer : List Ctx) (pos : Nat) :
    Item pf toWord (k.enter 0 2) outer pos setBits [] (litCtx k 0) outer := by
  have hi := Item.unabbrev (pf := pf) (pad := toWord) (k := k.enter 0 2) (k' := litCtx k 0) (outer := outer) (pos := pos)
    (code := 1) (fields := [13]) (i := bitsOfNat 2 3) (c := rawVbr 6 [1]) (n := rawVbr 6 [1]) (f := rawVbr 6 [13])
    (idBits_iff.2 ⟨(by decide : 1 ≤ (2 : U64).toNat), (by decide : (2 : U64).toNat ≤ 63), (by decide : (3 : U64).toNat < 2 ^ (2 : U64).toNat),
      rfl⟩) ⟨[1], by simp, by simp, rfl, by rw [if_pos (by decide)]; rfl⟩
    ⟨by decide, [1], by simp, by simp, rfl, by rw [if_pos (by decide)]; rfl⟩
    ⟨rawVbr 6 [13], [], by simp, ⟨[13], by simp, by simp, rfl, by rw [if_pos (by decide)]; rfl⟩, rfl⟩ ?_
  · exact hi
  · simp only [Ctx.unabbrev, Ctx.enter, litCtx, List.replicate_zero, List.append_nil]
    simp
    funext x
    split
    · next h => rw [h]
    · rfl

theorem lit_item (pf : Profile) (k : Ctx) (n : Nat) (outer : List Ctx) (pos : Nat) :
    Item pf toWord (litCtx k n) outer pos litBits [] (litCtx k (n + 1)) outer := by
  refine Item.define (d := litDef) (i := bitsOfNat 2 2) (idBits_iff.2 ⟨(by decide : 1 ≤ (2 : U64).toNat),
    (by decide : (2 : U64).toNat ≤ 63), (by decide : (2 : U64).toNat < 2 ^ (2 : U64).toNat), rfl⟩) ⟨?_, rawVbr 5 [1], true :: rawVbr 8 [0], [], by simp, ?_, ?_, rfl⟩ ?_
  · decide
  · exact ⟨[1], by simp, by simp, rfl, by rw [if_pos (by decide)]; rfl⟩
  · exact ⟨true :: rawVbr 8 [0], [], by simp, ⟨rawVbr 8 [0], rfl, [0], by simp, by simp, rfl, by rw [if_pos (by decide)]; rfl⟩, rfl⟩
  · simp only [Ctx.define, litCtx]
    simp [List.replicate_succ']
    funext x
    split <;> rfl

theorem lit_stream (pf : Profile) (k : Ctx) (outer : List Ctx) (m : Nat) : ∀ (n pos : Nat),
    Stream pf toWord (litCtx k n) outer pos (List.replicate m litBits).flatten [] (litCtx k (n + m)) outer := by
  induction m with
  | zero => intro n pos; exact .nil
  | succ m ih =>
    intro n pos
    have := Stream.cons (lit_item pf k n outer pos) (ih (n + 1) (pos + litBits.length))
    rw [show n + 1 + m = n + (m + 1) by omega] at this
    exact this

/-- What is kept for the block of a context. -/
def ctxOperands (k : Ctx) : Nat := operandCount (topScope k).abbrevs

/-- Every block with the id 13 that is started inside others keeps a copy of what is registered for it. -/
theorem starts_stream (pf : Profile) (n : Nat) : ∀ {k : Ctx} {outer : List Ctx} {pos : Nat}, k.width = 2 → pos % 32 = 0 →
    ∃ ms k' outer', Stream pf toWord k outer pos (List.replicate n (startBits 13)).flatten ms k' outer' ∧ ms.length = n ∧
      k'.width = 2 ∧ k'.info = k.info ∧
      n * operandCount ((k.info 13).map Def.abbrev) ≤ ((k' :: outer').map ctxOperands).sum := by
  induction n with
  | zero => intro k outer pos hw _; exact ⟨[], k, outer, .nil, rfl, hw, rfl, by simp⟩
  | succ n ih =>
    intro k outer pos hw hp
    obtain ⟨ms, k', outer', h1, h2, h3, h4, h5⟩ := ih (outer := outer) hw hp
    have hl : (List.replicate n (startBits 13)).flatten.length = 64 * n := by
      rw [List.length_flatten, List.map_replicate, startBits_length, List.sum_replicate_nat]; omega
    have hi := start_item pf h3 outer' (pos := pos + (List.replicate n (startBits 13)).flatten.length) (by rw [hl]; omega)
      (id := 13) (by omega)
    rw [if_neg (by decide)] at hi
    refine ⟨ms ++ [.start (BitVec.ofNat 64 13) 0], k'.enter (BitVec.ofNat 64 13) 2, k' :: outer', ?_, ?_, rfl, h4, ?_⟩
    · rw [List.replicate_succ', List.flatten_append]
      simp only [List.flatten_cons, List.flatten_nil, List.append_nil]
      exact h1.append (.one hi)
    · rw [List.length_append, h2]; rfl
    · rw [List.map_cons, List.sum_cons, Nat.succ_mul]
      have : ctxOperands (k'.enter (BitVec.ofNat 64 13) 2) = operandCount ((k.info 13).map Def.abbrev) := by
        rw [← h4]; rfl
      rw [this]
      omega

/-- BLOCKINFO with `2 * n` abbreviations for block 13, and `n` blocks 13 in each other. -/
def hoardBits (n : Nat) : List Bool :=
  startBits 0 ++ (setBits ++ ((List.replicate (2 * n) litBits).flatten ++ (bitsOfNat 2 0 ++ List.replicate 10 false)))

theorem hoardBits_length (n : Nat) : (hoardBits n).length = 96 + 32 * n := by
  simp only [hoardBits, List.length_append, startBits_length, List.length_flatten, List.map_replicate, List.sum_replicate_nat,
    List.length_replicate, bitsOfNat_length]
  rw [show setBits.length = 20 by decide, show litBits.length = 16 by decide]
  omega

theorem hoard_stream (pf : Profile) (n : Nat) : ∃ k, Stream pf toWord Ctx.start [] 32 (hoardBits n) [] k [] ∧ k.width = 2 ∧
    k.info 13 = List.replicate (2 * n) litDef := by
  have h1 := start_item pf (k := Ctx.start) rfl [] (pos := 32) rfl (id := 0) (by omega)
  rw [if_pos (by decide)] at h1
  have h2 := set_item pf Ctx.start [Ctx.start] (32 + (startBits 0).length)
  have h3 := lit_stream pf Ctx.start [Ctx.start] (2 * n) 0 (32 + (startBits 0).length + setBits.length)
  have h4 := Item.exit (pf := pf) (pad := toWord) (k := litCtx Ctx.start (0 + 2 * n)) (o := Ctx.start) (outer := [])
    (pos := 32 + (startBits 0).length + setBits.length + (List.replicate (2 * n) litBits).flatten.length)
    (i := bitsOfNat 2 0) (p := List.replicate 10 false)
    (idBits_iff.2 ⟨(by decide : 1 ≤ (2 : U64).toNat), (by decide : (2 : U64).toNat ≤ 63),
      (by decide : (0 : U64).toNat < 2 ^ (2 : U64).toNat), rfl⟩) (by
        simp only [IsPad, toWord, List.length_flatten, List.map_replicate, List.sum_replicate_nat,
          List.length_replicate, bitsOfNat_length, startBits_length]
        rw [show setBits.length = 20 by decide, show litBits.length = 16 by decide]
        omega)
  refine ⟨_, (Stream.one h1).append ((Stream.one h2).append (h3.append (.one h4))), rfl, ?_⟩
  simp [litCtx, Ctx.start]

/-- Where the reader is after the items up to one that shows an entry. -/
theorem stream_gives {gr : Grid} {pf : Profile} {k k' k'' : Ctx} {outer outer' outer'' : List Ctx} {b : Bitstream}
    {pre i tail : List Bool} {ms : List Entry} {e : Entry} (hm : At gr k outer b.parser) (hr : b.remaining = pre ++ (i ++ tail))
    (hs : Stream pf gr.pad k outer (gr.pos b.parser.cursor) pre ms k' outer')
    (hi : Item pf gr.pad k' outer' (gr.pos b.parser.cursor + pre.length) i [e] k'' outer'') :
    ∃ b', Gives pf b (ms.map Entry.toStream ++ [e.toStream]) b' ∧ At gr k'' outer'' b'.parser := by
  have hp := hm.toMatch.pinv
  rw [remaining_eq] at hr
  obtain ⟨q, hst, ha, hr', hpos⟩ := hs.steps hm rfl hr
  rw [← hpos] at hi
  obtain ⟨q', he, ha', -⟩ := step_complete ha hi hr'
  obtain ⟨p', hg, hst', hp'⟩ := hst.gives hp b.magic
  have hq := hst.pinv hp
  have hn := steps_nil_next hst' hp' b.magic
  rw [next_of_step (b := ⟨b.magic, q⟩) hq he] at hn
  exact ⟨⟨b.magic, q'⟩, hg.append (.cons hn (.nil _)), ha'.at_⟩

/-- C84 fails: whatever the factor, there is a stream for which more is kept after some calls than that factor times its length. -/
theorem C84_unbounded (pf : Profile) (f : Nat) : ∃ bytes b n, Bitstream.fromRaw bytes = .ok b ∧
    f * bytes.length < (iterate pf n b).2.openOperands := by
  obtain ⟨m, hm⟩ : ∃ m, m + 1 = 14 * (f + 1) := ⟨14 * f + 13, by omega⟩
  have hl : ∀ m, (List.replicate m (startBits 13)).flatten.length = 64 * m := by
    intro m
    rw [List.length_flatten, List.map_replicate, startBits_length, List.sum_replicate_nat]; omega
  obtain ⟨b, e, hbits⟩ := open_bits (bits := hoardBits (m + 1) ++ (List.replicate (m + 1) (startBits 13)).flatten)
    (m := 3 * (m + 1 + 1)) (by rw [List.length_append, hoardBits_length, hl]; omega)
  obtain ⟨k, hs, hw, hk⟩ := hoard_stream pf (m + 1)
  obtain ⟨ms, k', outer', h1, h2, h3, h4, h5⟩ := starts_stream pf m (outer := []) (pos := 32 + (hoardBits (m + 1)).length) hw
    (by rw [hoardBits_length]; omega)
  have hi := start_item pf h3 outer'
    (pos := 32 + (hoardBits (m + 1) ++ (List.replicate m (startBits 13)).flatten).length)
    (by rw [List.length_append, hoardBits_length, hl]; omega) (id := 13) (by omega)
  rw [if_neg (by decide)] at hi
  obtain ⟨-, hr⟩ := raw_start e
  have hpos := raw_pos e
  obtain ⟨b', hg, ha⟩ := stream_gives (tail := []) (pre := hoardBits (m + 1) ++ (List.replicate m (startBits 13)).flatten)
    (i := startBits 13) (raw_at pf e)
    (by rw [hr, hbits, List.replicate_succ', List.flatten_append]; simp) (by rw [hpos]; exact hs.append h1)
    (by rw [hpos]; exact hi)
  generalize hes : (([] ++ ms).map Entry.toStream ++ [(Entry.start (BitVec.ofNat 64 13) 0).toStream]) = es at hg
  refine ⟨_, b, es.length, e, ?_⟩
  rw [hg.iterate]
  have hop : b'.openOperands = (((k'.enter (BitVec.ofNat 64 13) 2) :: k' :: outer').map ctxOperands).sum := by
    unfold Bitstream.openOperands
    rw [ha.toMatch.scopes, ← List.map_cons (f := topScope), List.map_map]
    rfl
  have hone : ctxOperands (k'.enter (BitVec.ofNat 64 13) 2) = 2 * (m + 1) := by
    show operandCount ((k'.info 13).map Def.abbrev) = _
    rw [h4, hk, List.map_replicate, operandCount, List.map_replicate, List.sum_replicate_nat]
    show _ * 1 = _
    omega
  have hreg : operandCount ((k.info 13).map Def.abbrev) = 2 * (m + 1) := by
    rw [← h4]; exact hone
  simp only
  rw [hop, List.map_cons, List.sum_cons, hone]
  rw [hreg] at h5
  rw [List.length_append, pack_length]
  have hx : exMagic.length = 4 := rfl
  rw [hx]
  have hsum : (m + 1) * (2 * (m + 1)) ≤ 2 * (m + 1) + ((k' :: outer').map ctxOperands).sum := by
    rw [Nat.succ_mul]; omega
  refine Nat.lt_of_lt_of_le ?_ hsum
  rw [hm]
  have : f * (4 + 4 * (3 * (14 * (f + 1) + 1))) = f * (12 * (14 * (f + 1)) + 16) := by
    rw [show 4 + 4 * (3 * (14 * (f + 1) + 1)) = 12 * (14 * (f + 1)) + 16 by omega]
  rw [this]
  have e1 : f * (12 * (14 * (f + 1)) + 16) = 168 * (f * f) + 184 * f := by
    simp only [Nat.mul_add, Nat.mul_left_comm f, Nat.mul_one]; omega
  have e2 : 14 * (f + 1) * (2 * (14 * (f + 1))) = 392 * (f * f) + 784 * f + 392 := by
    simp only [Nat.mul_add, Nat.add_mul, Nat.mul_one, Nat.mul_assoc, Nat.mul_left_comm f]; omega
  rw [e1, e2]
  omega

/-- The bounds say something: after two calls on this stream there are two blocks open, with 4 operands each, after 320 bits. -/
example : ∃ bytes b, Bitstream.fromRaw bytes = .ok b ∧ (iterate .debug 2 b).2.openBlocks = 2 ∧
    (iterate .debug 2 b).2.openOperands = 8 ∧ (iterate .debug 2 b).2.registeredOperands [13, 8] = 4 ∧
    (iterate .debug 2 b).2.pos = 320 := by
  refine ⟨exMagic ++ pack 36 (hoardBits 2 ++ (List.replicate 2 (startBits 13)).flatten), _, rfl, ?_⟩
  decide +kernel

end Props
end Verif
