import Verif.Mapper.Reserve
import Verif.Props.Stops
import Verif.Props.Costs

/-! C81: how much memory is asked for in advance. -/

set_option linter.unusedSimpArgs false

namespace Verif
open Spec Cursor Parser

/-! ## Records -/

/-- All panics but those of reservations. -/
abbrev NotCap : PanicSite → Prop := (· ≠ .capacity)

theorem nc_vbr (pf : Profile) (w : Nat) : Good NotCap w (cur (readVbr pf w)) := good_cur (good_readVbr pf w fun _ => by decide)

theorem nc_elem (pf : Profile) {o : AbbrevOp} (h : o.isElem) : Good NotCap 0 (o.parse pf) := by
  cases o with
  | vbr w => exact ((nc_vbr pf _).bind0 fun _ => Good.pure _).weaken (Nat.zero_le _)
  | fixed w => exact ((good_cur (good_readAs _ _ _)).bind0 fun _ => Good.pure _).weaken (Nat.zero_le _)
  | char6 => exact (good_char6 _).weaken (Nat.zero_le _)
  | literal v => exact h.elim
  | array e => exact h.elim
  | blob => exact h.elim

theorem nc_scalar (pf : Profile) {o : AbbrevOp} (h : o.isScalar) : Good NotCap 0 (o.parse pf) := by
  cases o with
  | literal v => exact Good.pure _
  | vbr w => exact nc_elem pf (o := .vbr w) trivial
  | fixed w => exact nc_elem pf (o := .fixed w) trivial
  | char6 => exact nc_elem pf (o := .char6) trivial
  | array e => exact h.elim
  | blob => exact h.elim

theorem nc_vbr6s (pf : Profile) (n : Nat) : Good NotCap 0 (readVbr6s pf n) := by
  induction n with
  | zero => exact Good.pure _
  | succ n ih => exact ((nc_vbr pf 6).bind0 fun _ => ih.bind0 fun _ => Good.pure _).weaken (Nat.zero_le _)

/-- A successful action takes at least `n` bits. -/
def EatsAll {α : Type} (n : Nat) (m : BM α) : Prop := ∀ c c' a, c.Inv → m c = (.ok a, c') → c'.Inv ∧ c.tellBit + n ≤ c'.tellBit

theorem eats_elem (pf : Profile) {o : AbbrevOp} (h : o.isElem) : Eats (o.parse pf) := by
  intro c c' xs hc hm
  obtain ⟨hi, hl⟩ := grows_elem pf h c c' xs hc hm
  refine ⟨hi, ?_⟩
  have : xs.length = 1 := by
    cases o with
    | vbr w =>
      obtain ⟨v, c₁, -, h2⟩ := bind_inv hm
      obtain ⟨rfl, -⟩ := pure_inv h2; rfl
    | fixed w =>
      obtain ⟨v, c₁, -, h2⟩ := bind_inv hm
      obtain ⟨rfl, -⟩ := pure_inv h2; rfl
    | char6 =>
      obtain ⟨v, c₁, -, h2⟩ := bind_inv hm
      obtain ⟨v, c₂, -, h3⟩ := bind_inv h2
      obtain ⟨rfl, -⟩ := pure_inv h3; rfl
    | literal v => exact h.elim
    | array e => exact h.elim
    | blob => exact h.elim
  omega

theorem eatsAll_repeat {body : BM (List U64)} (h : Eats body) (n : Nat) : EatsAll n (repeatFields body n) := by
  induction n with
  | zero =>
    intro c c' a hc hm
    obtain ⟨-, rfl⟩ := pure_inv hm
    exact ⟨hc, Nat.le_refl _⟩
  | succ n ih =>
    intro c c' a hc hm
    simp only [repeatFields] at hm
    obtain ⟨xs, c₁, h1, hm⟩ := bind_inv hm
    obtain ⟨ys, c₂, h2, hm⟩ := bind_inv hm
    obtain ⟨-, rfl⟩ := pure_inv hm
    obtain ⟨i1, l1⟩ := h _ _ _ hc h1
    obtain ⟨i2, l2⟩ := ih _ _ _ i1 h2
    exact ⟨i2, by omega⟩

theorem eatsAll_vbr6s (pf : Profile) (n : Nat) : EatsAll n (readVbr6s pf n) := by
  induction n with
  | zero =>
    intro c c' a hc hm
    obtain ⟨-, rfl⟩ := pure_inv hm
    exact ⟨hc, Nat.le_refl _⟩
  | succ n ih =>
    intro c c' a hc hm
    simp only [readVbr6s] at hm
    obtain ⟨xs, c₁, h1, hm⟩ := bind_inv hm
    obtain ⟨ys, c₂, h2, hm⟩ := bind_inv hm
    obtain ⟨-, rfl⟩ := pure_inv hm
    obtain ⟨i1, l1⟩ := eats_vbr pf 6 _ _ _ hc h1
    obtain ⟨i2, l2⟩ := ih _ _ _ i1 h2
    exact ⟨i2, by omega⟩

/-- What the reservations `l` say about an outcome after `spent` bits: one that is too large for any machine is the only reason for this
panic, there is at most one, and if the outcome is a success they are in proportion to the bits. -/
structure Room {ε α : Type} (x : Out ε α) (l : List Nat) (spent : Nat) : Prop where
  cap : x = .panic .capacity ↔ ∃ n ∈ l, 2 ^ 63 ≤ n
  few : l.length ≤ 1
  fit : ∀ a, x = .ok a → l.sum ≤ 8 * spent

theorem Room.none {ε α : Type} {x : Out ε α} {k : Nat} (h : x ≠ .panic .capacity) : Room x [] k :=
  ⟨by simp [h], by simp, by simp⟩

theorem Room.congr {ε ε' α β : Type} {x : Out ε α} {y : Out ε' β} {l : List Nat} {k k' : Nat} (h : Room x l k)
    (hc : y = .panic .capacity ↔ x = .panic .capacity) (ho : ∀ b, y = .ok b → ∃ a, x = .ok a) (hk : k ≤ k') : Room y l k' :=
  ⟨hc.trans h.cap, h.few, fun b hb => by obtain ⟨a, ha⟩ := ho b hb; have := h.fit a ha; omega⟩

/-- Reserving `n` places, and then taking at least as many bits. -/
theorem room_reserve {α : Type} {m : BM α} {n : U64} (hm : Good NotCap 0 m) (he : EatsAll n.toNat m) {c : Cursor} (hc : c.Inv) :
    Room ((withCapacity n >>= fun _ => m) c).1 [8 * n.toNat] (((withCapacity n >>= fun _ => m) c).2.tellBit - c.tellBit) := by
  unfold withCapacity
  by_cases h : n.toNat * 8 > 2 ^ 63 - 1
  · rw [if_pos h]
    refine ⟨?_, by simp, ?_⟩
    · simp only [StM.bind_apply, StM.panic_apply, List.mem_singleton]
      exact ⟨fun _ => ⟨_, rfl, by omega⟩, fun _ => by trivial⟩
    · simp [StM.bind_apply, StM.panic_apply]
  · rw [if_neg h, StM.bind_ok (StM.pure_apply () c)]
    refine ⟨?_, by simp, ?_⟩
    · constructor
      · intro hx
        exact absurd rfl ((hm c hc).panics _ hx)
      · rintro ⟨k, hk, hl⟩
        simp only [List.mem_singleton] at hk
        omega
    · intro a ha
      have := he c (m c).2 a hc (Prod.ext ha rfl)
      simp only [List.sum_cons, List.sum_nil]
      omega

/-- The same after an action without reservations. -/
theorem room_after {α β : Type} {m : BM α} {f : α → BM β} {l : List Nat} {c : Cursor} (hc : c.Inv)
    (hm : Good NotCap 0 m) (hl : ∀ a c', m c = (.ok a, c') → c'.Inv → Room (f a c').1 l ((f a c').2.tellBit - c'.tellBit))
    (hn : (∀ a, (m c).1 ≠ .ok a) → l = []) : Room ((m >>= f) c).1 l (((m >>= f) c).2.tellBit - c.tellBit) := by
  have hs := hm c hc
  match hr : m c with
  | (.ok a, c') =>
    rw [hr] at hs
    rw [StM.bind_ok hr]
    refine (hl a c' hr hs.inv).congr Iff.rfl (fun b hb => ⟨b, hb⟩) ?_
    have := hs.mono
    simp only at this
    omega
  | (.err e, c') =>
    rw [StM.bind_err hr, hn (by simp [hr])]
    exact Room.none (by simp)
  | (.panic q, c') =>
    rw [hr] at hs
    rw [StM.bind_panic hr, hn (by simp [hr])]
    exact Room.none (by have := hs.panics q rfl; simpa using this)
  | (.diverge, c') =>
    rw [StM.bind_diverge hr, hn (by simp [hr])]
    exact Room.none (by simp)

theorem cur_eq {α : Type} (m : CurM α) (c : Cursor) : cur m c = ((m c).1.mapErr .cursor, (m c).2) := rfl

theorem cur_fst_ok {α : Type} {m : CurM α} {c c' : Cursor} {a : α} (h : cur m c = (.ok a, c')) : (m c).1 = .ok a := by
  rw [cur_ok h]

theorem cur_not_ok {α : Type} {m : CurM α} {c : Cursor} (h : ∀ a, (cur m c).1 ≠ .ok a) : ∀ a, (m c).1 ≠ .ok a := by
  intro a ha
  refine h a ?_
  rw [cur_eq, ha]; rfl

theorem room_op (pf : Profile) {o : AbbrevOp} (h : o.isLast) {c : Cursor} (hc : c.Inv) :
    Room (o.parse pf c).1 (Reserve.op pf o c) ((o.parse pf c).2.tellBit - c.tellBit) := by
  have scalar : o.isScalar → Reserve.op pf o c = [] →
      Room (o.parse pf c).1 (Reserve.op pf o c) ((o.parse pf c).2.tellBit - c.tellBit) := fun ho hr => by
    rw [hr]
    exact Room.none fun hx => (nc_scalar pf ho c hc).panics _ hx rfl
  have counted : ∀ l, (∀ n, (Cursor.readVbr pf 6 c).1 = .ok n → l = [8 * n.toNat]) →
      ((∀ n, (Cursor.readVbr pf 6 c).1 ≠ .ok n) → l = []) →
      l = match (Cursor.readVbr pf 6 c).1 with | .ok n => [8 * n.toNat] | _ => [] := by
    intro l h1 h2
    cases hr : (Cursor.readVbr pf 6 c).1 with
    | ok n => exact h1 n hr
    | err e => exact h2 (by simp [hr])
    | panic e => exact h2 (by simp [hr])
    | diverge => exact h2 (by simp [hr])
  have hnone : (∀ n, (Cursor.readVbr pf 6 c).1 ≠ .ok n) →
      (match (Cursor.readVbr pf 6 c).1 with | .ok n => [8 * n.toNat] | _ => []) = [] := by
    intro hn
    cases hr : (Cursor.readVbr pf 6 c).1 with
    | ok n => exact absurd hr (hn n)
    | err e => rfl
    | panic e => rfl
    | diverge => rfl
  cases o with
  | literal v => exact scalar trivial rfl
  | vbr w => exact scalar trivial rfl
  | fixed w => exact scalar trivial rfl
  | char6 => exact scalar trivial rfl
  | array e =>
    simp only [AbbrevOp.parse, Reserve.op]
    refine room_after hc ((nc_vbr pf 6).weaken (Nat.zero_le _)) ?_ fun hn => hnone (cur_not_ok hn)
    intro n c' hr hc'
    rw [cur_fst_ok hr]
    exact room_reserve (good_repeatFields (nc_elem pf h) _) (eatsAll_repeat (eats_elem pf h) _) hc'
  | blob =>
    simp only [AbbrevOp.parse, Reserve.op]
    refine room_after hc ((nc_vbr pf 6).weaken (Nat.zero_le _)) ?_ fun hn => hnone (cur_not_ok hn)
    intro n c' hr hc'
    rw [cur_fst_ok hr]
    have he : Eats (do let b ← cur (Cursor.readExact .u8); pure [b] : BM (List U64)) := by
      intro c c' a hc h
      obtain ⟨v, c₁, h1, h⟩ := bind_inv h
      obtain ⟨-, rfl⟩ := pure_inv h
      exact eats_of_good (good_cur (good_readExact .u8 (fun _ => True))) (by decide) _ _ _ hc h1
    have hg : Good NotCap 0 (do let b ← cur (Cursor.readExact .u8); pure [b] : BM (List U64)) :=
      ((good_cur (good_readExact _ _)).bind0 fun _ => Good.pure _).weaken (Nat.zero_le _)
    refine room_after hc' (good_alignB _) ?_ fun hn => absurd rfl (hn ())
    intro _ c₂ _ hc₂
    refine room_reserve ((good_repeatFields hg _).bind0 fun _ => (good_alignB _).bind0 fun _ => Good.pure _) ?_ hc₂
    intro d d' xs hd h
    obtain ⟨ys, d₁, h1, h⟩ := bind_inv h
    obtain ⟨_, d₂, h2, h⟩ := bind_inv h
    obtain ⟨-, rfl⟩ := pure_inv h
    obtain ⟨hi, hle⟩ := eatsAll_repeat he _ _ _ _ hd h1
    obtain ⟨hi', hle'⟩ := moves_align _ _ _ hi h2
    exact ⟨hi', by omega⟩

theorem scalar_reserves (pf : Profile) {o : AbbrevOp} (h : o.isScalar) (c : Cursor) : Reserve.op pf o c = [] := by
  cases o with
  | array e => exact h.elim
  | blob => exact h.elim
  | _ => rfl

theorem room_fields (pf : Profile) (ops : List AbbrevOp) (h : OpsWF ops) {c : Cursor} (hc : c.Inv) :
    Room (parseFields pf ops c).1 (Reserve.fields pf ops c) ((parseFields pf ops c).2.tellBit - c.tellBit) := by
  induction ops generalizing c with
  | nil => exact h.elim
  | cons o ops ih =>
    cases ops with
    | nil =>
      have ho : o.isLast := h
      have he : Reserve.fields pf [o] c = Reserve.op pf o c := by
        simp only [Reserve.fields]
        split <;> simp
      rw [he]
      refine (room_op pf ho hc).congr ?_ ?_ ?_
      · simp only [parseFields, StM.bind_apply, StM.pure_apply]
        match o.parse pf c with
        | (.ok a, c') => simp
        | (.err e, c') => simp
        | (.panic q, c') => simp
        | (.diverge, c') => simp
      · intro b hb
        simp only [parseFields, StM.bind_apply, StM.pure_apply] at hb
        match hr : o.parse pf c with
        | (.ok a, c') => exact ⟨a, rfl⟩
        | (.err e, c') => rw [hr] at hb; simp at hb
        | (.panic q, c') => rw [hr] at hb; simp at hb
        | (.diverge, c') => rw [hr] at hb; simp at hb
      · simp only [parseFields, StM.bind_apply, StM.pure_apply]
        match o.parse pf c with
        | (.ok a, c') => simp
        | (.err e, c') => simp
        | (.panic q, c') => simp
        | (.diverge, c') => simp
    | cons o' ops =>
      have ho : o.isScalar := h.1
      rw [parseFields, Reserve.fields, scalar_reserves pf ho, List.nil_append]
      refine room_after hc (nc_scalar pf ho) ?_ ?_
      · intro xs c' hr hc'
        rw [hr]
        refine (ih h.2 hc').congr ?_ ?_ ?_
        · simp only [StM.bind_apply, StM.pure_apply]
          match parseFields pf (o' :: ops) c' with
          | (.ok a, c') => simp
          | (.err e, c') => simp
          | (.panic q, c') => simp
          | (.diverge, c') => simp
        · intro b hb
          simp only [StM.bind_apply, StM.pure_apply] at hb
          match hr : parseFields pf (o' :: ops) c' with
          | (.ok a, c') => exact ⟨a, rfl⟩
          | (.err e, c') => rw [hr] at hb; simp at hb
          | (.panic q, c') => rw [hr] at hb; simp at hb
          | (.diverge, c') => rw [hr] at hb; simp at hb
        · simp only [StM.bind_apply, StM.pure_apply]
          match parseFields pf (o' :: ops) c' with
          | (.ok a, c') => simp
          | (.err e, c') => simp
          | (.panic q, c') => simp
          | (.diverge, c') => simp
      · intro hn
        match hr : o.parse pf c with
        | (.ok a, c') => exact absurd (by rw [hr]) (hn a)
        | (.err e, c') => rfl
        | (.panic q, c') => rfl
        | (.diverge, c') => rfl

/-! ## The reader -/

theorem room_then {α β : Type} {m : PM α} {f : α → PM β} {l : List Nat} {p : Parser} (hm : PGood (fun _ => True) 0 m) (hp : PInv p)
    (hr : Room (m p).1 l ((m p).2.cursor.tellBit - p.cursor.tellBit)) (hf : ∀ a, PGood NotCap 0 (f a)) :
    Room ((m >>= f) p).1 l (((m >>= f) p).2.cursor.tellBit - p.cursor.tellBit) := by
  have hs := hm p hp
  match hx : m p with
  | (.ok a, p') =>
    rw [hx] at hr hs
    rw [StM.bind_ok hx]
    have hg := hf a p' hs.inv
    have := hg.mono
    refine hr.congr ?_ (fun _ _ => ⟨a, rfl⟩) (by simp only; omega)
    exact ⟨fun h => absurd rfl (hg.panics _ h), fun h => by simp at h⟩
  | (.err e, p') =>
    rw [hx] at hr
    rw [StM.bind_err hx]
    exact hr.congr (by simp) (by simp) (by simp)
  | (.panic e, p') =>
    rw [hx] at hr
    rw [StM.bind_panic hx]
    exact hr.congr (by simp) (by simp) (by simp)
  | (.diverge, p') =>
    rw [hx] at hr
    rw [StM.bind_diverge hx]
    exact hr.congr (by simp) (by simp) (by simp)

theorem room_pafter {α β : Type} {m : PM α} {f : α → PM β} {l : List Nat} {p : Parser} (hp : PInv p)
    (hm : PGood NotCap 0 m) (hl : ∀ a p', m p = (.ok a, p') → PInv p' → Room (f a p').1 l ((f a p').2.cursor.tellBit - p'.cursor.tellBit))
    (hn : (∀ a, (m p).1 ≠ .ok a) → l = []) : Room ((m >>= f) p).1 l (((m >>= f) p).2.cursor.tellBit - p.cursor.tellBit) := by
  have hs := hm p hp
  match hr : m p with
  | (.ok a, p') =>
    rw [hr] at hs
    rw [StM.bind_ok hr]
    refine (hl a p' hr hs.inv).congr Iff.rfl (fun b hb => ⟨b, hb⟩) ?_
    have := hs.mono
    simp only at this
    omega
  | (.err e, p') =>
    rw [StM.bind_err hr, hn (by simp [hr])]
    exact Room.none (by simp)
  | (.panic q, p') =>
    rw [hr] at hs
    rw [StM.bind_panic hr, hn (by simp [hr])]
    exact Room.none (by have := hs.panics q rfl; simpa using this)
  | (.diverge, p') =>
    rw [StM.bind_diverge hr, hn (by simp [hr])]
    exact Room.none (by simp)

theorem room_onCursor {α : Type} {m : BM α} {l : List Nat} {p : Parser}
    (h : Room (m p.cursor).1 l ((m p.cursor).2.tellBit - p.cursor.tellBit)) :
    Room (onCursor m p).1 l ((onCursor m p).2.cursor.tellBit - p.cursor.tellBit) := h

theorem pgood_any {α : Type} {A B : PanicSite → Prop} {k : Nat} {m : PM α} (h : PGood A k m) (hab : ∀ q, A q → B q) : PGood B k m := by
  intro p hp
  obtain ⟨h1, h2, h3, h4, h5, h6, h7⟩ := h p hp
  exact ⟨h1, h2, h3, h4, h5, fun q hq => hab _ (h6 q hq), h7⟩

theorem good_any {α ε : Type} {A B : PanicSite → Prop} {k : Nat} {m : StM Cursor ε α} (h : Good A k m) (hab : ∀ q, A q → B q) : Good B k m := by
  intro p hp
  obtain ⟨h1, h2, h3, h4, h5, h6, h7⟩ := h p hp
  exact ⟨h1, h2, h3, h4, h5, fun q hq => hab _ (h6 q hq), h7⟩

theorem nc_enterBlock (pf : Profile) : PGood NotCap 0 (Parser.enterBlock pf) := by
  unfold Parser.enterBlock
  refine ((pgood_onCursor (nc_vbr pf 8)).bind0 fun blockId => ?_).weaken (Nat.zero_le _)
  refine ((pgood_onCursor (nc_vbr pf 4)).bind0 fun w => ?_).weaken (Nat.zero_le _)
  refine (pgood_onCursor (good_alignB _)).bind0 fun _ => ?_
  split
  · exact PGood.throw _ _
  · refine (pgood_lenAnd fun len => ?_).weaken (Nat.zero_le _)
    refine (pgood_pushScope (by simp [Scope.new])).bind0 fun _ => PGood.get.bind0 fun q => ?_
    have hend : PGood NotCap 0 (do
        let s ← Parser.scope
        if s.isBlockinfo then pure none
        else pure (some (StreamEntry.subBlock { blockId := blockId, len := len }))) := by
      refine pgood_scope.bind0 fun s => ?_
      split <;> exact PGood.pure _
    split
    · exact (pgood_scopeMut (blockMap_extend _)).bind0 fun _ => hend
    · exact (PGood.pure ()).bind0 fun _ => hend

theorem nc_defineAbbrev (pf : Profile) : PGood NotCap 0 (Parser.defineAbbrev pf) := by
  unfold Parser.defineAbbrev
  have ha : Good NotCap 0 (Abbrev.new pf) := good_any good_abbrevNew' fun q hq => by
    rcases hq with ⟨rfl, -⟩ | ⟨rfl, -⟩ <;> decide
  refine (pgood_onCursor ha).bind0 fun a => pgood_scope.bind0 fun s => ?_
  split
  · split
    · exact PGood.throw _ _
    · exact pgood_pushBlockinfo _ _
  · exact pgood_scopeMut (blockMap_extend _)

theorem room_preserve {α β : Type} {m : BM α} {f : α → PM β} {n : U64} (hm : Good NotCap 0 m) (he : EatsAll n.toNat m)
    (hf : ∀ a, PGood NotCap 0 (f a)) {p : Parser} (hp : PInv p) :
    Room ((withCapacity n >>= fun _ => onCursor m >>= f) p).1 [8 * n.toNat]
      (((withCapacity n >>= fun _ => onCursor m >>= f) p).2.cursor.tellBit - p.cursor.tellBit) := by
  have h := room_reserve hm he hp.cur
  unfold withCapacity at h ⊢
  by_cases hn : n.toNat * 8 > 2 ^ 63 - 1
  · simp only [if_pos hn] at h ⊢
    exact h.congr (by simp [StM.bind_apply, StM.panic_apply]) (by simp [StM.bind_apply, StM.panic_apply])
      (by simp [StM.bind_apply, StM.panic_apply])
  · simp only [if_neg hn] at h ⊢
    rw [StM.bind_ok (StM.pure_apply () _)] at h ⊢
    exact room_then (pgood_any (pgood_onCursor hm) fun _ _ => trivial) hp (room_onCursor h) hf

theorem onCursor_fst {α : Type} (m : BM α) (p : Parser) : (onCursor m p).1 = (m p.cursor).1 := rfl

theorem room_unabbrev (pf : Profile) {p : Parser} (hp : PInv p) :
    Room (parseUnabbrev pf p).1 (match p.scopes with | [] => [] | s :: _ => if s = .initial then [] else Reserve.unabbrev pf p.cursor)
      ((parseUnabbrev pf p).2.cursor.tellBit - p.cursor.tellBit) := by
  obtain ⟨s, rest, hs, hsc⟩ := scope_ok hp
  unfold parseUnabbrev
  rw [StM.bind_ok hsc, hs]
  simp only
  split
  · exact Room.none (by simp [StM.throw])
  · refine room_pafter hp ((pgood_onCursor (nc_vbr pf 6)).weaken (Nat.zero_le _)) ?_ ?_
    · intro code p₁ h1 hp₁
      have e1 := cur_ok (onCursor_inv h1).1
      unfold Reserve.unabbrev
      rw [e1]
      simp only
      refine room_pafter hp₁ ((pgood_onCursor (nc_vbr pf 6)).weaken (Nat.zero_le _)) ?_ ?_
      · intro n p₂ h2 hp₂
        rw [cur_ok (onCursor_inv h2).1]
        refine room_preserve (nc_vbr6s pf _) (eatsAll_vbr6s pf _) (fun fields => ?_) hp₂
        refine pgood_scope.bind0 fun s => ?_
        split
        · refine (pgood_blockInfoCode code).bind0 fun c => ?_
          cases c
          · cases fields with
            | nil => exact PGood.panic (by decide) 0
            | cons b _ => exact (pgood_scopeMut (blockMap_setBid b)).bind0 fun _ => PGood.pure _
          · exact PGood.pure _
          · exact PGood.pure _
        · exact PGood.pure _
      · intro hn
        have := cur_not_ok hn
        split
        · next n hn' => exact absurd hn' (this n)
        · rfl
    · intro hn
      have := cur_not_ok hn
      unfold Reserve.unabbrev
      split
      · next n c' hn' => exact absurd (by rw [hn']) (this n)
      · rfl

theorem getAbbrev_mem {pf : Profile} {s : Scope} {id : U64} {a : Abbrev} (hn : 4 ≤ id.toNat) (h : s.getAbbrev pf id = .ok a) : a ∈ s.abbrevs := by
  cases s with
  | initial => simp [Scope.getAbbrev] at h
  | block w i bid l =>
    simp only [Scope.getAbbrev] at h
    rw [if_neg (by omega), toNat_sub4 hn] at h
    cases hl : l[id.toNat - 4]? with
    | none => rw [hl] at h; simp at h
    | some b =>
      rw [hl] at h
      simp only [Out.ofOption, Out.ok.injEq] at h
      exact h ▸ List.mem_of_getElem? hl

theorem room_withAbbrev (pf : Profile) {p : Parser} (hp : PInv p) (hs : p.Small) {id : U64} (hid : 4 ≤ id.toNat) :
    Room (parseWithAbbrev pf id p).1
      (match p.scopes with
       | [] => []
       | s :: _ => match s.getAbbrev pf id with | .ok a => Reserve.fields pf a.operands p.cursor | _ => [])
      ((parseWithAbbrev pf id p).2.cursor.tellBit - p.cursor.tellBit) := by
  obtain ⟨s, rest, hsc, hok⟩ := scope_ok hp
  unfold parseWithAbbrev
  rw [StM.bind_ok hok, hsc]
  simp only
  refine room_pafter hp (pgood_getAbbrev hid) ?_ ?_
  · intro a p' ha hp'
    obtain ⟨hga, rfl⟩ : s.getAbbrev pf id = .ok a ∧ p = p' := by simpa [StM.lift_apply] using ha
    rw [hga]
    have hwf := (hs.1 s (by rw [hsc]; simp) a (getAbbrev_mem hid hga)).1
    refine room_then (pgood_any (pgood_onCursor (good_parseFields (pf := pf) _)) fun _ _ => trivial) hp (room_onCursor (room_fields pf _ hwf hp.cur)) fun fields => ?_
    cases fields with
    | nil => exact PGood.panic (by decide) 0
    | cons code fields =>
      refine pgood_scope.bind0 fun s => ?_
      split <;> exact PGood.pure _
  · intro hn
    split
    · next a ha => exact absurd (by simp [StM.lift_apply, ha]) (hn a)
    · rfl

theorem room_step (pf : Profile) {p : Parser} (hp : PInv p) (hs : p.Small) :
    Room (Parser.step pf p).1 (Reserve.step pf p) ((Parser.step pf p).2.cursor.tellBit - p.cursor.tellBit) := by
  unfold Parser.step Reserve.step
  rw [get_bind]
  split
  · exact Room.none (by simp [StM.throw])
  · obtain ⟨s, rest, hsc, hok⟩ := scope_ok hp
    rw [StM.bind_ok hok, hsc]
    simp only
    have hg := pgood_onCursor (A := NotCap) (good_cur (good_read s.abbrevIdWidth.toNat NotCap))
    refine room_pafter hp (hg.weaken (Nat.zero_le _)) ?_ ?_
    · intro id p₁ h1 hp₁
      obtain ⟨c1, e1, e2⟩ := onCursor_inv h1
      rw [cur_ok c1]
      simp only
      have hs1 : p₁.Small := by
        unfold Parser.Small
        rw [e1, e2]
        refine hs.mono ?_
        have := (hg p hp).mono
        rw [h1] at this
        exact this
      have key : ∀ k : U64, ¬ id = k → id.toNat ≠ k.toNat := fun k hk hc => hk (BitVec.eq_of_toNat_eq hc)
      by_cases h0 : id = 0
      · subst h0
        rw [if_pos rfl, if_pos (by decide)]
        exact Room.none fun h => (pgood_exitBlock (A := NotCap) p₁ hp₁).panics _ h rfl
      rw [if_neg h0]
      by_cases h1 : id = 1
      · subst h1
        rw [if_pos rfl, if_pos (by decide)]
        exact Room.none fun h => (nc_enterBlock pf p₁ hp₁).panics _ h rfl
      rw [if_neg h1]
      by_cases h2 : id = 2
      · subst h2
        rw [if_pos rfl, if_pos (by decide)]
        exact Room.none fun h => ((nc_defineAbbrev pf).bind0 (fun _ => PGood.pure _) p₁ hp₁).panics _ h rfl
      rw [if_neg h2]
      by_cases h3 : id = 3
      · subst h3
        rw [if_pos rfl, if_neg (by decide), if_pos (by decide)]
        have := room_unabbrev pf hp₁
        rw [e1, hsc] at this
        exact this
      rw [if_neg h3]
      have e0 := key _ h0
      have e1' := key _ h1
      have e2' := key _ h2
      have e3' := key _ h3
      simp at e0 e1' e2' e3'
      rw [if_neg (by omega), if_neg (by omega)]
      have := room_withAbbrev pf hp₁ hs1 (id := id) (by omega)
      rw [e1, hsc] at this
      exact this
    · intro hn
      have := cur_not_ok hn
      split
      · next n c' hn' => exact absurd (by rw [hn']) (this n)
      · rfl

/-- What a list of reservations says about a call: `capped` if it ended for want of room, `done` if it ended well, after `spent` bits.
All reservations but the last are always in proportion to the bits. -/
structure Paid (capped done : Prop) (l : List Nat) (spent : Nat) : Prop where
  cap : capped ↔ ∃ n ∈ l, 2 ^ 63 ≤ n
  most : l.dropLast.sum ≤ 8 * spent
  fit : done → l.sum ≤ 8 * spent

theorem Paid.nil {C D : Prop} (h : ¬ C) (k : Nat) : Paid C D [] k := ⟨by simp [h], by simp, by simp⟩

theorem Paid.congr {C D C' D' : Prop} {l : List Nat} {k k' : Nat} (h : Paid C D l k) (hc : C' ↔ C) (hd : D' → D) (hk : k ≤ k') :
    Paid C' D' l k' := ⟨hc.trans h.cap, by have := h.most; omega, fun hd' => by have := h.fit (hd hd'); omega⟩

theorem dropLast_sum_le (l : List Nat) : l.dropLast.sum ≤ l.sum := by
  rcases l.eq_nil_or_concat with rfl | ⟨l', x, rfl⟩
  · simp
  · simp

theorem Paid.append {C D : Prop} {l l' : List Nat} {j k : Nat} (h : Paid False True l j) (h' : Paid C D l' k) :
    Paid C D (l ++ l') (j + k) := by
  have h1 := h.fit trivial
  have h2 := h.cap
  refine ⟨?_, ?_, fun hd => ?_⟩
  · rw [h'.cap]
    constructor
    · rintro ⟨n, hn, hl⟩
      exact ⟨n, List.mem_append_right _ hn, hl⟩
    · rintro ⟨n, hn, hl⟩
      rcases List.mem_append.mp hn with hm | hm
      · exact (h2.mpr ⟨n, hm, hl⟩).elim
      · exact ⟨n, hm, hl⟩
  · by_cases he : l' = []
    · subst he
      have := dropLast_sum_le l
      simp only [List.append_nil]
      omega
    · rw [List.dropLast_append_of_ne_nil he, List.sum_append]
      have := h'.most
      omega
  · have := h'.fit hd
    rw [List.sum_append]
    omega

theorem Room.paid {ε α : Type} {x : Out ε α} {l : List Nat} {k : Nat} (h : Room x l k) :
    Paid (x = .panic .capacity) (∃ a, x = .ok a) l k := by
  refine ⟨h.cap, ?_, fun ⟨a, ha⟩ => h.fit a ha⟩
  have := h.few
  match l, this with
  | [], _ => simp
  | [x], _ => simp

theorem Paid.past {C D : Prop} {l : List Nat} {k : Nat} (h : Paid C D l k) (hc : ¬ C) (hd : D) : Paid False True l k :=
  h.congr ⟨False.elim, fun h => absurd h hc⟩ (fun _ => hd) (Nat.le_refl _)

theorem step_is_exhausted {pf : Profile} {p : Parser} (h : (Parser.step pf p).1 = .err .exhausted) : p.cursor.exhausted = true := by
  by_cases hx : p.cursor.exhausted = true
  · exact hx
  · unfold Parser.step at h
    rw [get_bind, if_neg hx] at h
    exact absurd h ((noexh_scope.bind fun s => (noexh_onCursor (noexh_cur _)).bind fun id => noexh_afterId pf id) p)

theorem paid_advance (pf : Profile) (fuel : Nat) {p : Parser} (hp : PInv p) (hs : p.Small) :
    Paid ((Parser.advanceFuel pf fuel p).1 = .panic .capacity)
      ((∃ e, (Parser.advanceFuel pf fuel p).1 = .ok e) ∨ (Parser.advanceFuel pf fuel p).1 = .err .exhausted)
      (Reserve.advance pf fuel p) ((Parser.advanceFuel pf fuel p).2.cursor.tellBit - p.cursor.tellBit) ∧
    p.cursor.tellBit ≤ (Parser.advanceFuel pf fuel p).2.cursor.tellBit := by
  induction fuel generalizing p with
  | zero => exact ⟨Paid.nil (by simp [Parser.advanceFuel, StM.diverge]) _, Nat.le_refl _⟩
  | succ n ih =>
    have hr := (room_step pf hp hs).paid
    have hg := pgood_step (pf := pf) p hp
    have hsm := (small_step (pf := pf) hp hs).1
    simp only [Parser.advanceFuel, Reserve.advance]
    match hx : Parser.step pf p with
    | (.ok none, p') =>
      rw [hx] at hr hg hsm
      rw [StM.bind_ok hx]
      simp only
      obtain ⟨h1, h2⟩ := ih (p := p') hg.inv hsm
      have h3 := hg.mono
      simp only at h3
      refine ⟨((hr.past (by simp) ⟨_, rfl⟩).append h1).congr Iff.rfl id ?_, by omega⟩
      simp only
      omega
    | (.ok (some e), p') =>
      rw [hx] at hr hg
      rw [StM.bind_ok hx]
      simp only [List.append_nil, StM.pure_apply]
      exact ⟨hr.congr (by simp) (fun _ => ⟨_, rfl⟩) (by simp), hg.mono⟩
    | (.err e, p') =>
      rw [StM.bind_err hx]
      simp only [List.append_nil]
      refine ⟨?_, by have := hg.mono; rw [hx] at this; exact this⟩
      by_cases he : e = .exhausted
      · subst he
        have : Reserve.step pf p = [] := by
          unfold Reserve.step
          rw [if_pos (step_is_exhausted (by rw [hx]))]
        rw [this]
        exact Paid.nil (by simp) _
      · rw [hx] at hr
        exact hr.congr (by simp) (by simp [he]) (by simp)
    | (.panic e, p') =>
      rw [hx] at hr hg
      rw [StM.bind_panic hx]
      simp only [List.append_nil]
      exact ⟨hr.congr (by simp) (by simp) (by simp), hg.mono⟩
    | (.diverge, p') =>
      rw [hx] at hr hg
      rw [StM.bind_diverge hx]
      simp only [List.append_nil]
      exact ⟨hr.congr (by simp) (by simp) (by simp), hg.mono⟩

theorem paid_next (pf : Profile) {b : Bitstream} (hp : PInv b.parser) (hs : b.parser.Small) :
    Paid ((Bitstream.next pf b).1 = .panic .capacity)
      ((∃ e, (Bitstream.next pf b).1 = .item e) ∨ (Bitstream.next pf b).1 = .done)
      (Reserve.next pf b) ((Bitstream.next pf b).2.pos - b.pos) := by
  have h := (paid_advance pf (b.parser.cursor.bitLen + 1) hp hs).1
  unfold Reserve.next Bitstream.next Bitstream.advance Bitstream.pos Parser.advance
  match hx : Parser.advanceFuel pf (b.parser.cursor.bitLen + 1) b.parser with
  | (.ok e, p') => rw [hx] at h; exact h.congr (by simp) (fun _ => .inl ⟨_, rfl⟩) (by simp)
  | (.err e, p') =>
    rw [hx] at h
    by_cases he : e = .exhausted
    · subst he; exact h.congr (by simp) (fun _ => .inr rfl) (by simp)
    · cases e <;> first | exact absurd rfl he | exact h.congr (by simp) (by simp) (by simp)
  | (.panic e, p') => rw [hx] at h; exact h.congr (by simp) (by simp) (by simp)
  | (.diverge, p') => rw [hx] at h; exact h.congr (by simp) (by simp) (by simp)

/-! ## Unrolling -/

theorem paid_enter (pf : Profile) (fuel : Nat) {b : Bitstream} (hp : PInv b.parser) (hs : b.parser.Small) (acc : UBlock) :
    Paid ((enterLoop pf fuel acc b).1 = .panic .capacity) (∃ x, (enterLoop pf fuel acc b).1 = .ok x)
      (Reserve.enter pf fuel b) ((enterLoop pf fuel acc b).2.pos - b.pos) ∧
    b.pos ≤ (enterLoop pf fuel acc b).2.pos ∧ PInv (enterLoop pf fuel acc b).2.parser ∧ (enterLoop pf fuel acc b).2.parser.Small := by
  induction fuel generalizing b acc with
  | zero => exact ⟨Paid.nil (by simp [enterLoop, StM.diverge]) _, Nat.le_refl _, hp, hs⟩
  | succ n ih =>
    have h1 := paid_next pf hp hs
    have h2 := next_pinv (pf := pf) hp
    have h3 := (small_next (pf := pf) hp hs).1
    have h4 := (next_progress (pf := pf) hp).2.2.1
    simp only [enterLoop, Reserve.enter]
    match hx : Bitstream.next pf b with
    | (.done, b') =>
      rw [hx] at h1 h2 h3 h4
      simp only [List.append_nil]
      exact ⟨h1.congr (by simp) (by simp) (Nat.le_refl _), h4, h2, h3⟩
    | (.error e, b') =>
      rw [hx] at h1 h2 h3 h4
      simp only [List.append_nil]
      exact ⟨h1.congr (by simp) (by simp) (Nat.le_refl _), h4, h2, h3⟩
    | (.panic e, b') =>
      rw [hx] at h1 h2 h3 h4
      simp only [List.append_nil]
      exact ⟨h1.congr (by simp) (by simp) (Nat.le_refl _), h4, h2, h3⟩
    | (.diverge, b') =>
      rw [hx] at h1 h2 h3 h4
      simp only [List.append_nil]
      exact ⟨h1.congr (by simp) (by simp) (Nat.le_refl _), h4, h2, h3⟩
    | (.item .endBlock, b') =>
      rw [hx] at h1 h2 h3 h4
      simp only [List.append_nil]
      exact ⟨h1.congr (by simp) (fun _ => .inl ⟨_, rfl⟩) (Nat.le_refl _), h4, h2, h3⟩
    | (.item (.record r), b') =>
      rw [hx] at h1 h2 h3 h4
      simp only at h1 h2 h3 h4 ⊢
      obtain ⟨g1, g2, g3, g4⟩ := ih h2 h3 (acc.pushRecord r)
      exact ⟨((h1.past (by simp) (.inl ⟨_, rfl⟩)).append g1).congr Iff.rfl id (by omega), by omega, g3, g4⟩
    | (.item (.subBlock s), b') =>
      rw [hx] at h1 h2 h3 h4
      simp only at h1 h2 h3 h4 ⊢
      obtain ⟨g1, g2, g3, g4⟩ := ih h2 h3 (UBlock.new s.blockId)
      have h5 := h1.past (by simp) (.inl ⟨_, rfl⟩)
      match hy : enterLoop pf n (UBlock.new s.blockId) b' with
      | (.ok child, b'') =>
        rw [hy] at g1 g2 g3 g4
        simp only at g1 g2 g3 g4 ⊢
        obtain ⟨k1, k2, k3, k4⟩ := ih g3 g4 (acc.pushBlock child)
        exact ⟨(h5.append ((g1.past (by simp) ⟨_, rfl⟩).append k1)).congr Iff.rfl id (by omega), by omega, k3, k4⟩
      | (.err e, b'') =>
        rw [hy] at g1 g2 g3 g4
        simp only [List.append_nil] at g1 g2 g3 g4 ⊢
        exact ⟨(h5.append g1).congr (by simp) (by simp) (by omega), by omega, g3, g4⟩
      | (.panic e, b'') =>
        rw [hy] at g1 g2 g3 g4
        simp only [List.append_nil] at g1 g2 g3 g4 ⊢
        exact ⟨(h5.append g1).congr (by simp) (by simp) (by omega), by omega, g3, g4⟩
      | (.diverge, b'') =>
        rw [hy] at g1 g2 g3 g4
        simp only [List.append_nil] at g1 g2 g3 g4 ⊢
        exact ⟨(h5.append g1).congr (by simp) (by simp) (by omega), by omega, g3, g4⟩

theorem enterLoop_len {pf : Profile} (fuel : Nat) {b : Bitstream} (hp : PInv b.parser) (acc : UBlock) :
    (enterLoop pf fuel acc b).2.len = b.len := by
  have key : ∀ fuel (b : Bitstream) (acc : UBlock), PInv b.parser →
      (enterLoop pf fuel acc b).2.len = b.len ∧ PInv (enterLoop pf fuel acc b).2.parser := by
    intro fuel
    induction fuel with
    | zero => exact fun b acc hp => ⟨rfl, hp⟩
    | succ n ih =>
      intro b acc hp
      have h2 := next_pinv (pf := pf) hp
      have h5 := (next_progress (pf := pf) hp).2.1
      simp only [enterLoop]
      match hx : Bitstream.next pf b with
      | (.done, b') => rw [hx] at h2 h5; exact ⟨h5, h2⟩
      | (.error e, b') => rw [hx] at h2 h5; exact ⟨h5, h2⟩
      | (.panic e, b') => rw [hx] at h2 h5; exact ⟨h5, h2⟩
      | (.diverge, b') => rw [hx] at h2 h5; exact ⟨h5, h2⟩
      | (.item .endBlock, b') => rw [hx] at h2 h5; exact ⟨h5, h2⟩
      | (.item (.record r), b') =>
        rw [hx] at h2 h5
        obtain ⟨g1, g2⟩ := ih b' (acc.pushRecord r) h2
        exact ⟨g1.trans h5, g2⟩
      | (.item (.subBlock s), b') =>
        rw [hx] at h2 h5
        obtain ⟨g1, g2⟩ := ih b' (UBlock.new s.blockId) h2
        simp only
        match hy : enterLoop pf n (UBlock.new s.blockId) b' with
        | (.ok child, b'') =>
          rw [hy] at g1 g2
          obtain ⟨k1, k2⟩ := ih b'' (acc.pushBlock child) g2
          exact ⟨k1.trans (g1.trans h5), k2⟩
        | (.err e, b'') => rw [hy] at g1 g2; exact ⟨g1.trans h5, g2⟩
        | (.panic e, b'') => rw [hy] at g1 g2; exact ⟨g1.trans h5, g2⟩
        | (.diverge, b'') => rw [hy] at g1 g2; exact ⟨g1.trans h5, g2⟩
  exact (key fuel b acc hp).1

theorem setModule_nopanic (top : UBlock) (ps : List PartialModule) (q : PanicSite) : setModule top ps ≠ .panic q := by
  induction ps with
  | nil => simp [setModule]
  | cons p ps ih =>
    cases ps with
    | nil => simp only [setModule]; split <;> simp
    | cons p' ps =>
      simp only [setModule]
      cases h : setModule top (p' :: ps) with
      | panic e => rw [h] at ih; simpa using ih
      | ok a => simp
      | err a => simp
      | diverge => simp

theorem addTop_nopanic (ps : List PartialModule) (top : UBlock) (q : PanicSite) : addTop ps top ≠ .panic q := by
  unfold addTop
  split <;> first | exact setModule_nopanic _ _ _ | simp

theorem paid_unrollLoop (pf : Profile) (fuel : Nat) {b : Bitstream} (hp : PInv b.parser) (hs : b.parser.Small) (ps : List PartialModule) :
    Paid ((unrollLoop pf fuel ps b).1 = .panic .capacity) (∃ x, (unrollLoop pf fuel ps b).1 = .ok x)
      (Reserve.unrollLoop pf fuel ps b) ((unrollLoop pf fuel ps b).2.pos - b.pos) ∧
    b.pos ≤ (unrollLoop pf fuel ps b).2.pos ∧ (unrollLoop pf fuel ps b).2.len = b.len ∧ PInv (unrollLoop pf fuel ps b).2.parser := by
  induction fuel generalizing b ps with
  | zero => exact ⟨Paid.nil (by simp [unrollLoop, StM.diverge]) _, Nat.le_refl _, rfl, hp⟩
  | succ n ih =>
    have h1 := paid_next pf hp hs
    have h2 := next_pinv (pf := pf) hp
    have h3 := (small_next (pf := pf) hp hs).1
    have h4 := (next_progress (pf := pf) hp).2.2.1
    have h5 := (next_progress (pf := pf) hp).2.1
    simp only [unrollLoop, Reserve.unrollLoop]
    match hx : Bitstream.next pf b with
    | (.done, b') =>
      rw [hx] at h1 h2 h3 h4 h5
      simp only [List.append_nil]
      exact ⟨h1.congr (by simp) (fun _ => .inr rfl) (Nat.le_refl _), h4, h5, h2⟩
    | (.error e, b') =>
      rw [hx] at h1 h2 h3 h4 h5
      simp only [List.append_nil]
      exact ⟨h1.congr (by simp) (by simp) (Nat.le_refl _), h4, h5, h2⟩
    | (.panic e, b') =>
      rw [hx] at h1 h2 h3 h4 h5
      simp only [List.append_nil]
      exact ⟨h1.congr (by simp) (by simp) (Nat.le_refl _), h4, h5, h2⟩
    | (.diverge, b') =>
      rw [hx] at h1 h2 h3 h4 h5
      simp only [List.append_nil]
      exact ⟨h1.congr (by simp) (by simp) (Nat.le_refl _), h4, h5, h2⟩
    | (.item e, b') =>
      rw [hx] at h1 h2 h3 h4 h5
      simp only at h1 h2 h3 h4 h5 ⊢
      have h6 := h1.past (by simp) (.inl ⟨_, rfl⟩)
      cases hb : e.asBlock with
      | none =>
        simp only [List.append_nil]
        exact ⟨h1.congr (by simp) (by simp) (Nat.le_refl _), h4, h5, h2⟩
      | some s =>
        simp only
        obtain ⟨g1, g2, g3, g4⟩ := paid_enter pf n h2 h3 (UBlock.new s.blockId)
        have g5 := enterLoop_len (pf := pf) n h2 (UBlock.new s.blockId)
        unfold enterUBlock
        match hy : enterLoop pf n (UBlock.new s.blockId) b' with
        | (.ok top, b'') =>
          rw [hy] at g1 g2 g3 g4 g5
          simp only at g1 g2 g3 g4 g5 ⊢
          have g6 := h6.append (g1.past (by simp) ⟨_, rfl⟩)
          cases ht : addTop ps top with
          | ok ps' =>
            simp only
            obtain ⟨k1, k2, k3, k4⟩ := ih g3 g4 ps'
            refine ⟨?_, by omega, by omega, k4⟩
            rw [← List.append_assoc]
            exact (g6.append k1).congr Iff.rfl id (by omega)
          | err e =>
            simp only [List.append_nil]
            exact ⟨g6.congr (by simp) (by simp) (by omega), by omega, by omega, g3⟩
          | panic e => exact absurd ht (addTop_nopanic _ _ _)
          | diverge =>
            simp only [List.append_nil]
            exact ⟨g6.congr (by simp) (by simp) (by omega), by omega, by omega, g3⟩
        | (.err e, b'') =>
          rw [hy] at g1 g2 g3 g4 g5
          simp only [List.append_nil] at g1 g2 g3 g4 g5 ⊢
          exact ⟨(h6.append g1).congr (by simp) (by simp) (by omega), by omega, by omega, g3⟩
        | (.panic e, b'') =>
          rw [hy] at g1 g2 g3 g4 g5
          simp only [List.append_nil] at g1 g2 g3 g4 g5 ⊢
          exact ⟨(h6.append g1).congr (by simp) (by simp) (by omega), by omega, by omega, g3⟩
        | (.diverge, b'') =>
          rw [hy] at g1 g2 g3 g4 g5
          simp only [List.append_nil] at g1 g2 g3 g4 g5 ⊢
          exact ⟨(h6.append g1).congr (by simp) (by simp) (by omega), by omega, by omega, g3⟩

theorem paid_unroll (pf : Profile) {b : Bitstream} (hp : PInv b.parser) (hs : b.parser.Small) :
    Paid (unroll pf b = .panic .capacity) (∃ x, unroll pf b = .ok x) (Reserve.unroll pf b) b.len := by
  obtain ⟨h1, h2, h3, h4⟩ := paid_unrollLoop pf (unrollFuel b) hp hs []
  refine h1.congr Iff.rfl id ?_
  have := tellBit_le h4.cur
  unfold Bitstream.pos Bitstream.len bitLen at *
  omega

end Verif
