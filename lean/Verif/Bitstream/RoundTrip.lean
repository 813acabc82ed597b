import Verif.Bitstream.Grid
import Verif.Bitstream.AbbrevReads
import Verif.Bitstream.Good

/-!
Reading back whole streams.
-/

set_option linter.unusedSimpArgs false

namespace Verif
open Spec Cursor Parser

/-- Rounds of the parser: `es` are the entries that the rounds give, hidden rounds give none. -/
inductive Steps (pf : Profile) : Parser → List StreamEntry → Parser → Prop
  | nil (p : Parser) : Steps pf p [] p
  | hidden {p p' q : Parser} {es : List StreamEntry} : Parser.step pf p = (.ok none, p') → Steps pf p' es q →
      Steps pf p es q
  | emit {p p' q : Parser} {e : StreamEntry} {es : List StreamEntry} : Parser.step pf p = (.ok (some e), p') →
      Steps pf p' es q → Steps pf p (e :: es) q

theorem Steps.trans {pf : Profile} {p q r : Parser} {es fs : List StreamEntry} (h₁ : Steps pf p es q)
    (h₂ : Steps pf q fs r) : Steps pf p (es ++ fs) r := by
  induction h₁ with
  | nil => exact h₂
  | hidden h _ ih => exact .hidden h (ih h₂)
  | emit h _ ih => exact .emit h (ih h₂)

/-- The reader's form of an entry. -/
def Spec.Entry.toStream : Entry → StreamEntry
  | .start id n => .subBlock { blockId := id, len := BitVec.ofNat 64 n }
  | .record a code fields => .record { abbrevId := a, code := code, fields := fields }
  | .finish => .endBlock

/-- The parser scope for a context. -/
def topScope (k : Ctx) : Scope :=
  match k.block with
  | none => .initial
  | some b => .block k.width b k.target (k.defs.map Def.abbrev)

/-- The parser is where the writer is. -/
structure Match (gr : Grid) (k : Ctx) (lower : List Scope) (p : Parser) : Prop where
  on : gr.on p.cursor
  scopes : p.scopes = topScope k :: lower
  stack : StackOK (topScope k :: lower)
  width : (topScope k).abbrevIdWidth = k.width
  info : ∀ id, (p.blockinfo id).getD [] = (k.info id).map Def.abbrev

theorem Match.winv {k : Ctx} {lower : List Scope} {p : Parser} (h : Match wordGrid k lower p) : WInv p.cursor := h.on

theorem Match.pinv {gr : Grid} {k : Ctx} {lower : List Scope} {p : Parser} (h : Match gr k lower p) : PInv p :=
  ⟨gr.inv h.on, by rw [h.scopes]; exact h.stack⟩

/-- Same parser with the cursor moved. -/
def at' (p : Parser) (c : Cursor) : Parser := { p with cursor := c }

theorem Match.at' {gr : Grid} {k : Ctx} {lower : List Scope} {p : Parser} (h : Match gr k lower p) {c : Cursor}
    (hc : gr.on c) : Match gr k lower (at' p c) := ⟨hc, h.scopes, h.stack, h.width, h.info⟩

theorem onCursor_reads {α : Type} {m : BM α} {pos : Nat} {b tail : List Bool} {v : α} (h : Reads m pos b v) {p : Parser}
    {c : Cursor} (hw : WInv c) (hp : c.tellBit % 32 = pos % 32) (hr : c.rest = b ++ tail) :
    ∃ c', onCursor m (at' p c) = (.ok v, at' p c') ∧ WInv c' ∧ SameBuf c c' ∧ c'.rest = tail ∧
      c'.tellBit = c.tellBit + b.length := by
  obtain ⟨c', e, rest⟩ := h c tail hw hp hr
  exact ⟨c', by simp [onCursor, e, Verif.at'], rest⟩

theorem idBits_spec {k : Ctx} {id : U64} {i : List Bool} (h : idBits k id = some i) :
    1 ≤ k.width.toNat ∧ k.width.toNat ≤ 63 ∧ id.toNat < 2 ^ k.width.toNat ∧ i = bitsOfNat k.width.toNat id.toNat := by
  simp only [idBits] at h
  split at h
  · next hc => simp at h; exact ⟨hc.1, hc.2.1, hc.2.2, h.symm⟩
  · simp at h

/-- What `advance` does with an abbreviation id. -/
def dispatch (pf : Profile) (id : U64) : PM (Option StreamEntry) :=
  if id = 0 then exitBlock
  else if id = 1 then enterBlock pf
  else if id = 2 then do
    defineAbbrev pf
    pure none
  else if id = 3 then parseUnabbrev pf
  else parseWithAbbrev pf id

theorem step_dispatch {pf : Profile} {k : Ctx} {lower : List Scope} {p : Parser} (hm : Match wordGrid k lower p) {id : U64}
    {i tail : List Bool} (hi : idBits k id = some i) (hr : p.cursor.rest = i ++ tail) :
    ∃ c', Parser.step pf p = dispatch pf id (at' p c') ∧ WInv c' ∧ SameBuf p.cursor c' ∧ c'.rest = tail ∧
      c'.tellBit = p.cursor.tellBit + i.length := by
  obtain ⟨h1, h2, hlt, rfl⟩ := idBits_spec hi
  obtain ⟨c', e, hw, hsb, hrest, ht⟩ := onCursor_reads (reads_read h1 h2 hlt p.cursor.tellBit).cur (p := p) hm.winv rfl hr
  refine ⟨c', ?_, hw, hsb, hrest, ht⟩
  unfold Parser.step
  rw [StM.bind_ok (show StM.get p = (.ok p, p) from rfl)]
  have hne : ¬ (p.cursor.exhausted = true) := by
    rw [exhausted_iff_rest hm.winv.toInv, hr]
    intro hc
    have := congrArg List.length hc
    simp at this; omega
  rw [if_neg hne, StM.bind_ok (show scope p = (.ok (topScope k), p) by simp [scope, hm.scopes]), hm.width,
    StM.bind_ok (show onCursor (cur (Cursor.read k.width.toNat)) p = (.ok id, at' p c') from e)]
  rfl

/-! ## One item -/

theorem scope_apply {gr : Grid} {k : Ctx} {lower : List Scope} {p : Parser} (h : Match gr k lower p) :
    scope p = (.ok (topScope k), p) := by simp [scope, h.scopes]

theorem isBlockinfo_top {k : Ctx} : (topScope k).isBlockinfo = decide (k.block = some 0) := by
  simp only [topScope]
  cases h : k.block with
  | none => simp [Scope.isBlockinfo]
  | some b =>
    rw [Bool.eq_iff_iff]
    simp [Scope.isBlockinfo]

theorem Match.lower_ok {gr : Grid} {k : Ctx} {lower : List Scope} {p : Parser} (h : Match gr k lower p) (hb : k.block ≠ none) :
    StackOK lower := by
  have := h.stack
  cases lower with
  | nil =>
    simp only [StackOK, topScope] at this
    cases hk : k.block with
    | none => exact absurd hk hb
    | some b => rw [hk] at this; simp at this
  | cons a l => exact this.2

/-- Match for a block context, from its parts. -/
theorem Match.block {gr : Grid} {k : Ctx} {b : U64} (hb : k.block = some b) {lower : List Scope} (hl : StackOK lower) {p : Parser}
    (hw : gr.on p.cursor) (hs : p.scopes = .block k.width b k.target (k.defs.map Def.abbrev) :: lower)
    (hi : ∀ id, (p.blockinfo id).getD [] = (k.info id).map Def.abbrev) : Match gr k lower p := by
  have ht : topScope k = .block k.width b k.target (k.defs.map Def.abbrev) := by simp [topScope, hb]
  exact ⟨hw, by rw [ht]; exact hs, hl.push (by rw [ht]; simp), by rw [ht]; rfl, hi⟩

theorem define_step {pf : Profile} {k k' : Ctx} {lower : List Scope} {p : Parser} (hm : Match wordGrid k lower p) {d : Def}
    {i tail : List Bool} (hi : idBits k 2 = some i) (hd : d.Valid) (hk : k.define d = some k')
    (hr : p.cursor.rest = (i ++ d.bits) ++ tail) :
    ∃ q, Parser.step pf p = (.ok none, q) ∧ Match wordGrid k' lower q ∧ SameBuf p.cursor q.cursor ∧ q.cursor.rest = tail ∧
      q.cursor.tellBit = p.cursor.tellBit + (i ++ d.bits).length := by
  rw [List.append_assoc] at hr
  obtain ⟨c₁, e₁, w₁, s₁, r₁, t₁⟩ := step_dispatch (pf := pf) hm hi hr
  obtain ⟨c₂, e₂, w₂, s₂, r₂, t₂⟩ := onCursor_reads (reads_abbrevNew pf d hd c₁.tellBit) (p := p) w₁ rfl r₁
  have hm₂ : Match wordGrid k lower (at' p c₂) := hm.at' w₂
  have e₁' : Parser.step pf p = ((do defineAbbrev pf; pure none) : PM (Option StreamEntry)) (at' p c₁) := e₁
  have hdef : defineAbbrev pf (at' p c₁) = (if (topScope k).isBlockinfo then
      match (topScope k).blockinfoBlockId with
      | none => StM.throw (.streamParse .noSetBid)
      | some id => pushBlockinfo id d.abbrev
    else scopeMut (Scope.extendAbbrevs [d.abbrev])) (at' p c₂) := by
    unfold defineAbbrev
    rw [StM.bind_ok e₂]
    exact StM.bind_ok (scope_apply hm₂)
  have htell : c₂.tellBit = p.cursor.tellBit + (i ++ d.bits).length := by
    rw [t₂, t₁]; simp; omega
  simp only [Ctx.define] at hk
  match hb : k.block with
  | none => rw [hb] at hk; simp at hk
  | some b =>
    rw [hb] at hk
    simp only at hk
    have ht : topScope k = .block k.width b k.target (k.defs.map Def.abbrev) := by simp [topScope, hb]
    by_cases h0 : b = 0
    · rw [if_pos h0] at hk
      match htg : k.target with
      | none => rw [htg] at hk; simp at hk
      | some t =>
        rw [htg] at hk
        simp only [Option.some.injEq] at hk
        have hbi : (topScope k).isBlockinfo = true := by rw [isBlockinfo_top, hb, h0]; rfl
        rw [if_pos hbi, ht] at hdef
        simp only [Scope.blockinfoBlockId, htg] at hdef
        let bi : U64 → Option (List Abbrev) := fun id =>
          if id = t then some ((p.blockinfo t).getD [] ++ [d.abbrev]) else p.blockinfo id
        refine ⟨{ (at' p c₂) with blockinfo := bi }, ?_, ?_, s₁.trans s₂, r₂, htell⟩
        · rw [e₁', StM.bind_ok (hdef.trans rfl)]; rfl
        · subst hk
          refine Match.block (b := b) rfl (hm.lower_ok (by simp [hb])) w₂ ?_ ?_
          · show p.scopes = _
            rw [hm.scopes, ht, htg]
          · intro id
            show (if id = t then some ((p.blockinfo t).getD [] ++ [d.abbrev]) else p.blockinfo id).getD [] = _
            by_cases hid : id = t
            · simp [hid, hm.info t]
            · simp [hid, hm.info id]
    · rw [if_neg h0] at hk
      simp only [Option.some.injEq] at hk
      have hbi : ¬ (topScope k).isBlockinfo = true := by rw [isBlockinfo_top, hb]; simpa using h0
      rw [if_neg hbi] at hdef
      have hsm : scopeMut (Scope.extendAbbrevs [d.abbrev]) (at' p c₂) =
          (.ok (), { (at' p c₂) with scopes := .block k.width b k.target (k.defs.map Def.abbrev ++ [d.abbrev]) :: lower }) := by
        simp [scopeMut, Verif.at', hm.scopes, ht, Scope.extendAbbrevs]
      refine ⟨{ (at' p c₂) with scopes := .block k.width b k.target (k.defs.map Def.abbrev ++ [d.abbrev]) :: lower },
        ?_, ?_, s₁.trans s₂, r₂, htell⟩
      · rw [e₁', StM.bind_ok (hdef.trans hsm)]; rfl
      · subst hk
        refine Match.block (b := b) rfl (hm.lower_ok (by simp [hb])) w₂ ?_ hm.info
        simp

theorem unabbrev_step {pf : Profile} {k k' : Ctx} {lower : List Scope} {p : Parser} (hm : Match wordGrid k lower p) {code : U64}
    {fields : List U64} {i u tail : List Bool} (hi : idBits k 3 = some i) (hu : unabbrevBits code fields = some u)
    (hk : k.unabbrev code fields = some k') (hr : p.cursor.rest = (i ++ u) ++ tail) :
    ∃ q, Parser.step pf p = (.ok (if k.block = some 0 then none
        else some (.record { abbrevId := none, code := code, fields := fields })), q) ∧
      Match wordGrid k' lower q ∧ SameBuf p.cursor q.cursor ∧ q.cursor.rest = tail ∧
      q.cursor.tellBit = p.cursor.tellBit + (i ++ u).length := by
  rw [List.append_assoc] at hr
  simp only [unabbrevBits, Option.bind_eq_bind, Option.bind_eq_some_iff, Option.some.injEq] at hu
  obtain ⟨n, hn, rfl⟩ := hu
  obtain ⟨rfl, hlen, hlt⟩ := countBits_spec hn
  obtain ⟨c₁, e₁, w₁, s₁, r₁, t₁⟩ := step_dispatch (pf := pf) hm hi hr
  rw [List.append_assoc, List.append_assoc] at r₁
  obtain ⟨c₂, e₂, w₂, s₂, r₂, t₂⟩ := onCursor_reads (reads_readVbr pf (w := 6) (by omega) (by omega) code c₁.tellBit).cur
    (p := p) w₁ rfl r₁
  obtain ⟨c₃, e₃, w₃, s₃, r₃, t₃⟩ := onCursor_reads (reads_readVbr pf (w := 6) (by omega) (by omega) _ c₂.tellBit).cur
    (p := p) w₂ rfl r₂
  obtain ⟨c₄, e₄, w₄, s₄, r₄, t₄⟩ := onCursor_reads (reads_vbr6s pf fields c₃.tellBit) (p := p) w₃ rfl r₃
  have htell : c₄.tellBit = p.cursor.tellBit +
      (i ++ (encVbr 6 code ++ (encVbr 6 (BitVec.ofNat 64 fields.length) ++ vbr6s fields))).length := by
    rw [t₄, t₃, t₂, t₁]; simp; omega
  have hsb := ((s₁.trans s₂).trans s₃).trans s₄
  match hb : k.block with
  | none => simp [Ctx.unabbrev, hb] at hk
  | some b =>
    have ht : topScope k = .block k.width b k.target (k.defs.map Def.abbrev) := by simp [topScope, hb]
    have e₁' : Parser.step pf p = parseUnabbrev pf (at' p c₁) := e₁
    have hpu : parseUnabbrev pf (at' p c₁) = (if (topScope k).isBlockinfo then do
        let c ← BlockInfoCode.tryFrom code
        match c with
        | .setBid =>
          match fields with
          | [] => StM.panic .setBidField
          | bid :: _ => do
            scopeMut (Scope.setBlockinfoBlockId bid)
            pure none
        | .blockName => pure none
        | .setRecordName => pure none
      else
        (pure (some (StreamEntry.record { abbrevId := none, code := code, fields := fields })) : PM _)) (at' p c₄) := by
      unfold parseUnabbrev
      rw [StM.bind_ok (scope_apply (hm.at' w₁)), if_neg (by rw [ht]; simp), StM.bind_ok e₂, StM.bind_ok e₃,
        withCapacity_ok (by omega), StM.bind_ok (StM.pure_apply () _), hlen, StM.bind_ok e₄]
      exact StM.bind_ok (scope_apply (hm.at' w₄))
    rw [isBlockinfo_top, hb] at hpu
    simp only [Ctx.unabbrev, hb] at hk
    by_cases h0 : b = 0
    · subst h0
      simp only [decide_true, if_true] at hpu
      simp only [if_true] at hk
      simp only [if_true]
      by_cases h1 : code = 1
      · subst h1
        simp only [if_true] at hk
        cases fields with
        | nil => simp at hk
        | cons t ts =>
          simp only [Option.some.injEq] at hk
          have hsm : scopeMut (Scope.setBlockinfoBlockId t) (at' p c₄) =
              (.ok (), { (at' p c₄) with scopes := .block k.width 0 (some t) (k.defs.map Def.abbrev) :: lower }) := by
            simp [scopeMut, Verif.at', hm.scopes, ht, Scope.setBlockinfoBlockId]
          refine ⟨{ (at' p c₄) with scopes := .block k.width 0 (some t) (k.defs.map Def.abbrev) :: lower }, ?_, ?_,
            hsb, r₄, htell⟩
          · rw [e₁', hpu, StM.bind_ok (show BlockInfoCode.tryFrom 1 (at' p c₄) = (.ok .setBid, at' p c₄) from rfl)]
            exact StM.bind_ok hsm
          · subst hk
            refine Match.block (b := 0) rfl (hm.lower_ok (by simp [hb])) ?_ ?_ ?_
            · exact w₄
            · rfl
            · exact hm.info
      · rw [if_neg h1] at hk
        split at hk
        · next h23 =>
          simp only [Option.some.injEq] at hk
          subst hk
          refine ⟨_, ?_, hm.at' w₄, hsb, r₄, htell⟩
          rw [e₁', hpu]
          rcases h23 with h | h
          · rw [h]; rfl
          · rw [h]; rfl
        · simp at hk
    · have hne : ¬ ((some b : Option U64) = some 0) := by simpa using h0
      rw [if_neg h0] at hk
      simp only [Option.some.injEq] at hk
      subst hk
      refine ⟨_, ?_, hm.at' w₄, hsb, r₄, htell⟩
      rw [e₁', hpu, if_neg (by simpa using h0), if_neg hne]
      rfl

theorem toNat_sub4 {id : U64} (h : 4 ≤ id.toNat) : (id - 4).toNat = id.toNat - 4 := by
  rw [BitVec.toNat_sub]
  simp only [BitVec.ofNat_eq_ofNat, BitVec.toNat_ofNat]
  have := id.isLt
  omega

theorem abbrev_step {pf : Profile} {k : Ctx} {lower : List Scope} {p : Parser} (hm : Match wordGrid k lower p) {id code : U64}
    {fields : List U64} {d : Def} {i v tail : List Bool} {pos : Nat} (hi : idBits k id = some i) (hd : k.lookup id = some d)
    (hv : d.valBits (pos + i.length) (code :: fields) = some v) (hpos : p.cursor.tellBit % 32 = pos % 32)
    (hr : p.cursor.rest = (i ++ v) ++ tail) :
    ∃ q, Parser.step pf p = (.ok (some (.record { abbrevId := some id, code := code, fields := fields })), q) ∧
      Match wordGrid k lower q ∧ SameBuf p.cursor q.cursor ∧ q.cursor.rest = tail ∧
      q.cursor.tellBit = p.cursor.tellBit + (i ++ v).length := by
  rw [List.append_assoc] at hr
  obtain ⟨c₁, e₁, w₁, s₁, r₁, t₁⟩ := step_dispatch (pf := pf) hm hi hr
  obtain ⟨c₂, e₂, w₂, s₂, r₂, t₂⟩ := onCursor_reads (reads_abbrevParse pf d _ _ hv) (p := p) w₁
    (by omega) r₁
  have htell : c₂.tellBit = p.cursor.tellBit + (i ++ v).length := by
    rw [t₂, t₁]; simp; omega
  simp only [Ctx.lookup] at hd
  match hb : k.block with
  | none => rw [hb] at hd; simp at hd
  | some b =>
    rw [hb] at hd
    simp only at hd
    split at hd
    · simp at hd
    · next hcond =>
      have hb0 : b ≠ 0 := fun h => hcond (.inl h)
      have hid : 4 ≤ id.toNat := by
        rcases Nat.lt_or_ge id.toNat 4 with h | h
        · exact absurd (.inr h) hcond
        · exact h
      have ht : topScope k = .block k.width b k.target (k.defs.map Def.abbrev) := by simp [topScope, hb]
      have hne : ∀ n : Nat, n < 4 → ¬ id = BitVec.ofNat 64 n := by
        intro n hn hc
        rw [hc] at hid
        simp at hid; omega
      have e₁' : Parser.step pf p = parseWithAbbrev pf id (at' p c₁) := by
        rw [e₁]
        show (if id = 0#64 then exitBlock else if id = 1#64 then enterBlock pf else if id = 2#64 then _
          else if id = 3#64 then parseUnabbrev pf else parseWithAbbrev pf id) _ = _
        rw [if_neg (hne 0 (by omega)), if_neg (hne 1 (by omega)), if_neg (hne 2 (by omega)), if_neg (hne 3 (by omega))]
      have hget : (topScope k).getAbbrev pf id = .ok d.abbrev := by
        rw [ht]
        simp only [Scope.getAbbrev]
        rw [if_neg (by omega), toNat_sub4 hid, List.getElem?_map, hd]
        rfl
      refine ⟨at' p c₂, ?_, hm.at' w₂, s₁.trans s₂, r₂, htell⟩
      rw [e₁']
      unfold parseWithAbbrev
      rw [StM.bind_ok (scope_apply (hm.at' w₁)), hget, StM.bind_ok (StM.lift_apply (.ok d.abbrev) _), StM.bind_ok e₂]
      simp only
      rw [StM.bind_ok (show scope (at' p c₂) = (.ok (topScope k), at' p c₂) from scope_apply (hm.at' w₂)),
        isBlockinfo_top, hb, if_neg (by simpa using hb0)]
      rfl

theorem get_bind {σ ε α : Type} (f : σ → StM σ ε α) (s : σ) : (StM.get >>= f) s = f s s := rfl

theorem enter_step {pf : Profile} {k : Ctx} {lower : List Scope} {p : Parser} (hm : Match wordGrid k lower p) {id width : U64}
    (hwid : 1 ≤ width.toNat) {i tail : List Bool} {words pos : Nat} (hi : idBits k 1 = some i) (hwords : words < 2 ^ 32)
    (hpos : p.cursor.tellBit % 32 = pos % 32)
    (hr : p.cursor.rest = ((i ++ (encVbr 8 id ++ encVbr 4 width)) ++
      pad32 (pos + (i ++ (encVbr 8 id ++ encVbr 4 width)).length)) ++ (bitsOfNat 32 words ++ tail)) :
    ∃ q, Parser.step pf p = (.ok (if id = 0 then none
        else some (.subBlock { blockId := id, len := BitVec.ofNat 64 (4 * words) })), q) ∧
      Match wordGrid (k.enter id width) (topScope k :: lower) q ∧ SameBuf p.cursor q.cursor ∧ q.cursor.rest = tail ∧
      q.cursor.tellBit = p.cursor.tellBit + (((i ++ (encVbr 8 id ++ encVbr 4 width)) ++
        pad32 (pos + (i ++ (encVbr 8 id ++ encVbr 4 width)).length)).length + 32) := by
  simp only [List.append_assoc] at hr
  obtain ⟨c₁, e₁, w₁, s₁, r₁, t₁⟩ := step_dispatch (pf := pf) hm hi hr
  obtain ⟨c₂, e₂, w₂, s₂, r₂, t₂⟩ := onCursor_reads (reads_readVbr pf (w := 8) (by omega) (by omega) id c₁.tellBit).cur
    (p := p) w₁ rfl r₁
  obtain ⟨c₃, e₃, w₃, s₃, r₃, t₃⟩ := onCursor_reads (reads_readVbr pf (w := 4) (by omega) (by omega) width c₂.tellBit).cur
    (p := p) w₂ rfl r₂
  obtain ⟨c₄, e₄, w₄, s₄, r₄, t₄⟩ := onCursor_reads (reads_align (pos + (i ++ (encVbr 8 id ++ encVbr 4 width)).length))
    (p := p) w₃ (by simp only [List.length_append] at *; omega) r₃
  have hwv : (BitVec.ofNat 64 words).toNat = words := by simp; omega
  have hrd := (reads_read (n := 32) (by omega) (by omega) (v := BitVec.ofNat 64 words) (by omega) c₄.tellBit).cur
  rw [hwv] at hrd
  obtain ⟨c₅, e₅, w₅, s₅, r₅, t₅⟩ := onCursor_reads hrd (p := p) w₄ rfl r₄
  have htell : c₅.tellBit = p.cursor.tellBit + (((i ++ (encVbr 8 id ++ encVbr 4 width)) ++
        pad32 (pos + (i ++ (encVbr 8 id ++ encVbr 4 width)).length)).length + 32) := by
    simp only [List.length_append, bitsOfNat_length] at *; omega
  have hsb := (((s₁.trans s₂).trans s₃).trans s₄).trans s₅
  have e₁' : Parser.step pf p = enterBlock pf (at' p c₁) := e₁
  have hw1 : ¬ (width < 1) := by rw [BitVec.lt_def]; simp; omega
  have hlen : (BitVec.ofNat 64 words * 4 : U64) = BitVec.ofNat 64 (4 * words) := by
    apply BitVec.eq_of_toNat_eq
    rw [BitVec.toNat_mul]
    simp only [BitVec.toNat_ofNat, BitVec.ofNat_eq_ofNat]
    omega
  -- the state after `push` and `extend`
  have hpush : ∃ q, (∀ f : PM (Option StreamEntry), (do
        pushScope (Scope.new width id)
        let p ← StM.get
        match p.blockinfo id with
        | some abbrevs => scopeMut (Scope.extendAbbrevs abbrevs)
        | none => pure ()
        f) (at' p c₅) = f q) ∧ q.cursor = c₅ ∧ q.blockinfo = p.blockinfo ∧
        q.scopes = .block width id none ((k.info id).map Def.abbrev) :: topScope k :: lower := by
    have hinfo := hm.info id
    cases hbi : p.blockinfo id with
    | none =>
      rw [hbi] at hinfo
      refine ⟨{ (at' p c₅) with scopes := Scope.new width id :: p.scopes }, ?_, rfl, rfl, ?_⟩
      · intro f
        rw [StM.bind_ok (show pushScope (Scope.new width id) (at' p c₅) =
          (.ok (), { (at' p c₅) with scopes := Scope.new width id :: p.scopes }) from rfl)]
        rw [get_bind]
        simp only [Verif.at', hbi]
      · rw [← hinfo, hm.scopes]; rfl
    | some l =>
      rw [hbi] at hinfo
      refine ⟨{ (at' p c₅) with scopes := .block width id none ([] ++ l) :: p.scopes }, ?_, rfl, rfl, ?_⟩
      · intro f
        rw [StM.bind_ok (show pushScope (Scope.new width id) (at' p c₅) =
          (.ok (), { (at' p c₅) with scopes := Scope.new width id :: p.scopes }) from rfl)]
        rw [get_bind]
        simp only [Verif.at', hbi]
        rfl
      · rw [← hinfo, hm.scopes]; simp
  obtain ⟨q, hq, hqc, hqb, hqs⟩ := hpush
  have hmq : Match wordGrid (k.enter id width) (topScope k :: lower) q := by
    refine Match.block (b := id) rfl hm.stack (by rw [hqc]; exact w₅) hqs ?_
    intro id'; rw [hqb]; exact hm.info id'
  refine ⟨q, ?_, hmq, by rw [hqc]; exact hsb, by rw [hqc]; exact r₅, by rw [hqc]; exact htell⟩
  rw [e₁']
  unfold enterBlock
  rw [StM.bind_ok e₂, StM.bind_ok e₃, StM.bind_ok e₄, if_neg hw1, StM.bind_ok e₅, mul4_ok (by omega), hlen]
  rw [StM.bind_ok (StM.pure_apply _ _)]
  refine (hq _).trans ?_
  rw [StM.bind_ok (scope_apply hmq), isBlockinfo_top]
  show (if decide ((some id : Option U64) = some 0) = true then pure none else _ : PM (Option StreamEntry)) q = _
  by_cases h0 : id = 0
  · rw [if_pos (by simp [h0]), if_pos h0]; rfl
  · rw [if_neg (by simpa using h0), if_neg h0]; rfl

theorem exit_step {pf : Profile} {k : Ctx} {b : U64} (hb : k.block = some b) {s : Scope} {lower : List Scope} {p : Parser}
    (hm : Match wordGrid k (s :: lower) p) {e tail : List Bool} {pos : Nat} (he : idBits k 0 = some e)
    (hpos : p.cursor.tellBit % 32 = pos % 32)
    (hr : p.cursor.rest = (e ++ pad32 (pos + e.length)) ++ tail) :
    ∃ q, Parser.step pf p = (.ok (if b = 0 then none else some .endBlock), q) ∧
      WInv q.cursor ∧ q.scopes = s :: lower ∧ q.blockinfo = p.blockinfo ∧ SameBuf p.cursor q.cursor ∧
      q.cursor.rest = tail ∧ q.cursor.tellBit = p.cursor.tellBit + (e ++ pad32 (pos + e.length)).length := by
  rw [List.append_assoc] at hr
  obtain ⟨c₁, e₁, w₁, s₁, r₁, t₁⟩ := step_dispatch (pf := pf) hm he hr
  obtain ⟨c₂, e₂, w₂, s₂, r₂, t₂⟩ := onCursor_reads (reads_align (pos + e.length)) (p := p) w₁
    (by omega) r₁
  have htell : c₂.tellBit = p.cursor.tellBit + (e ++ pad32 (pos + e.length)).length := by
    simp only [List.length_append] at *; omega
  have e₁' : Parser.step pf p = exitBlock (at' p c₁) := e₁
  refine ⟨{ (at' p c₂) with scopes := s :: lower }, ?_, w₂, rfl, rfl, s₁.trans s₂, r₂, htell⟩
  rw [e₁']
  unfold exitBlock
  rw [StM.bind_ok e₂, StM.bind_ok (show StM.get (at' p c₂) = (.ok (at' p c₂), at' p c₂) from rfl)]
  have hsc : (at' p c₂).scopes = topScope k :: s :: lower := hm.scopes
  rw [hsc]
  simp only
  rw [StM.bind_ok (show (StM.set { (at' p c₂) with scopes := s :: lower } : PM Unit) (at' p c₂) = (.ok (), _) from rfl)]
  rw [isBlockinfo_top, hb]
  by_cases h0 : b = 0
  · rw [if_pos (by simp [h0]), if_pos h0]; rfl
  · rw [if_neg (by simpa using h0), if_neg h0]; rfl

/-! ## All items -/

theorem visible_map {k : Ctx} {e : Entry} {es : List Entry} :
    (visible k e ++ es).map Entry.toStream =
      (if k.block = some 0 then [] else [e.toStream]) ++ es.map Entry.toStream := by
  simp only [visible]; split <;> simp

/-- A context's block and width do not change. -/
theorem define_same {k k' : Ctx} {d : Def} (h : k.define d = some k') : k'.block = k.block ∧ k'.width = k.width := by
  simp only [Ctx.define] at h
  repeat' split at h
  all_goals first | (simp at h; done) | (simp at h; subst h; exact ⟨rfl, rfl⟩)

theorem unabbrev_same {k k' : Ctx} {c : U64} {f : List U64} (h : k.unabbrev c f = some k') :
    k'.block = k.block ∧ k'.width = k.width ∧ k'.info = k.info := by
  simp only [Ctx.unabbrev] at h
  repeat' split at h
  all_goals first | (simp at h; done) | (simp at h; subst h; exact ⟨rfl, rfl, rfl⟩)

theorem write_same {its : Items} {k : Ctx} {pos : Nat} {w : Written} (h : write k pos its = some w) :
    w.after.block = k.block ∧ w.after.width = k.width := by
  induction its generalizing k pos w with
  | nil => simp [write] at h; subst h; exact ⟨rfl, rfl⟩
  | define d rest ih =>
    simp only [write, Option.bind_eq_bind, Option.bind_eq_some_iff] at h
    obtain ⟨i, hi, h⟩ := h
    split at h
    · simp only [Option.bind_eq_some_iff, Option.some.injEq] at h
      obtain ⟨k', hk', r, hr, rfl⟩ := h
      have := ih hr
      exact ⟨this.1.trans (define_same hk').1, this.2.trans (define_same hk').2⟩
    · simp at h
  | unabbrev code fields rest ih =>
    simp only [write, Option.bind_eq_bind, Option.bind_eq_some_iff, Option.some.injEq] at h
    obtain ⟨i, hi, u, hu, k', hk', r, hr, rfl⟩ := h
    have := ih hr
    exact ⟨this.1.trans (unabbrev_same hk').1, this.2.trans (unabbrev_same hk').2.1⟩
  | «abbrev» id code fields rest ih =>
    simp only [write, Option.bind_eq_bind, Option.bind_eq_some_iff, Option.some.injEq] at h
    obtain ⟨i, hi, d, hd, v, hv, r, hr, rfl⟩ := h
    exact ⟨(ih hr).1, (ih hr).2⟩
  | block id width body rest ihb ihr =>
    simp only [write, Option.bind_eq_bind, Option.bind_eq_some_iff] at h
    obtain ⟨i, hi, w', hw', e, he, h⟩ := h
    split at h
    · simp only [Option.bind_eq_some_iff, Option.some.injEq] at h
      obtain ⟨r, hr, rfl⟩ := h
      exact ⟨(ihr hr).1, (ihr hr).2⟩
    · simp at h

theorem write_steps (pf : Profile) {its : Items} {k : Ctx} {pos : Nat} {w : Written} (h : write k pos its = some w)
    {lower : List Scope} {p : Parser} (hm : Match wordGrid k lower p) (hpos : p.cursor.tellBit % 32 = pos % 32) {tail : List Bool}
    (hr : p.cursor.rest = w.bits ++ tail) :
    ∃ q, Steps pf p (w.entries.map Entry.toStream) q ∧ Match wordGrid w.after lower q ∧ SameBuf p.cursor q.cursor ∧
      q.cursor.rest = tail ∧ q.cursor.tellBit = p.cursor.tellBit + w.bits.length := by
  induction its generalizing k pos w lower p tail with
  | nil =>
    simp [write] at h; subst h
    exact ⟨p, .nil p, hm, .rfl', by simpa using hr, by simp⟩
  | define d rest ih =>
    simp only [write, Option.bind_eq_bind, Option.bind_eq_some_iff] at h
    obtain ⟨i, hi, h⟩ := h
    split at h
    · next hd =>
      simp only [Option.bind_eq_some_iff, Option.some.injEq] at h
      obtain ⟨k', hk', r, hr', rfl⟩ := h
      simp only at hr ⊢
      rw [List.append_assoc] at hr
      obtain ⟨q₁, st, hm₁, s₁, r₁, t₁⟩ := define_step (pf := pf) hm hi hd hk' hr
      obtain ⟨q₂, st₂, hm₂, s₂, r₂, t₂⟩ := ih hr' hm₁ (by omega) r₁
      exact ⟨q₂, .hidden st st₂, hm₂, s₁.trans s₂, r₂, by simp only [List.length_append] at *; omega⟩
    · simp at h
  | unabbrev code fields rest ih =>
    simp only [write, Option.bind_eq_bind, Option.bind_eq_some_iff, Option.some.injEq] at h
    obtain ⟨i, hi, u, hu, k', hk', r, hr', rfl⟩ := h
    simp only at hr ⊢
    rw [List.append_assoc] at hr
    obtain ⟨q₁, st, hm₁, s₁, r₁, t₁⟩ := unabbrev_step (pf := pf) hm hi hu hk' hr
    obtain ⟨q₂, st₂, hm₂, s₂, r₂, t₂⟩ := ih hr' hm₁ (by omega) r₁
    refine ⟨q₂, ?_, hm₂, s₁.trans s₂, r₂, by simp only [List.length_append] at *; omega⟩
    rw [visible_map]
    split at st
    · next hb => rw [if_pos hb]; exact .hidden st st₂
    · next hb => rw [if_neg hb]; exact .emit st st₂
  | «abbrev» id code fields rest ih =>
    simp only [write, Option.bind_eq_bind, Option.bind_eq_some_iff, Option.some.injEq] at h
    obtain ⟨i, hi, d, hd, v, hv, r, hr', rfl⟩ := h
    simp only at hr ⊢
    rw [List.append_assoc] at hr
    obtain ⟨q₁, st, hm₁, s₁, r₁, t₁⟩ := abbrev_step (pf := pf) hm hi hd hv hpos hr
    obtain ⟨q₂, st₂, hm₂, s₂, r₂, t₂⟩ := ih hr' hm₁ (by omega) r₁
    refine ⟨q₂, ?_, hm₂, s₁.trans s₂, r₂, by simp only [List.length_append] at *; omega⟩
    have hb : ¬ k.block = some 0 := by
      intro hb
      simp [Ctx.lookup, hb] at hd
    rw [visible_map, if_neg hb]
    exact .emit st st₂
  | block id width body rest ihb ihr =>
    simp only [write, Option.bind_eq_bind, Option.bind_eq_some_iff] at h
    obtain ⟨i, hi, wb, hwb, e, he, h⟩ := h
    split at h
    · next hwords =>
      simp only [Option.bind_eq_some_iff, Option.some.injEq] at h
      obtain ⟨r, hr', rfl⟩ := h
      simp only at hr ⊢
      have hsame := write_same hwb
      have hwid : 1 ≤ width.toNat := by
        have := (idBits_spec he).1
        rw [hsame.2] at this; exact this
      generalize hhead : (i ++ (encVbr 8 id ++ encVbr 4 width)) ++
        pad32 (pos + (i ++ (encVbr 8 id ++ encVbr 4 width)).length) = head at *
      generalize hinner : pos + (head.length + 32) = inner at *
      generalize htail : e ++ pad32 (inner + (wb.bits.length + e.length)) = tl at *
      generalize hw : (wb.bits.length + tl.length) / 32 = words at *
      simp only [List.append_assoc] at hr
      obtain ⟨q₁, st₁, hm₁, s₁, r₁, t₁⟩ := enter_step (pf := pf) (id := id) (width := width) hm hwid hi hwords hpos
        (hr.trans (by rw [← hhead]))
      rw [hhead] at t₁
      obtain ⟨q₂, st₂, hm₂, s₂, r₂, t₂⟩ := ihb hwb hm₁ (by omega) r₁
      rw [← htail] at r₂
      obtain ⟨q₃, st₃, w₃, sc₃, bi₃, s₃, r₃, t₃⟩ := exit_step (pf := pf) (b := id) hsame.1 hm₂
        (pos := inner + wb.bits.length) he (by omega) (by rw [Nat.add_assoc]; exact r₂)
      rw [Nat.add_assoc, htail] at t₃
      have hm₃ : Match wordGrid { k with info := wb.after.info } lower q₃ :=
        ⟨w₃, sc₃, hm.stack, hm.width, fun id' => by rw [bi₃]; exact hm₂.info id'⟩
      obtain ⟨q₄, st₄, hm₄, s₄, r₄, t₄⟩ := ihr hr' hm₃
        (by simp only [List.length_append, bitsOfNat_length] at *; omega) r₃
      refine ⟨q₄, ?_, hm₄, ((s₁.trans s₂).trans s₃).trans s₄, r₄, by
        simp only [List.length_append, bitsOfNat_length] at *; omega⟩
      by_cases h0 : id = 0
      · simp only [if_pos h0] at st₁ st₃ ⊢
        rw [List.map_append]
        refine .hidden st₁ ?_
        exact st₂.trans (.hidden st₃ st₄)
      · simp only [if_neg h0] at st₁ st₃ ⊢
        rw [List.map_cons, List.map_append, List.map_cons]
        refine .emit st₁ ?_
        exact st₂.trans (.emit st₃ st₄)
    · simp at h

end Verif
