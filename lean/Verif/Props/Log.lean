import Verif.Bitstream.LogSpec
import Verif.Props.Faults
import Verif.Props.SlackLengths

/-! C83: what the log tells. -/

set_option linter.unusedSimpArgs false

namespace Verif
open Spec Cursor Parser

variable {gr : Grid} {pf : Profile}

theorem Spec.Logs.item {base : Nat} {k k' : Ctx} {outer outer' : List Ctx} {pos : Nat} {b : List Bool} {ls : List LogLine} {es : List Entry}
    {pad : Nat → Nat} (h : Logs pf pad base k outer pos b ls es k' outer') : Item pf pad k outer pos b es k' outer' := by
  cases h with
  | define h1 h2 h3 => exact .define h1 h2 h3
  | unabbrev h1 h2 h3 h4 h5 => exact .unabbrev h1 h2 h3 h4 h5
  | «abbrev» h1 h2 h3 h4 h5 => exact .abbrev h1 h2 h3 h4 h5
  | enter h1 h2 h3 h4 h5 h6 => exact .enter h1 h2 h3 h4 h5 h6
  | exit h1 h2 => exact .exit h1 h2

theorem Spec.Item.logs {k k' : Ctx} {outer outer' : List Ctx} {pos : Nat} {b : List Bool} {es : List Entry}
    {pad : Nat → Nat} (h : Item pf pad k outer pos b es k' outer') (base : Nat) : ∃ ls, Logs pf pad base k outer pos b ls es k' outer' := by
  cases h with
  | define h1 h2 h3 => exact ⟨_, .define h1 h2 h3⟩
  | unabbrev h1 h2 h3 h4 h5 => exact ⟨_, .unabbrev h1 h2 h3 h4 h5⟩
  | «abbrev» h1 h2 h3 h4 h5 => exact ⟨_, .abbrev h1 h2 h3 h4 h5⟩
  | enter h1 h2 h3 h4 h5 h6 => exact ⟨_, .enter h1 h2 h3 h4 h5 h6⟩
  | exit h1 h2 => exact ⟨_, .exit h1 h2⟩

theorem Spec.LogsAll.stream {base : Nat} {k k' : Ctx} {outer outer' : List Ctx} {pos : Nat} {b : List Bool} {ls : List LogLine}
    {es : List Entry} {pad : Nat → Nat} (h : LogsAll pf pad base k outer pos b ls es k' outer') :
    Stream pf pad k outer pos b es k' outer' := by
  induction h with
  | nil => exact .nil
  | cons h _ ih => exact .cons h.item ih

theorem Spec.Stream.logs {k k' : Ctx} {outer outer' : List Ctx} {pos : Nat} {b : List Bool} {es : List Entry}
    {pad : Nat → Nat} (h : Stream pf pad k outer pos b es k' outer') (base : Nat) :
    ∃ ls, LogsAll pf pad base k outer pos b ls es k' outer' := by
  induction h with
  | nil => exact ⟨[], .nil⟩
  | cons h _ ih =>
    obtain ⟨ls', h'⟩ := ih
    obtain ⟨ls, h⟩ := h.logs base
    exact ⟨_, .cons h h'⟩

/-! ## One round -/

theorem tell_moved {c c' : Cursor} {b tail : List Bool} (hc : gr.on c) (hm : Moved gr c c' b tail) (hr : c.rest = b ++ tail) :
    c'.tellBit = c.tellBit + b.length := by
  have h1 := rest_length (gr.inv hc)
  have h2 := rest_length (gr.inv hm.on)
  have h3 := tellBit_le (gr.inv hm.on)
  have h4 := tellBit_le (gr.inv hc)
  have h5 : c'.byteLen = c.byteLen := hm.buf.2
  have h6 := congrArg List.length hr
  rw [hm.rest] at h2
  rw [List.length_append] at h6
  rw [h5] at h2 h3
  omega

/-- The lines after the first two. -/
theorem log_item {k k' : Ctx} {outer outer' : List Ctx} {p : Parser} (hm : At gr k outer p) {base : Nat} {b tail : List Bool}
    {ls : List LogLine} {es : List Entry} (h : Logs pf gr.pad base k outer (gr.pos p.cursor) b ls es k' outer')
    (hb : p.cursor.tellBit = base + gr.pos p.cursor) (hr : p.cursor.rest = b ++ tail) : Log.step pf p = ls := by
  have key : ∀ {id : U64} {i b' : List Bool}, idBits k id = some i → p.cursor.rest = (i ++ b') ++ tail →
      ∃ c₁, Log.step pf p = .advancing (topScope k) (base + gr.pos p.cursor) :: .nextEntry id ::
          Log.dispatch pf p.scopes (topScope k) id c₁ ∧
        Moved gr p.cursor c₁ i c₁.rest ∧ c₁.rest = b' ++ tail ∧ c₁.tellBit = base + gr.pos p.cursor + i.length ∧
        At gr k outer (at' p c₁) := by
    intro id i b' hi hr
    obtain ⟨w1, w2, hlt, hib⟩ := idBits_iff.1 hi
    rw [List.append_assoc] at hr
    obtain ⟨c₁, e₁, m₁⟩ := (exact_read _).complete hm.on ⟨w1, w2, hlt, hib⟩ hr
    have hne : p.cursor.exhausted = false := by
      rw [Bool.eq_false_iff, ne_eq, exhausted_iff_rest (gr.inv hm.on), hr, hib]
      intro h
      have := congrArg List.length h
      simp at this
      omega
    refine ⟨c₁, ?_, ⟨m₁.on, m₁.buf, rfl, m₁.tell⟩, m₁.rest, ?_, hm.toMatch.at' m₁.on, hm.widths⟩
    · unfold Log.step
      have hsc : p.scopes = topScope k :: outer.map topScope := hm.scopes
      rw [hne]
      simp only [hsc, Bool.false_eq_true, if_false, hm.width, e₁, hb]
    · rw [← hb]
      exact tell_moved hm.on m₁ hr
  cases h with
  | @define _ _ _ i b d hi hd hk =>
    obtain ⟨c₁, e₁, m₁, r₂, -, hm₁⟩ := key hi hr
    obtain ⟨c₂, e₂, m₂⟩ := (exact_abbrevNew pf).complete m₁.on ⟨_, rfl, hd⟩ r₂
    rw [e₁]
    show _ :: _ :: Log.defineAbbrev pf c₁ = _
    obtain ⟨hv, n, s, t, rfl, hn, -⟩ := hd
    rw [List.append_assoc] at r₂
    obtain ⟨c₃, e₃, -⟩ := (exact_readVbr pf 5).cur.complete m₁.on ⟨by omega, by omega, hn⟩ r₂
    unfold Log.defineAbbrev
    have hto : (BitVec.ofNat 64 d.numOps).toNat = d.numOps := by
      rw [BitVec.toNat_ofNat]; exact Nat.mod_eq_of_lt hv.2
    have h0 : ¬ (BitVec.ofNat 64 d.numOps : U64) < 1 := by
      rw [BitVec.lt_def, hto]
      have : (1 : U64).toNat = 1 := rfl
      have := hv.1
      omega
    simp only [e₃, if_neg h0, e₂]
  | @unabbrev _ _ _ i c n f code fields hi hc hn hf hk =>
    obtain ⟨c₁, e₁, m₁, r₂, -, hm₁⟩ := key hi hr
    obtain ⟨c₂, e₂, -⟩ := (exact_unabbrevBody pf).complete (v := (code, fields)) m₁.on ⟨_, _, _, rfl, hc, hn, hf⟩ r₂
    rw [e₁]
    show _ :: _ :: Log.parseUnabbrev pf (topScope k) c₁ = _
    rw [List.append_assoc, List.append_assoc] at r₂
    obtain ⟨c₃, e₃, m₃⟩ := (exact_readVbr pf 6).cur.complete m₁.on ⟨by omega, by omega, hc⟩ r₂
    obtain ⟨c₄, e₄, m₄⟩ := (exact_readVbr pf 6).cur.complete m₃.on ⟨by omega, by omega, hn.2⟩ m₃.rest
    unfold unabbrevBody at e₂
    rw [StM.bind_ok e₃, StM.bind_ok e₄] at e₂
    obtain ⟨_, c₅, e₅, e₂⟩ := bind_inv e₂
    obtain ⟨fs, c₆, e₆, e₂⟩ := bind_inv e₂
    obtain ⟨h6, -⟩ := pure_inv e₂
    cases h6
    have hni : topScope k ≠ .initial := by
      intro h
      unfold topScope at h
      cases hb : k.block with
      | none => simp [Ctx.unabbrev, hb] at hk
      | some b => rw [hb] at h; cases h
    unfold Log.parseUnabbrev
    simp only [if_neg hni, e₃, e₄, e₅, e₆, isBlockinfo_top]
    show _ = _ :: _ :: _ :: infoLines k code fields
    refine congrArg (_ :: _ :: _ :: ·) ?_
    unfold infoLines Log.blockinfo
    by_cases h0 : k.block = some 0
    · rw [if_pos (by simpa using h0), if_neg (not_not_intro h0)]
      simp only [Ctx.unabbrev, h0, if_true] at hk
      by_cases h1 : code = 1
      · rw [if_pos h1, if_pos h1]
        cases fields <;> rfl
      · rw [if_neg h1] at hk
        rw [if_neg h1, if_neg h1]
        by_cases h2 : code = 2
        · rw [if_pos h2, if_pos h2]
        · rw [if_neg h2, if_neg h2]
          by_cases h3 : code = 3
          · rw [if_pos h3]
          · rw [if_neg (fun h => h.elim h2 h3)] at hk
            cases hk
    · rw [if_neg (by simpa using h0), if_pos h0]
  | @«abbrev» _ _ i v id code fields d hi h4 hkb hd hv =>
    obtain ⟨c₁, e₁, m₁, r₂, -, hm₁⟩ := key hi hr
    obtain ⟨c₂, e₂, m₂⟩ := (exact_abbrevParse pf _).complete m₁.on (by rw [m₁.tell]; exact hv) r₂
    rw [e₁]
    have hne : ∀ n : Nat, n < 4 → ¬ id = BitVec.ofNat 64 n := by
      intro n hn hc
      rw [hc] at h4
      simp at h4; omega
    have hdis : Log.dispatch pf p.scopes (topScope k) id c₁ = Log.parseWithAbbrev pf (topScope k) id c₁ := by
      show (if id = 0#64 then _ else if id = 1#64 then _ else if id = 2#64 then _ else if id = 3#64 then _ else _) = _
      rw [if_neg (hne 0 (by omega)), if_neg (hne 1 (by omega)), if_neg (hne 2 (by omega)), if_neg (hne 3 (by omega))]
    rw [hdis]
    have hget : (topScope k).getAbbrev pf id = .ok d.abbrev := by
      cases hb : k.block with
      | none => exact absurd hb hkb
      | some b =>
        have ht : topScope k = .block k.width b k.target (k.defs.map Def.abbrev) := by simp [topScope, hb]
        rw [ht]
        simp only [Scope.getAbbrev]
        rw [if_neg (by omega), toNat_sub4 h4, List.getElem?_map, hd]
        rfl
    unfold Log.parseWithAbbrev
    simp only [hget, e₂]
  | @enter _ _ i b₁ b₂ pd id width words hi hb₁ hb₂ h0 hp hw =>
    obtain ⟨c₁, e₁, m₁, r₂, ht, hm₁⟩ := key hi hr
    have hwn : (BitVec.ofNat 64 words).toNat = words := by
      rw [BitVec.toNat_ofNat]; exact Nat.mod_eq_of_lt (by omega)
    obtain ⟨c₂, e₂, m₂⟩ := (exact_enterHead pf).complete (v := (id, width, BitVec.ofNat 64 words)) m₁.on
      ⟨b₁, b₂, pd, by rw [hwn], hb₁, hb₂, h0, by rw [m₁.tell]; exact hp, by rw [hwn]; exact hw⟩ r₂
    have ht₂ := tell_moved m₁.on m₂ r₂
    rw [e₁]
    show _ :: _ :: Log.enterBlock pf c₁ = _
    unfold enterHead at e₂
    obtain ⟨_, c₃, e₃, e₂⟩ := bind_inv e₂
    obtain ⟨w', c₄, e₄, e₂⟩ := bind_inv e₂
    obtain ⟨_, c₅, e₅, e₂⟩ := bind_inv e₂
    by_cases hlt : w' < 1
    · rw [if_pos hlt] at e₂
      exact (throw_inv e₂).elim
    rw [if_neg hlt] at e₂
    obtain ⟨ws, c₆, e₆, e₂⟩ := bind_inv e₂
    obtain ⟨h6, rfl⟩ := pure_inv e₂
    simp only [Prod.mk.injEq] at h6
    obtain ⟨rfl, rfl, rfl⟩ := h6
    unfold Log.enterBlock
    simp only [e₃, e₄, e₅, e₆, if_neg hlt]
    rw [if_pos (.inl (by rw [hwn]; omega)), ht₂, ht]
    have e4 : (BitVec.ofNat 64 words * 4 : U64) = BitVec.ofNat 64 (4 * words) := by
      rw [Nat.mul_comm, BitVec.ofNat_mul]; rfl
    rw [e4]
    simp only [List.length_append, bitsOfNat_length, List.cons.injEq, true_and, and_true, LogLine.entered.injEq]
    omega
  | exit hi hp =>
    obtain ⟨c₁, e₁, m₁, r₂, -, hm₁⟩ := key hi hr
    rw [e₁]
    show _ :: _ :: Log.exitBlock p.scopes = _
    rw [show p.scopes = _ from hm.scopes]
    rfl

/-- A round logs where it begins first, and not again. -/
theorem log_step {k : Ctx} {outer : List Ctx} {p : Parser} (hm : At gr k outer p) (hx : p.cursor.exhausted = false) :
    ∃ more, Log.step pf p = .advancing (topScope k) p.cursor.tellBit :: more ∧ ∀ l ∈ more, ∀ s n, l ≠ .advancing s n := by
  unfold Log.step
  rw [hx, show p.scopes = _ from hm.scopes]
  refine ⟨_, rfl, ?_⟩
  intro l hl s n
  rintro rfl
  split at hl
  · simp only [List.mem_cons, reduceCtorEq, false_or] at hl
    unfold Log.dispatch Log.exitBlock Log.enterBlock Log.defineAbbrev Log.parseUnabbrev Log.parseWithAbbrev Log.blockinfo at hl
    repeat' split at hl
    all_goals simp at hl
    all_goals repeat' split at hl
    all_goals simp at hl
  · cases hl

/-- A round that fails does not say that a block is entered or left. -/
theorem log_step_fails {k : Ctx} {outer : List Ctx} {p : Parser} (hm : At gr k outer p) {f : Failure}
    (hf : (Parser.step pf p).1.Failing f) :
    ∀ l ∈ Log.step pf p, (∀ id width len n, l ≠ .entered id width len n) ∧ ∀ s, l ≠ .exited s := by
  have hsc : p.scopes = topScope k :: outer.map topScope := hm.scopes
  have hw : (topScope k).abbrevIdWidth = k.width := hm.width
  intro l hl
  unfold Log.step at hl
  split at hl
  · cases hl
  rename_i hx
  rw [hsc] at hl
  simp only [List.mem_cons] at hl
  rcases hl with rfl | hl
  · exact ⟨nofun, nofun⟩
  split at hl
  · rename_i id c hread
    rw [hw] at hread
    simp only [List.mem_cons] at hl
    rcases hl with rfl | hl
    · exact ⟨nofun, nofun⟩
    obtain ⟨i, -, -, m₁⟩ := (exact_read _).sound hm.on hread
    have hm₁ : At gr k outer (at' p c) := ⟨hm.toMatch.at' m₁.on, hm.widths⟩
    rw [step_of_id hm hread] at hf
    unfold dispatch at hf
    unfold Log.dispatch at hl
    by_cases h0 : id = 0
    · rw [if_pos h0] at hl hf
      rw [exit_fails hm₁] at hf
      rw [hf.1] at hl
      cases hl
    by_cases h1 : id = 1
    · rw [if_neg h0, if_pos h1] at hl hf
      replace hf := (fails_enterHead pf c hm₁.on f).2 ((enter_fails hm₁ f).1 hf)
      exfalso
      unfold Log.enterBlock at hl
      split at hl
      · rename_i v₁ c₁ e₁
        split at hl
        · rename_i v₂ c₂ e₂
          split at hl
          · rename_i v₃ c₃ e₃
            split at hl
            · cases hl
            · rename_i h₀
              split at hl
              · rename_i v₄ c₄ e₄
                unfold enterHead at hf
                rw [StM.bind_ok e₁, StM.bind_ok (s := c₁) e₂, StM.bind_ok (s := c₂) e₃, if_neg h₀, StM.bind_ok (s := c₃) e₄] at hf
                exact failing_ok hf
              · cases hl
          · cases hl
        · cases hl
      · cases hl
    · rw [if_neg h0, if_neg h1] at hl
      clear hf
      refine ⟨?_, ?_⟩
      all_goals
        intros
        rintro rfl
        unfold Log.defineAbbrev Log.parseUnabbrev Log.parseWithAbbrev Log.blockinfo at hl
        repeat' split at hl
        all_goals simp at hl
        all_goals repeat' split at hl
        all_goals simp at hl
  · cases hl

/-! ## Calls -/

theorem log_stable (n m : Nat) {p : Parser} (hp : PInv p) (hn : p.cursor.rest.length < n)
    (hm : p.cursor.rest.length < m) : Log.advance pf n p = Log.advance pf m p := by
  induction n generalizing m p with
  | zero => omega
  | succ n ih =>
    cases m with
    | zero => omega
    | succ m =>
      simp only [Log.advance]
      have hs := pgood_step (pf := pf) p hp
      match hr : Parser.step pf p with
      | (.ok (some e), p') => rfl
      | (.ok none, p') =>
        rw [hr] at hs
        have h1 := hs.eats _ rfl
        have hl := rest_length hp.cur
        have hl' := rest_length hs.inv.cur
        have htl := tellBit_le hs.inv.cur
        have hb : p'.cursor.byteLen = p.cursor.byteLen := hs.same.2
        simp only at h1 hl' htl
        rw [hb] at htl hl'
        simp only
        rw [ih m (p := p') hs.inv (by omega) (by omega)]
      | (.err e, p') => rfl
      | (.panic q, p') => rfl
      | (.diverge, p') => rfl

theorem log_hidden {p p' : Parser} (hp : PInv p) (h : Parser.step pf p = (.ok none, p')) (m : U64) :
    Log.next pf ⟨m, p⟩ = Log.step pf p ++ Log.next pf ⟨m, p'⟩ := by
  have hs := pgood_step (pf := pf) p hp
  rw [h] at hs
  have h1 := hs.eats _ rfl
  have hl := rest_length hp.cur
  have hl' := rest_length hs.inv.cur
  have htl := tellBit_le hs.inv.cur
  have hb : p'.cursor.byteLen = p.cursor.byteLen := hs.same.2
  simp only at h1 hl' htl
  rw [hb] at htl hl'
  show Log.advance pf (p.cursor.bitLen + 1) p = _ ++ Log.advance pf (p'.cursor.bitLen + 1) p'
  conv => lhs; simp only [Log.advance, h]
  refine congrArg (_ ++ ·) (log_stable _ _ hs.inv ?_ ?_) <;> simp only [bitLen, hb] <;> omega

theorem log_last {p : Parser} (h : ∀ p', Parser.step pf p ≠ (.ok none, p')) (m : U64) : Log.next pf ⟨m, p⟩ = Log.step pf p := by
  show Log.advance pf (p.cursor.bitLen + 1) p = _
  simp only [Log.advance]
  match hs : Parser.step pf p with
  | (.ok (some e), p') => simp
  | (.ok none, p') => exact absurd hs (h p')
  | (.err e, p') => simp
  | (.panic q, p') => simp
  | (.diverge, p') => simp

/-- The calls that give the entries of a stream, and one more: they log what they should for the stream, and then what the last logs
after it. -/
theorem log_calls {base : Nat} {k k' : Ctx} {outer outer' : List Ctx} {pos : Nat} {bits tail : List Bool} {ls : List LogLine}
    {ms : List Entry} (h : LogsAll pf gr.pad base k outer pos bits ls ms k' outer') {p : Parser} (hm : At gr k outer p)
    (hp : gr.pos p.cursor = pos) (hb : p.cursor.tellBit = base + pos) (hr : p.cursor.rest = bits ++ tail) (m : U64) (n : Nat) :
    ∃ q, Log.calls pf (ms.length + 1 + n) ⟨m, p⟩ = ls ++ Log.calls pf (n + 1) ⟨m, q⟩ ∧ At gr k' outer' q ∧ q.cursor.rest = tail ∧
      gr.pos q.cursor = pos + bits.length ∧ q.cursor.tellBit = base + pos + bits.length := by
  induction h generalizing p with
  | nil => exact ⟨p, by rw [List.length_nil, Nat.zero_add, Nat.add_comm, List.nil_append], hm, hr, by simp [hp], by simp [hb]⟩
  | @cons k k' k'' outer outer' outer'' pos b bs ls ls' es es' hi _ ih =>
    subst hp
    rw [List.append_assoc] at hr
    have hl := log_item hm hi hb hr
    obtain ⟨q, e, ha, hr'⟩ := step_complete hm hi.item hr
    have ht : q.cursor.tellBit = base + (gr.pos p.cursor + b.length) := by
      have h1 := rest_length (gr.inv hm.on)
      have h2 := rest_length (gr.inv ha.at_.on)
      have h3 := tellBit_le (gr.inv ha.at_.on)
      have h4 : q.cursor.byteLen = p.cursor.byteLen := ha.buf.2
      have h5 := congrArg List.length ha.rest
      rw [List.length_append] at h5
      rw [h4] at h2 h3
      have h6 := tellBit_le (gr.inv hm.on)
      omega
    obtain ⟨q', hs, ha', hr'', hp'', ht'⟩ := ih ha.at_ ha.tell ht hr'
    refine ⟨q', ?_, ha', hr'', by rw [hp'', List.length_append]; omega, by rw [ht', List.length_append]; omega⟩
    have hpi := hm.toMatch.pinv
    rcases item_one hi.item with rfl | ⟨x, rfl⟩
    · have e : Parser.step pf p = (.ok none, q) := e
      rw [List.nil_append, List.append_assoc, ← hs, ← hl]
      show Log.calls pf (es'.length + 1 + n) ⟨m, p⟩ = _
      rw [show es'.length + 1 + n = (es'.length + n) + 1 by omega]
      simp only [Log.calls]
      rw [log_hidden hpi e, List.append_assoc, show Bitstream.next pf ⟨m, p⟩ = Bitstream.next pf ⟨m, q⟩ from
        next_congr (by rw [advance_unfold hpi, e])]
    · have e : Parser.step pf p = (.ok (some x.toStream), q) := e
      rw [List.append_assoc, ← hs, ← hl, List.length_append, List.length_singleton,
        show 1 + es'.length + 1 + n = (es'.length + 1 + n) + 1 by omega]
      rw [Log.calls, log_last (by rw [e]; intro p' h; cases h), next_of_step (b := ⟨m, p⟩) hpi e]

end Verif
