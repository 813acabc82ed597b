import Verif.Bitstream.Scoping

/-!
Records in any block of any stream; prefixes of streams.
-/

set_option linter.unusedSimpArgs false

namespace Verif
open Spec Cursor Parser

theorem remaining_eq (b : Bitstream) : b.remaining = b.parser.cursor.rest := rfl

/-- The abbreviation id of the next round, in any scope. -/
theorem step_id {pf : Profile} {p : Parser} (hw : WInv p.cursor) {s : Scope} {rest : List Scope} (hs : p.scopes = s :: rest)
    {id : U64} {tail : List Bool} (h1 : 1 ≤ s.abbrevIdWidth.toNat) (h2 : s.abbrevIdWidth.toNat ≤ 63)
    (hlt : id.toNat < 2 ^ s.abbrevIdWidth.toNat)
    (hr : p.cursor.rest = bitsOfNat s.abbrevIdWidth.toNat id.toNat ++ tail) :
    ∃ c', Parser.step pf p = afterId pf id (at' p c') ∧ WInv c' ∧ SameBuf p.cursor c' ∧ c'.rest = tail ∧
      c'.tellBit = p.cursor.tellBit + s.abbrevIdWidth.toNat := by
  obtain ⟨c', e, hw', hsb, hrest, ht⟩ := onCursor_reads (reads_read h1 h2 hlt p.cursor.tellBit).cur (p := p) hw rfl hr
  refine ⟨c', ?_, hw', hsb, hrest, by simpa using ht⟩
  have hne : p.cursor.exhausted ≠ true := by
    rw [ne_eq, exhausted_iff_rest hw.toInv, hr]
    intro hc
    have := congrArg List.length hc
    simp at this; omega
  rw [step_eq hs hne, StM.bind_ok (show onCursor (cur (Cursor.read s.abbrevIdWidth.toNat)) p = (.ok id, at' p c') from e)]

theorem next_of_step {pf : Profile} {b : Bitstream} (hp : PInv b.parser) {e : StreamEntry} {q : Parser}
    (h : Parser.step pf b.parser = (.ok (some e), q)) : Bitstream.next pf b = (.item e, ⟨b.magic, q⟩) := by
  unfold Bitstream.next Bitstream.advance
  rw [advance_unfold hp, h]

theorem next_of_step_err {pf : Profile} {b : Bitstream} (hp : PInv b.parser) {e : BErr} (hne : e ≠ .exhausted) {q : Parser}
    (h : Parser.step pf b.parser = (.err e, q)) : Bitstream.next pf b = (.error e, ⟨b.magic, q⟩) := by
  unfold Bitstream.next Bitstream.advance
  rw [advance_unfold hp, h]
  cases e <;> first | rfl | exact absurd rfl hne

/-- An unabbreviated record in any block. -/
theorem next_unabbrev (pf : Profile) {b : Bitstream} (hp : PInv b.parser) (hw : WInv b.parser.cursor)
    {w id : U64} {bid : Option U64} {l : List Abbrev} {rest : List Scope} (hs : b.parser.scopes = .block w id bid l :: rest)
    (hid : id ≠ 0) (h1 : 2 ≤ w.toNat) (h2 : w.toNat ≤ 63) {code : U64} {fields : List U64} {u tail : List Bool}
    (hu : unabbrevBits code fields = some u) (hr : b.remaining = bitsOfNat w.toNat 3 ++ u ++ tail) :
    ∃ b', Bitstream.next pf b = (.item (.record { abbrevId := none, code := code, fields := fields }), b') ∧
      b'.remaining = tail ∧ b'.pos = b.pos + w.toNat + u.length ∧ b'.parser.scopes = b.parser.scopes ∧
      b'.parser.blockinfo = b.parser.blockinfo ∧ b'.magic = b.magic := by
  rw [remaining_eq, List.append_assoc] at hr
  simp only [unabbrevBits, Option.bind_eq_bind, Option.bind_eq_some_iff, Option.some.injEq] at hu
  obtain ⟨n, hn, rfl⟩ := hu
  obtain ⟨rfl, hlen, hlt⟩ := countBits_spec hn
  have h3 : (3 : U64).toNat < 2 ^ w.toNat := by
    have : 2 ^ 2 ≤ 2 ^ w.toNat := Nat.pow_le_pow_right (by omega) h1
    show 3 < _; omega
  obtain ⟨c₁, e₁, w₁, s₁, r₁, t₁⟩ := step_id (pf := pf) (s := .block w id bid l) hw hs (id := 3) (by show 1 ≤ w.toNat; omega)
    h2 h3 hr
  rw [List.append_assoc, List.append_assoc] at r₁
  obtain ⟨c₂, e₂, w₂, s₂, r₂, t₂⟩ := onCursor_reads (reads_readVbr pf (w := 6) (by omega) (by omega) code c₁.tellBit).cur
    (p := b.parser) w₁ rfl r₁
  obtain ⟨c₃, e₃, w₃, s₃, r₃, t₃⟩ := onCursor_reads (reads_readVbr pf (w := 6) (by omega) (by omega) _ c₂.tellBit).cur
    (p := b.parser) w₂ rfl r₂
  obtain ⟨c₄, e₄, w₄, s₄, r₄, t₄⟩ := onCursor_reads (reads_vbr6s pf fields c₃.tellBit) (p := b.parser) w₃ rfl r₃
  have hscope : ∀ c, scope (at' b.parser c) = (.ok (.block w id bid l), at' b.parser c) := by
    intro c; simp [scope, Verif.at', hs]
  have e₁' : Parser.step pf b.parser = parseUnabbrev pf (at' b.parser c₁) := e₁
  have hpu : parseUnabbrev pf (at' b.parser c₁) =
      (.ok (some (.record { abbrevId := none, code := code, fields := fields })), at' b.parser c₄) := by
    unfold parseUnabbrev
    rw [StM.bind_ok (hscope c₁), if_neg (by simp), StM.bind_ok e₂, StM.bind_ok e₃,
      withCapacity_ok (by omega), StM.bind_ok (StM.pure_apply () _), hlen, StM.bind_ok e₄, StM.bind_ok (hscope c₄),
      isBlockinfo_block, if_neg (by simpa using hid)]
    rfl
  refine ⟨_, next_of_step hp (e₁'.trans hpu), r₄, ?_, rfl, rfl, rfl⟩
  show c₄.tellBit = b.parser.cursor.tellBit + _ + _
  rw [t₄, t₃, t₂, t₁]
  simp [Scope.abbrevIdWidth]; omega

/-- An abbreviated record in any block. -/
theorem next_abbrev (pf : Profile) {b : Bitstream} (hp : PInv b.parser) (hw : WInv b.parser.cursor)
    {w id : U64} {bid : Option U64} {l : List Abbrev} {rest : List Scope} (hs : b.parser.scopes = .block w id bid l :: rest)
    (hid : id ≠ 0) (h1 : 1 ≤ w.toNat) (h2 : w.toNat ≤ 63) {a : U64} (ha : 4 ≤ a.toNat) (haw : a.toNat < 2 ^ w.toNat)
    {d : Def} (hd : l[a.toNat - 4]? = some d.abbrev)
    {code : U64} {fields : List U64} {u tail : List Bool}
    (hu : d.valBits (b.pos + w.toNat) (code :: fields) = some u) (hr : b.remaining = bitsOfNat w.toNat a.toNat ++ u ++ tail) :
    ∃ b', Bitstream.next pf b = (.item (.record { abbrevId := some a, code := code, fields := fields }), b') ∧
      b'.remaining = tail ∧ b'.pos = b.pos + w.toNat + u.length ∧ b'.parser.scopes = b.parser.scopes ∧
      b'.parser.blockinfo = b.parser.blockinfo ∧ b'.magic = b.magic := by
  rw [remaining_eq, List.append_assoc] at hr
  obtain ⟨c₁, e₁, w₁, s₁, r₁, t₁⟩ := step_id (pf := pf) (s := .block w id bid l) hw hs (id := a) h1 h2 haw hr
  obtain ⟨c₂, e₂, w₂, s₂, r₂, t₂⟩ := onCursor_reads (reads_abbrevParse pf d _ _ hu) (p := b.parser) w₁
    (by rw [t₁]; rfl) r₁
  have hscope : ∀ c, scope (at' b.parser c) = (.ok (.block w id bid l), at' b.parser c) := by
    intro c; simp [scope, Verif.at', hs]
  have hne : ∀ n : Nat, n < 4 → ¬ a = BitVec.ofNat 64 n := by
    intro n hn hc
    rw [hc] at ha
    simp at ha; omega
  have e₁' : Parser.step pf b.parser = parseWithAbbrev pf a (at' b.parser c₁) := by
    rw [e₁]
    show (if a = 0#64 then exitBlock else if a = 1#64 then enterBlock pf else if a = 2#64 then _
      else if a = 3#64 then parseUnabbrev pf else parseWithAbbrev pf a) _ = _
    rw [if_neg (hne 0 (by omega)), if_neg (hne 1 (by omega)), if_neg (hne 2 (by omega)), if_neg (hne 3 (by omega))]
  have hget : (Scope.block w id bid l).getAbbrev pf a = .ok d.abbrev := by
    simp only [Scope.getAbbrev]
    rw [if_neg (by omega), toNat_sub4 ha, hd]
    rfl
  have hpu : parseWithAbbrev pf a (at' b.parser c₁) =
      (.ok (some (.record { abbrevId := some a, code := code, fields := fields })), at' b.parser c₂) := by
    unfold parseWithAbbrev
    rw [StM.bind_ok (hscope c₁), hget, StM.bind_ok (StM.lift_apply (.ok d.abbrev) _), StM.bind_ok e₂]
    simp only
    rw [StM.bind_ok (hscope c₂), isBlockinfo_block, if_neg (by simpa using hid)]
    rfl
  refine ⟨_, next_of_step hp (e₁'.trans hpu), r₂, ?_, rfl, rfl, rfl⟩
  show c₂.tellBit = b.parser.cursor.tellBit + _ + _
  rw [t₂, t₁]
  rfl

/-- An id that stands for no abbreviation. -/
theorem next_badAbbrev (pf : Profile) {b : Bitstream} (hp : PInv b.parser)
    {w id : U64} {bid : Option U64} {l : List Abbrev} {rest : List Scope} (hs : b.parser.scopes = .block w id bid l :: rest)
    {a : U64} {c' : Cursor} (hne : b.pos ≠ b.len) (hr : Cursor.read w.toNat b.parser.cursor = (.ok a, c')) (ha : 4 + l.length ≤ a.toNat) :
    Bitstream.next pf b = (.error (.badAbbrev a), ⟨b.magic, at' b.parser c'⟩) := by
  have hx : b.parser.cursor.exhausted ≠ true := by
    rw [ne_eq, exhausted_iff hp.cur]; exact hne
  refine next_of_step_err hp (by simp) ?_
  rw [step_eq hs hx, StM.bind_ok (show onCursor (cur (Cursor.read (Scope.block w id bid l).abbrevIdWidth.toNat)) b.parser =
      (.ok a, at' b.parser c') by
    simp only [onCursor, cur, StM.mapErr]
    rw [show Cursor.read (Scope.block w id bid l).abbrevIdWidth.toNat b.parser.cursor = (.ok a, c') from hr]; rfl)]
  have hne : ∀ n : Nat, n < 4 → ¬ a = BitVec.ofNat 64 n := by
    intro n hn hc
    rw [hc] at ha
    simp at ha; omega
  show (if a = 0#64 then exitBlock else if a = 1#64 then enterBlock pf else if a = 2#64 then _
      else if a = 3#64 then parseUnabbrev pf else parseWithAbbrev pf a) _ = _
  rw [if_neg (hne 0 (by omega)), if_neg (hne 1 (by omega)), if_neg (hne 2 (by omega)), if_neg (hne 3 (by omega))]
  unfold parseWithAbbrev
  rw [StM.bind_ok (show scope (at' b.parser c') = (.ok (.block w id bid l), at' b.parser c') by simp [scope, Verif.at', hs])]
  have hget : (Scope.block w id bid l).getAbbrev pf a = .err (.badAbbrev a) := by
    simp only [Scope.getAbbrev]
    rw [if_neg (by omega), toNat_sub4 (by omega), List.getElem?_eq_none (by omega)]
    rfl
  rw [hget]
  rfl

/-- A definition never surfaces. -/
theorem define_hidden (pf : Profile) (p : Parser) (e : StreamEntry) : (afterId pf 2 p).1 ≠ .ok (some e) := by
  have : afterId pf 2 = (do defineAbbrev pf; pure none : PM (Option StreamEntry)) := rfl
  rw [this]
  match hr : defineAbbrev pf p with
  | (.ok (), p') => rw [StM.bind_ok hr]; simp [StM.pure_apply]
  | (.err e, p') => rw [StM.bind_err hr]; simp
  | (.panic e, p') => rw [StM.bind_panic hr]; simp
  | (.diverge, p') => simp [StM.bind_apply, hr]

/-! ## Prefixes -/

theorem next_parser {pf : Profile} {m : U64} {p : Parser} : (Bitstream.next pf ⟨m, p⟩).2.magic = m := by
  unfold Bitstream.next Bitstream.advance
  match Parser.advance pf p with
  | (.ok e, p') => rfl
  | (.err e, p') => cases e <;> rfl
  | (.panic e, p') => rfl
  | (.diverge, p') => rfl

theorem iterate_congr {pf : Profile} {n : Nat} {b b' : Bitstream} (h : Bitstream.next pf b = Bitstream.next pf b') :
    (iterate pf n b).1 = (iterate pf n b').1 := by
  cases n with
  | zero => rfl
  | succ n => simp only [iterate, h]

theorem Steps.iterate {pf : Profile} {p q : Parser} {es : List StreamEntry} (h : Steps pf p es q) (hp : PInv p) (m : U64) :
    (Verif.iterate pf es.length ⟨m, p⟩).1 = es.map .item := by
  induction h with
  | nil p => rfl
  | hidden h _ ih =>
    have hs := (pgood_step (pf := pf) _ hp).inv
    rw [h] at hs
    rw [← ih hs]
    refine iterate_congr (next_congr ?_)
    rw [advance_unfold hp, h]
  | emit h _ ih =>
    have hs := (pgood_step (pf := pf) _ hp).inv
    rw [h] at hs
    simp only [List.length_cons, Verif.iterate, List.map_cons]
    rw [show Bitstream.next pf _ = _ from next_of_step (b := ⟨m, _⟩) hp h]
    simp only
    rw [ih hs]

/-- What has been written is delivered first, whatever follows it. -/
theorem prefix_delivered (pf : Profile) {magic : U32} {its : Items} {bytes junk : List U8} {es : List Entry}
    (h : streamBytes magic its = some (bytes, es)) (h4 : junk.length % 4 = 0) :
    ∃ b, Bitstream.fromRaw (bytes ++ junk) = .ok b ∧ b.magic = magic.setWidth 64 ∧
      (iterate pf es.length b).1 = es.map (fun e => .item e.toStream) := by
  obtain ⟨w, hw, rfl, hb4, hbits, -⟩ := open_written h
  have hlen4 : (bytes ++ junk).length % 4 = 0 := by rw [List.length_append]; omega
  have hm : (magic.setWidth 64 : U64).toNat = magic.toNat := by
    rw [BitVec.toNat_setWidth]; have := magic.isLt; omega
  have hmlt := magic.isLt
  obtain ⟨c, e, wi, sb, hr, ht⟩ := reads_readAs (t := .u32) (n := 32) (by omega) (by omega)
    (v := (magic.setWidth 64 : U64)) (by omega) (by rw [hm]; show _ ≤ 2 ^ 32 - 1; omega) 0 (Cursor.new (bytes ++ junk))
    (w.bits ++ bitsOf junk)
    (winv_new hlen4) (by rfl) (by rw [rest_new, bitsOf_append, hbits, hm, List.append_assoc])
  have ho : Bitstream.fromRaw (bytes ++ junk) = .ok ⟨magic.setWidth 64, Parser.new c⟩ := by
    unfold Bitstream.fromRaw Bitstream.fromCursor
    rw [if_neg (by simpa [Cursor.new] using hlen4)]
    rw [show Cursor.readExact .u32 (Cursor.new _) = _ from e]
  refine ⟨_, ho, rfl, ?_⟩
  have hmm : Match wordGrid Ctx.start [] (Parser.new c) := ⟨wi, rfl, rfl, rfl, fun _ => rfl⟩
  obtain ⟨q, st, -⟩ := write_steps pf hw hmm (by
    show c.tellBit % 32 = _
    rw [ht]; simp; rfl) (tail := bitsOf junk) (by show c.rest = _; rw [hr])
  have := st.iterate hmm.pinv (magic.setWidth 64)
  rw [List.length_map, List.map_map] at this
  exact this

end Verif
