import Verif.Bitstream.RoundTrip

/-!
From rounds of the parser to calls of `next`, and from bits to bytes.
-/

set_option linter.unusedSimpArgs false

namespace Verif
open Spec Cursor Parser

/-- Calling `next` gives the entries `es` one after the other and then `None` for good: the stream reached with
the first `None` gives `None` again and stays as it is. -/
def Delivers (pf : Profile) : Bitstream → List StreamEntry → Prop
  | b, [] => ∃ b', Bitstream.next pf b = (.done, b') ∧ Bitstream.next pf b' = (.done, b')
  | b, e :: es => ∃ b', Bitstream.next pf b = (.item e, b') ∧ Delivers pf b' es

/-- What an entry means, without block lengths and abbreviation ids. -/
def erase : StreamEntry → Event
  | .subBlock b => .start b.blockId
  | .record r => .record r.code r.fields
  | .endBlock => .finish

theorem next_congr {pf : Profile} {m : U64} {p p' : Parser} (h : Parser.advance pf p = Parser.advance pf p') :
    Bitstream.next pf ⟨m, p⟩ = Bitstream.next pf ⟨m, p'⟩ := by
  simp [Bitstream.next, Bitstream.advance, h]

theorem delivers_congr {pf : Profile} {b b' : Bitstream} (h : Bitstream.next pf b = Bitstream.next pf b')
    {es : List StreamEntry} (he : Delivers pf b' es) : Delivers pf b es := by
  cases es <;> simp only [Delivers] at he ⊢ <;> rw [h] <;> exact he

theorem step_exhausted {pf : Profile} {p : Parser} (h : p.cursor.exhausted = true) :
    Parser.step pf p = (.err .exhausted, p) := by
  unfold Parser.step
  rw [get_bind, if_pos h]
  rfl

theorem next_exhausted {pf : Profile} {m : U64} {p : Parser} (hp : PInv p) (h : p.cursor.exhausted = true) :
    Bitstream.next pf ⟨m, p⟩ = (.done, ⟨m, p⟩) := by
  simp [Bitstream.next, Bitstream.advance, advance_unfold hp, step_exhausted h]

theorem Steps.delivers {pf : Profile} {p q : Parser} {es : List StreamEntry} (h : Steps pf p es q) (hp : PInv p)
    (hq : q.cursor.exhausted = true) (m : U64) : Delivers pf ⟨m, p⟩ es := by
  induction h with
  | nil p => exact ⟨_, next_exhausted hp hq, next_exhausted hp hq⟩
  | hidden h _ ih =>
    have hs := (pgood_step (pf := pf) _ hp).inv
    rw [h] at hs
    refine delivers_congr (next_congr ?_) (ih hs hq)
    rw [advance_unfold hp, h]
  | emit h _ ih =>
    have hs := (pgood_step (pf := pf) _ hp).inv
    rw [h] at hs
    refine ⟨_, ?_, ih hs hq⟩
    simp only [Bitstream.next, Bitstream.advance, advance_unfold hp, h]

/-! ## Bits and bytes -/

theorem pack_length (n : Nat) (b : List Bool) : (pack n b).length = n := by
  induction n generalizing b with
  | zero => rfl
  | succ n ih => simp [pack, ih]

theorem bitsOf_pack {n : Nat} {b : List Bool} (h : b.length = 8 * n) : bitsOf (pack n b) = b := by
  induction n generalizing b with
  | zero =>
    have : b = [] := List.eq_nil_of_length_eq_zero (by omega)
    simp [pack, bitsOf, this]
  | succ n ih =>
    simp only [pack, bitsOf]
    rw [ih (by simp; omega)]
    have hlt := natOfBits_lt (b.take 8)
    have hl : (b.take 8).length = 8 := by simp; omega
    have : bitsOfByte (BitVec.ofNat 8 (natOfBits (b.take 8))) = b.take 8 := by
      refine natOfBits_inj (by rw [hl]; rfl) ?_
      rw [natOfBits_bitsOfByte, BitVec.toNat_ofNat]
      rw [hl] at hlt
      omega
    rw [this, List.take_append_drop]

theorem bits_new (l : List U8) : (Cursor.new l).bits = bitsOf l := by
  simp [Cursor.bits, Cursor.new]

theorem rest_new (l : List U8) : (Cursor.new l).rest = bitsOf l := by
  simp [Cursor.rest, bits_new, Cursor.tellBit]
  simp [Cursor.new]

theorem winv_new {l : List U8} (h : l.length % 4 = 0) : WInv (Cursor.new l) :=
  ⟨inv_new l, h, rfl⟩

theorem pinv_new {c : Cursor} (h : Inv c) : PInv (Parser.new c) := ⟨h, rfl⟩

/-! ## Alignment of whole blocks -/

theorem block_aligned {its : Items} {k : Ctx} {pos : Nat} {w : Written} (hk : k.block = none)
    (h : write k pos its = some w) (hp : pos % 32 = 0) : (pos + w.bits.length) % 32 = 0 := by
  induction its generalizing k pos w with
  | nil => simp [write] at h; subst h; simpa using hp
  | define d rest ih =>
    simp only [write, Option.bind_eq_bind, Option.bind_eq_some_iff] at h
    obtain ⟨i, hi, h⟩ := h
    split at h
    · simp [Ctx.define, hk] at h
    · simp at h
  | unabbrev code fields rest ih => simp [write, Ctx.unabbrev, hk] at h
  | «abbrev» id code fields rest ih => simp [write, Ctx.lookup, hk] at h
  | block id width body rest ihb ihr =>
    simp only [write, Option.bind_eq_bind, Option.bind_eq_some_iff] at h
    obtain ⟨i, hi, w', hw', e, he, h⟩ := h
    split at h
    · simp only [Option.bind_eq_some_iff, Option.some.injEq] at h
      obtain ⟨r, hr, rfl⟩ := h
      have := ihr (by exact hk) hr (by
        simp only [List.length_append, pad32_length, bitsOfNat_length]
        omega)
      simp only [List.length_append] at this ⊢
      omega
    · simp at h

theorem write_events {its : Items} {k : Ctx} {pos : Nat} {w : Written} (h : write k pos its = some w) :
    w.entries.map Entry.event = its.events (decide (k.block = some 0)) := by
  induction its generalizing k pos w with
  | nil => simp [write] at h; subst h; rfl
  | define d rest ih =>
    simp only [write, Option.bind_eq_bind, Option.bind_eq_some_iff] at h
    obtain ⟨i, hi, h⟩ := h
    split at h
    · simp only [Option.bind_eq_some_iff, Option.some.injEq] at h
      obtain ⟨k', hk', r, hr, rfl⟩ := h
      simp only [Items.events]
      rw [ih hr, (define_same hk').1]
    · simp at h
  | unabbrev code fields rest ih =>
    simp only [write, Option.bind_eq_bind, Option.bind_eq_some_iff, Option.some.injEq] at h
    obtain ⟨i, hi, u, hu, k', hk', r, hr, rfl⟩ := h
    simp only [Items.events, List.map_append, visible]
    rw [ih hr, (unabbrev_same hk').1]
    by_cases h0 : k.block = some 0
    · rw [if_pos h0, decide_eq_true h0]; rfl
    · rw [if_neg h0, decide_eq_false h0]; rfl
  | «abbrev» id code fields rest ih =>
    simp only [write, Option.bind_eq_bind, Option.bind_eq_some_iff, Option.some.injEq] at h
    obtain ⟨i, hi, d, hd, v, hv, r, hr, rfl⟩ := h
    simp only [Items.events, List.map_append, visible]
    rw [ih hr]
    by_cases h0 : k.block = some 0
    · rw [if_pos h0, decide_eq_true h0]; rfl
    · rw [if_neg h0, decide_eq_false h0]; rfl
  | block id width body rest ihb ihr =>
    simp only [write, Option.bind_eq_bind, Option.bind_eq_some_iff] at h
    obtain ⟨i, hi, w', hw', e, he, h⟩ := h
    split at h
    · simp only [Option.bind_eq_some_iff, Option.some.injEq] at h
      obtain ⟨r, hr, rfl⟩ := h
      have h1 := ihb hw'
      have h2 := ihr hr
      simp only [Ctx.enter, Option.some.injEq] at h1
      simp only [Items.events]
      by_cases h0 : id = 0
      · simp only [h0, if_true, List.map_append, h2] at h1 ⊢
        rw [h1]; simp
      · simp only [if_neg h0, List.map_append, List.map_cons, h1, h2, Entry.event]
        rw [decide_eq_false h0]
    · simp at h

/-! ## Opening -/

theorem open_written {magic : U32} {its : Items} {bytes : List U8} {es : List Entry}
    (h : streamBytes magic its = some (bytes, es)) :
    ∃ w, write Ctx.start 32 its = some w ∧ es = w.entries ∧ bytes.length % 4 = 0 ∧
      bitsOf bytes = bitsOfNat 32 magic.toNat ++ w.bits ∧
      ∃ c, Cursor.readExact .u32 (Cursor.new bytes) = (.ok (magic.setWidth 64), c) ∧
        Bitstream.fromRaw bytes = .ok ⟨magic.setWidth 64, Parser.new c⟩ ∧ WInv c ∧ c.tellBit = 32 ∧ c.rest = w.bits := by
  simp only [streamBytes, writeStream, Option.bind_eq_bind, Option.bind_eq_some_iff, Option.some.injEq] at h
  obtain ⟨⟨b, es'⟩, ⟨w, hw, hb⟩, h⟩ := h
  simp only [Prod.mk.injEq] at hb h
  obtain ⟨rfl, rfl⟩ := hb
  obtain ⟨rfl, rfl⟩ := h
  have hal := block_aligned (k := Ctx.start) rfl hw (by omega)
  have hlen : (bitsOfNat 32 magic.toNat ++ w.bits).length = 32 + w.bits.length := by simp
  have h4 : (pack ((bitsOfNat 32 magic.toNat ++ w.bits).length / 8) (bitsOfNat 32 magic.toNat ++ w.bits)).length % 4 = 0 := by
    rw [pack_length, hlen]; omega
  have hbits := bitsOf_pack (n := (bitsOfNat 32 magic.toNat ++ w.bits).length / 8)
    (b := bitsOfNat 32 magic.toNat ++ w.bits) (by rw [hlen]; omega)
  refine ⟨w, hw, rfl, h4, hbits, ?_⟩
  have hm : (magic.setWidth 64 : U64).toNat = magic.toNat := by
    rw [BitVec.toNat_setWidth]; have := magic.isLt; omega
  have hmlt := magic.isLt
  obtain ⟨c, e, wi, sb, hr, ht⟩ := reads_readAs (t := .u32) (n := 32) (by omega) (by omega)
    (v := (magic.setWidth 64 : U64)) (by omega) (by rw [hm]; show _ ≤ 2 ^ 32 - 1; omega) 0 (Cursor.new _) w.bits
    (winv_new h4) (by rfl) (by rw [rest_new, hbits, hm])
  refine ⟨c, e, ?_, wi, by rw [ht]; simp; rfl, hr⟩
  unfold Bitstream.fromRaw Bitstream.fromCursor
  rw [if_neg (by simpa [Cursor.new] using h4)]
  rw [show Cursor.readExact .u32 (Cursor.new _) = _ from e]

theorem delivers_written (pf : Profile) {magic : U32} {its : Items} {bytes : List U8} {es : List Entry}
    (h : streamBytes magic its = some (bytes, es)) :
    ∃ b, Bitstream.fromRaw bytes = .ok b ∧ b.magic = magic.setWidth 64 ∧ Delivers pf b (es.map Entry.toStream) := by
  obtain ⟨w, hw, rfl, h4, hbits, c, -, ho, wi, ht, hr⟩ := open_written h
  refine ⟨_, ho, rfl, ?_⟩
  have hm : Match wordGrid Ctx.start [] (Parser.new c) := ⟨wi, rfl, rfl, rfl, fun _ => rfl⟩
  obtain ⟨q, st, hmq, -, hrq, -⟩ := write_steps pf hw hm (by show c.tellBit % 32 = _; rw [ht]) (tail := []) (by
    show c.rest = _; rw [hr]; simp)
  exact st.delivers hm.pinv ((exhausted_iff_rest hmq.winv.toInv).2 hrq) _

end Verif
