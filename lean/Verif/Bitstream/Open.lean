import Verif.Bitstream.RunSpec
import Verif.Bitstream.Sim

/-!
Opening containers.
-/

set_option linter.unusedSimpArgs false

namespace Verif
open Spec Cursor Parser

theorem natOfBits_word (l : List U8) (h : 4 ≤ l.length) : word32 l = some (natOfBits ((bitsOf l).take 32)) := by
  match l, h with
  | a :: b :: c :: d :: l, _ =>
    have : (bitsOf (a :: b :: c :: d :: l)).take 32 = bitsOf [a, b, c, d] := by
      rw [show (32 : Nat) = 8 * 4 from rfl, ← bitsOf_take]; rfl
    rw [this]
    have h0 : natOfBits (bitsOf ([] : List U8)) = 0 := rfl
    have e : natOfBits (bitsOf [a, b, c, d]) =
        a.toNat + 256 * b.toNat + 65536 * c.toNat + 16777216 * d.toNat := by
      rw [natOfBits_bitsOf_cons, natOfBits_bitsOf_cons, natOfBits_bitsOf_cons, natOfBits_bitsOf_cons, h0]
      generalize a.toNat = a
      generalize b.toNat = b
      generalize c.toNat = c
      generalize d.toNat = d
      omega
    rw [e]
    rfl

theorem word32_lt {l : List U8} {v : Nat} (h : word32 l = some v) : v < 2 ^ 32 := by
  unfold word32 at h
  split at h
  · next a b c d _ =>
    simp at h
    have := a.isLt
    have := b.isLt
    have := c.isLt
    have := d.isLt
    omega
  · simp at h

/-- Reading a 32-bit word. -/
theorem readU32 {c : Cursor} (h : Inv c) :
    (32 ≤ c.rest.length ∧ ∃ v c', Cursor.readExact .u32 c = (.ok v, c') ∧ v.toNat = natOfBits (c.rest.take 32) ∧
      SameBuf c c' ∧ Inv c' ∧ c'.rest = c.rest.drop 32 ∧ c'.tellBit = c.tellBit + 32 ∧
      (c.byteLen % 4 = 0 → c.bytePos % 4 = 0 → c'.bytePos % 4 = 0)) ∨
    (c.rest.length < 32 ∧ ∃ e c', Cursor.readExact .u32 c = (.err e, c') ∧ e = cutError c.rest.length) := by
  unfold Cursor.readExact Cursor.readAs
  rcases read_cases h 32 with ⟨hv, e⟩ | ⟨g1, g2, gl, v, c₁, e, sb, i1, hv, hr1, ht, hm⟩ | ⟨g1, g2, gr, e⟩ |
    ⟨g1, g2, gl, gne, c₁, e, -⟩
  · omega
  · left
    rw [show IntTy.u32.bitsize = 32 from rfl, e]
    have hlt : v.toNat ≤ IntTy.u32.max := by
      rw [hv]
      have := natOfBits_lt (c.rest.take 32)
      rw [List.length_take, Nat.min_eq_left gl] at this
      show _ ≤ 2 ^ 32 - 1
      omega
    simp only [hlt, if_true]
    exact ⟨gl, v, c₁, rfl, hv, sb, i1, hr1, ht, hm⟩
  · right
    rw [show IntTy.u32.bitsize = 32 from rfl, e]
    exact ⟨by rw [gr]; simp, .eof, c, rfl, by rw [gr]; rfl⟩
  · right
    rw [show IntTy.u32.bitsize = 32 from rfl, e]
    exact ⟨gl, .short, c₁, rfl, (if_neg (by rw [List.length_eq_zero_iff]; exact gne)).symm⟩

/-- What is said of a container of `len` bytes, of which `rest` bits are to be read. -/
def containerMsg (len rest : Nat) : ContainerMsg := if len % 4 = 0 then .magic (cutError rest) else .unaligned

/-- `from_cursor`, exactly. -/
theorem fromCursor_spec {c : Cursor} (h : Inv c) :
    (c.byteLen % 4 = 0 ∧ 32 ≤ c.rest.length ∧ ∃ v c', Bitstream.fromCursor c = .ok ⟨v, Parser.new c'⟩ ∧
      v.toNat = natOfBits (c.rest.take 32) ∧
      SameBuf c c' ∧ Inv c' ∧ c'.rest = c.rest.drop 32 ∧ c'.tellBit = c.tellBit + 32 ∧
      (c.byteLen % 4 = 0 → c.bytePos % 4 = 0 → c'.bytePos % 4 = 0)) ∨
    ((c.byteLen % 4 ≠ 0 ∨ c.rest.length < 32) ∧
      Bitstream.fromCursor c = .err (.badContainer (containerMsg c.byteLen c.rest.length))) := by
  unfold Bitstream.fromCursor
  by_cases h4 : c.byteLen % 4 = 0
  · rw [if_neg (by simpa using h4)]
    rcases readU32 h with ⟨hl, v, c', e, rest⟩ | ⟨hl, x, c', e, hx⟩
    · rw [e]; exact .inl ⟨h4, hl, v, c', rfl, rest⟩
    · rw [e]; exact .inr ⟨.inr hl, by rw [hx, containerMsg, if_pos h4]⟩
  · rw [if_pos h4]; exact .inr ⟨.inl h4, by rw [containerMsg, if_neg h4]⟩

theorem rest_new_drop (l : List U8) (k : Nat) : (bitsOf l).drop (32 * k) = bitsOf (l.drop (4 * k)) := by
  rw [bitsOf_drop]; congr 1; omega

/-- The header of a wrapper. -/
theorem readWrapper_spec (inner : List U8) :
    (20 ≤ inner.length ∧ ∃ w, (Bitstream.readWrapper (Cursor.new inner)).1 = .ok w ∧
      word32 inner = some w.magic.toNat ∧ word32 (inner.drop 4) = some w.version.toNat ∧
      word32 (inner.drop 8) = some w.offset.toNat ∧ word32 (inner.drop 12) = some w.size.toNat ∧
      word32 (inner.drop 16) = some w.cpuType.toNat) ∨
    (inner.length < 20 ∧ (Bitstream.readWrapper (Cursor.new inner)).1 = .err (.cursor (cutError (inner.length % 4)))) := by
  have hlen : ∀ k, (bitsOf (inner.drop k)).length = 8 * (inner.length - k) := fun k => by
    rw [bitsOf_length]; simp
  have lift_ok : ∀ {c c' : Cursor} {v : U64}, Cursor.readExact .u32 c = (.ok v, c') →
      cur (Cursor.readExact .u32) c = (.ok v, c') := by
    intro c c' v h; simp [cur, StM.mapErr, h]
  have lift_err : ∀ {c c' : Cursor} {e : CErr}, Cursor.readExact .u32 c = (.err e, c') →
      cur (Cursor.readExact .u32) c = (.err (.cursor e), c') := by
    intro c c' v h; simp [cur, StM.mapErr, h]
  have fin : ∀ {e : CErr} {x : Out BErr BitcodeWrapper} {n : Nat}, x = .err (.cursor e) → e = cutError n →
      (n = 0 ↔ inner.length % 4 = 0) → x = .err (.cursor (cutError (inner.length % 4))) := by
    intro e x n h h' hn
    rw [h, h']
    unfold cutError
    simp only [hn]
  unfold Bitstream.readWrapper
  rcases readU32 (inv_new inner) with ⟨l0, v0, c0, e0, hv0, -, i0, r0, -⟩ | ⟨l0, x, c0, e0, hx⟩
  · rw [StM.bind_ok (lift_ok e0)]
    rw [rest_new] at l0 hv0 r0
    rcases readU32 i0 with ⟨l1, v1, c1, e1, hv1, -, i1, r1, -⟩ | ⟨l1, x, c1, e1, hx⟩
    · rw [StM.bind_ok (lift_ok e1)]
      rw [r0] at l1 hv1 r1
      rcases readU32 i1 with ⟨l2, v2, c2, e2, hv2, -, i2, r2, -⟩ | ⟨l2, x, c2, e2, hx⟩
      · rw [StM.bind_ok (lift_ok e2)]
        rw [r1] at l2 hv2 r2
        rcases readU32 i2 with ⟨l3, v3, c3, e3, hv3, -, i3, r3, -⟩ | ⟨l3, x, c3, e3, hx⟩
        · rw [StM.bind_ok (lift_ok e3)]
          rw [r2] at l3 hv3 r3
          rcases readU32 i3 with ⟨l4, v4, c4, e4, hv4, -, i4, r4, -⟩ | ⟨l4, x, c4, e4, hx⟩
          · rw [StM.bind_ok (lift_ok e4)]
            rw [r3] at l4 hv4 r4
            simp only [List.drop_drop] at *
            have hl : 20 ≤ inner.length := by
              rw [show (32 + (32 + (32 + 32)) : Nat) = 32 * 4 from rfl, rest_new_drop, hlen] at l4; omega
            left
            refine ⟨hl, _, rfl, ?_, ?_, ?_, ?_, ?_⟩
            · rw [natOfBits_word _ (by omega), hv0]
            · rw [natOfBits_word _ (by simp; omega), hv1, show (32 : Nat) = 32 * 1 from rfl, rest_new_drop]
            · rw [natOfBits_word _ (by simp; omega), hv2, show (32 + 32 : Nat) = 32 * 2 from rfl, rest_new_drop]
            · rw [natOfBits_word _ (by simp; omega), hv3, show (32 + (32 + 32) : Nat) = 32 * 3 from rfl, rest_new_drop]
            · rw [natOfBits_word _ (by simp; omega), hv4, show (32 + (32 + (32 + 32)) : Nat) = 32 * 4 from rfl, rest_new_drop]
          · right
            rw [StM.bind_err (lift_err e4)]
            rw [r3] at l4 hx
            simp only [List.length_drop, bitsOf_length] at l4 l3 hx
            exact ⟨by omega, fin rfl hx (by omega)⟩
        · right
          rw [StM.bind_err (lift_err e3)]
          rw [r2] at l3 hx
          simp only [List.length_drop, bitsOf_length] at l3 l2 hx
          exact ⟨by omega, fin rfl hx (by omega)⟩
      · right
        rw [StM.bind_err (lift_err e2)]
        rw [r1] at l2 hx
        simp only [List.length_drop, bitsOf_length] at l2 l1 hx
        exact ⟨by omega, fin rfl hx (by omega)⟩
    · right
      rw [StM.bind_err (lift_err e1)]
      rw [r0] at l1 hx
      simp only [List.length_drop, bitsOf_length] at l1 l0 hx
      exact ⟨by omega, fin rfl hx (by omega)⟩
  · right
    rw [StM.bind_err (lift_err e0)]
    rw [rest_new, bitsOf_length] at l0 hx
    exact ⟨by omega, fin rfl hx (by omega)⟩

/-- The cursor at the start of the embedded stream. -/
def windowCursor (inner : List U8) (size offset : Nat) : Cursor :=
  ({ Cursor.new inner with byteLen := size } : Cursor).atByte offset

theorem inv_window {inner : List U8} {n off : Nat} (h : n ≤ inner.length) (ho : off ≤ n) : Inv (windowCursor inner n off) := by
  refine inv_at ?_ ho
  exact ⟨h, by simp [Cursor.new], by simp [Cursor.new], by simp [Cursor.new], by simp [Cursor.new, natOfBits]⟩

theorem rest_window {inner : List U8} {n off : Nat} :
    (windowCursor inner n off).rest = bitsOf ((inner.take n).drop off) := by
  rw [bitsOf_drop]
  simp [windowCursor, Cursor.rest, Cursor.bits, Cursor.atByte, Cursor.clearBlockState, Cursor.tellBit, Cursor.new]
  congr 1; omega

/-- `from_wrapped`, exactly. -/
theorem fromWrapped_spec (pf : Profile) (inner : List U8) :
    (∃ w, (Bitstream.readWrapper (Cursor.new inner)).1 = .ok w ∧ w.size.toNat + 20 ≤ inner.length ∧
      w.offset.toNat ≤ w.size.toNat + 20 ∧
      Bitstream.fromWrapped pf inner =
        (Bitstream.fromCursor (windowCursor inner (w.size.toNat + 20) w.offset.toNat)).bind fun b => .ok (w, b)) ∨
    (∃ w, (Bitstream.readWrapper (Cursor.new inner)).1 = .ok w ∧ inner.length < w.size.toNat + 20 ∧
      Bitstream.fromWrapped pf inner = .err (.cursor .invalidLength)) ∨
    (∃ w, (Bitstream.readWrapper (Cursor.new inner)).1 = .ok w ∧ w.size.toNat + 20 ≤ inner.length ∧
      w.size.toNat + 20 < w.offset.toNat ∧ Bitstream.fromWrapped pf inner = .err (.streamParse (.seek .invalidInput))) ∨
    (inner.length < 20 ∧ Bitstream.fromWrapped pf inner = .err (.cursor (cutError (inner.length % 4)))) := by
  unfold Bitstream.fromWrapped
  rcases readWrapper_spec inner with ⟨hl, w, hw, -⟩ | ⟨hl, hw⟩
  · rw [hw]
    simp only [Out.ok_bind]
    by_cases hs : w.size.toNat + 20 ≤ inner.length
    · have hc : Cursor.newWithLen inner (w.size.toNat + 20) =
          .ok { Cursor.new inner with byteLen := w.size.toNat + 20 } := by
        unfold Cursor.newWithLen; rw [if_neg (by omega)]; rfl
      rw [hc]
      simp only [Out.mapErr_ok, Out.ok_bind, Cursor.seek, Cursor.seekTo]
      by_cases ho : w.offset.toNat > w.size.toNat + 20
      · rw [if_pos ho]
        exact .inr (.inr (.inl ⟨w, rfl, hs, ho, rfl⟩))
      · rw [if_neg ho]
        exact .inl ⟨w, rfl, hs, by omega, rfl⟩
    · have hc : Cursor.newWithLen inner (w.size.toNat + 20) = .err .invalidLength := by
        unfold Cursor.newWithLen; rw [if_pos (by omega)]
      rw [hc]
      exact .inr (.inl ⟨w, rfl, by omega, rfl⟩)
  · refine .inr (.inr (.inr ⟨hl, ?_⟩))
    rw [hw]; rfl

/-- `from`, exactly. -/
theorem from_spec (pf : Profile) (inner : List U8) :
    (inner.length < 4 ∧ Bitstream.from pf inner = .err (.cursor (cutError inner.length))) ∨
    (4 ≤ inner.length ∧ word32 inner = some 0x0B17C0DE ∧
      Bitstream.from pf inner = (Bitstream.fromWrapped pf inner).bind fun r => .ok (some r.1, r.2)) ∨
    (4 ≤ inner.length ∧ word32 inner ≠ some 0x0B17C0DE ∧
      Bitstream.from pf inner = (Bitstream.fromRaw inner).bind fun b => .ok (none, b)) := by
  unfold Bitstream.from
  have hlen := bitsOf_length inner
  rcases readU32 (inv_new inner) with ⟨l0, v0, c0, e0, hv0, -⟩ | ⟨l0, x, c0, e0, hx⟩
  · rw [rest_new] at l0 hv0
    have h4 : 4 ≤ inner.length := by omega
    have hw := natOfBits_word inner h4
    rw [← hv0] at hw
    right
    rw [show cur (Cursor.readExact .u32) (Cursor.new inner) = (.ok v0, c0) by simp [cur, StM.mapErr, e0]]
    simp only [Out.ok_bind]
    by_cases hm : v0 = 0x0b17c0de
    · left
      rw [if_pos hm]
      refine ⟨h4, by rw [hw, hm]; rfl, rfl⟩
    · right
      rw [if_neg hm]
      refine ⟨h4, ?_, rfl⟩
      rw [hw]
      intro hc
      simp only [Option.some.injEq] at hc
      exact hm (BitVec.eq_of_toNat_eq (by rw [hc]; rfl))
  · rw [rest_new] at l0 hx
    left
    rw [show cur (Cursor.readExact .u32) (Cursor.new inner) = (.err (.cursor x), c0) by simp [cur, StM.mapErr, e0]]
    refine ⟨by omega, ?_⟩
    rw [hx]
    unfold cutError
    simp only [show (bitsOf inner).length = 0 ↔ inner.length = 0 by omega]
    rfl

theorem opened_fromCursor {c : Cursor} (h : Inv c) {b : Bitstream} (hb : Bitstream.fromCursor c = .ok b) :
    PInv b.parser ∧ b.parser.scopes = [.initial] ∧ b.parser.blockinfo = fun _ => none := by
  rcases fromCursor_spec h with ⟨-, -, v, c', e, -, -, hi, -⟩ | ⟨-, e⟩
  · rw [e] at hb; simp only [Out.ok.injEq] at hb; subst hb
    exact ⟨pinv_new hi, rfl, rfl⟩
  · rw [e] at hb; simp at hb

theorem opened_wrapped {pf : Profile} {bytes : List U8} {w : BitcodeWrapper} {b : Bitstream}
    (h : Bitstream.fromWrapped pf bytes = .ok (w, b)) : ∃ c, Inv c ∧ Bitstream.fromCursor c = .ok b := by
  rcases fromWrapped_spec pf bytes with ⟨w', -, hs, ho, e⟩ | ⟨w', -, -, e⟩ | ⟨w', -, -, -, e⟩ | ⟨-, e⟩
  · rw [e] at h
    refine ⟨_, inv_window hs ho, ?_⟩
    cases hc : Bitstream.fromCursor (windowCursor bytes (w'.size.toNat + 20) w'.offset.toNat) with
    | ok b' => rw [hc] at h; simp [Out.bind] at h; rw [h.2]
    | err _ => rw [hc] at h; simp [Out.bind] at h
    | panic _ => rw [hc] at h; simp [Out.bind] at h
    | diverge => rw [hc] at h; simp [Out.bind] at h
  · rw [e] at h; simp at h
  · rw [e] at h; simp at h
  · rw [e] at h; simp at h

theorem Opened.start {pf : Profile} {b : Bitstream} (h : Opened pf b) :
    PInv b.parser ∧ b.parser.scopes = [.initial] ∧ b.parser.blockinfo = fun _ => none := by
  cases h with
  | raw h => exact opened_fromCursor (inv_new _) h
  | wrapped h => obtain ⟨c, hi, hc⟩ := opened_wrapped h; exact opened_fromCursor hi hc
  | @auto bytes w b h =>
    rcases from_spec pf bytes with ⟨-, e⟩ | ⟨-, -, e⟩ | ⟨-, -, e⟩
    · rw [e] at h; simp at h
    · rw [e] at h
      cases hw : Bitstream.fromWrapped pf bytes with
      | ok r =>
        rw [hw] at h; simp [Out.bind] at h
        obtain ⟨c, hi, hc⟩ := opened_wrapped (w := r.1) (b := r.2) hw
        rw [← h.2]; exact opened_fromCursor hi hc
      | err _ => rw [hw] at h; simp [Out.bind] at h
      | panic _ => rw [hw] at h; simp [Out.bind] at h
      | diverge => rw [hw] at h; simp [Out.bind] at h
    · rw [e] at h
      cases hw : Bitstream.fromRaw bytes with
      | ok r =>
        rw [hw] at h; simp [Out.bind] at h
        rw [← h.2]; exact opened_fromCursor (inv_new _) hw
      | err _ => rw [hw] at h; simp [Out.bind] at h
      | panic _ => rw [hw] at h; simp [Out.bind] at h
      | diverge => rw [hw] at h; simp [Out.bind] at h

/-! ## Similar streams -/

theorem next_pinv {pf : Profile} {b : Bitstream} (h : PInv b.parser) : PInv (Bitstream.next pf b).2.parser := by
  have hs := (pstep_advance (pf := pf) h).inv
  unfold Bitstream.next Bitstream.advance
  match hr : Parser.advance pf b.parser with
  | (.ok e, p') => rw [hr] at hs; exact hs
  | (.err e, p') => rw [hr] at hs; cases e <;> exact hs
  | (.panic e, p') => rw [hr] at hs; exact hs
  | (.diverge, p') => rw [hr] at hs; exact hs

theorem observe_sim (pf : Profile) (n : Nat) {b b' : Bitstream} (h : PSim b.parser b'.parser) (hp : PInv b.parser)
    (hp' : PInv b'.parser) : observe pf n b = observe pf n b' := by
  induction n generalizing b b' with
  | zero => rfl
  | succ n ih =>
    obtain ⟨h1, h2⟩ := psim_advance pf h hp hp'
    have i1 := next_pinv (pf := pf) hp
    have i2 := next_pinv (pf := pf) hp'
    simp only [observe]
    unfold Bitstream.next Bitstream.advance at *
    match hr : Parser.advance pf b.parser, hr' : Parser.advance pf b'.parser with
    | (.ok a, c'), (.ok a', d') =>
      rw [hr, hr'] at h1 h2
      rw [hr] at i1
      rw [hr'] at i2
      simp only [Out.ok.injEq] at h1
      subst h1
      simp only
      rw [ih (h2 a rfl) i1 i2]
    | (.err e, c'), (.err e', d') =>
      rw [hr, hr'] at h1; simp only [Out.err.injEq] at h1; subst h1
      cases e <;> rfl
    | (.panic e, c'), (.panic e', d') =>
      rw [hr, hr'] at h1; simp only [Out.panic.injEq] at h1; subst h1
      rfl
    | (.diverge, c'), (.diverge, d') => rfl
    | (.ok _, _), (.err _, _) | (.ok _, _), (.panic _, _) | (.ok _, _), (.diverge, _) => rw [hr, hr'] at h1; simp at h1
    | (.err _, _), (.ok _, _) | (.err _, _), (.panic _, _) | (.err _, _), (.diverge, _) => rw [hr, hr'] at h1; simp at h1
    | (.panic _, _), (.ok _, _) | (.panic _, _), (.err _, _) | (.panic _, _), (.diverge, _) => rw [hr, hr'] at h1; simp at h1
    | (.diverge, _), (.ok _, _) | (.diverge, _), (.err _, _) | (.diverge, _), (.panic _, _) => rw [hr, hr'] at h1; simp at h1

/-- The window of a wrapper is read like the bytes in it on their own. -/
theorem window_sim {inner : List U8} {n off : Nat} (hn : n ≤ inner.length) (ho : off ≤ n) (h4 : off % 4 = 0) (pf : Profile) :
    (∃ b b', Bitstream.fromCursor (windowCursor inner n off) = .ok b ∧
      Bitstream.fromRaw ((inner.take n).drop off) = .ok b' ∧ b.magic = b'.magic ∧
      ∀ k, observe pf k b = observe pf k b') ∨
    (∃ m, Bitstream.fromCursor (windowCursor inner n off) = .err (.badContainer m) ∧
      Bitstream.fromRaw ((inner.take n).drop off) = .err (.badContainer m)) := by
  have hinv := inv_window hn ho
  have hlen : ((inner.take n).drop off).length = n - off := by simp; omega
  have hbl : (windowCursor inner n off).byteLen = n := rfl
  have hbp : (windowCursor inner n off).bytePos = off := rfl
  have hr := rest_window (inner := inner) (n := n) (off := off)
  have hbn : (Cursor.new ((inner.take n).drop off)).byteLen = n - off := hlen
  rcases fromCursor_spec hinv with ⟨g4, gl, v, c', e, hv, sb, hi, hr', ht, hm⟩ | ⟨g, e⟩
  · rcases fromCursor_spec (inv_new ((inner.take n).drop off)) with ⟨k4, kl, v', d', e', hv', sb', hi', hr'', ht', hm'⟩ | ⟨k, -⟩
    · left
      rw [rest_new] at hv' hr''
      rw [hr] at hv hr'
      have hvv : v = v' := BitVec.eq_of_toNat_eq (by rw [hv, hv'])
      refine ⟨_, _, e, e', by simp [hvv], fun k => observe_sim pf k ?_ (pinv_new hi) (pinv_new hi')⟩
      refine ⟨⟨⟨hi, by show c'.byteLen % 4 = 0; rw [sb.2]; exact g4, hm g4 (by rw [hbp]; exact h4)⟩,
        ⟨hi', by show d'.byteLen % 4 = 0; rw [sb'.2]; exact k4, hm' k4 rfl⟩, ?_, ?_⟩, rfl, rfl⟩
      · show c'.rest = d'.rest; rw [hr', hr'']
      · show c'.tellBit % 32 = d'.tellBit % 32
        rw [ht, ht']
        show (off * 8 - 0 + 32) % 32 = (0 * 8 - 0 + 32) % 32
        omega
    · rw [hbl] at g4
      rw [hbn, rest_new] at k
      rw [hr] at gl
      omega
  · right
    rw [hbl, hr] at g e
    refine ⟨_, e, ?_⟩
    rcases fromCursor_spec (inv_new ((inner.take n).drop off)) with ⟨k4, kl, -⟩ | ⟨-, e'⟩
    · rw [hbn] at k4
      rw [rest_new] at kl
      omega
    · refine e'.trans ?_
      rw [hbn, rest_new, containerMsg, containerMsg, show (n - off) % 4 = n % 4 by omega]

end Verif
