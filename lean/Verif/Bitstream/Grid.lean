import Verif.Bitstream.GrammarSpec
import Verif.Cursor.Lemmas

/-!
Cursors on which `align32` is padding, in terms of a position.
-/

namespace Verif
open Spec Cursor

/-- Cursors that stay of one kind when they are read and aligned, the position that counts for padding, and the padding. -/
structure Grid where
  on : Cursor → Prop
  pos : Cursor → Nat
  pad : Nat → Nat
  ends : Nat → Prop
  inv : ∀ {c}, on c → Inv c
  add : ∀ {c c' n}, on c → c'.tellBit = c.tellBit + n → pos c' = pos c + n
  read : ∀ {c c' n v}, on c → Cursor.read n c = (.ok v, c') → on c'
  align : ∀ {c}, on c → on c.align32 ∧ c.align32.tellBit = c.tellBit + pad (pos c)
  ending : ∀ {c}, on c → ends (pos c + c.rest.length)
  fits : ∀ {n p}, ends n → p ≤ n → p + pad p ≤ n

/-- Cursors on words: padding goes to the next multiple of 32. -/
def wordGrid : Grid where
  on := WInv
  pos := tellBit
  pad := toWord
  ends n := n % 32 = 0
  inv h := h.toInv
  add _ h := h
  read {c c' n v} hw e := by
    rcases read_cases hw.toInv n with ⟨-, hr⟩ | ⟨h1, h2, hn, v₁, c₁, hr, hs, hi, hv, hrest, ht, hm⟩ | ⟨-, -, -, hr⟩ |
      ⟨-, -, -, -, c₁, hr, -⟩ <;> rw [hr] at e <;> cases e
    exact ⟨hi, by rw [hs.2]; exact hw.len4, hm hw.len4 hw.pos4⟩
  align {c} hw := by
    obtain ⟨hw', ht⟩ := align32_word hw
    exact ⟨hw', by rw [ht, toWord]; omega⟩
  ending {c} h := by
    have := rest_length h.toInv
    have := tellBit_le h.toInv
    have := h.len4
    omega
  fits {n p} h hp := by
    unfold toWord
    omega

/-- A cursor that reads pieces of 64 bits from byte `off` on, and has begun with each piece it has fetched; `n` is the number of
bits from there. -/
structure PieceInv (off n : Nat) (c : Cursor) : Prop extends Inv c where
  len : c.byteLen * 8 = off * 8 + n
  le : off * 8 ≤ c.tellBit
  idle : c.bitIndex = 0 → (c.tellBit - off * 8) % 64 = 0 ∨ c.bytePos = c.byteLen
  busy : c.bitIndex ≠ 0 → (c.tellBit - off * 8) % 64 ≠ 0 ∧
    c.bytePos * 8 - off * 8 = min n ((c.tellBit - off * 8) / 64 * 64 + 64)

theorem piece_read {off n : Nat} {c c' : Cursor} {k : Nat} {v : U64} (h : PieceInv off n c)
    (e : Cursor.read k c = (.ok v, c')) : PieceInv off n c' := by
  have hi := h.toInv
  have hlen := h.len
  have hle := h.le
  have hidle := h.idle
  have hbusy := h.busy
  have hil := hi.idx_le
  have hlt := hi.idx_lt
  have hpl := hi.pos_le
  obtain ⟨h1, h2, hn, hs, hi', ht⟩ : 1 ≤ k ∧ k ≤ 63 ∧ k ≤ c.rest.length ∧ SameBuf c c' ∧ Inv c' ∧ c'.tellBit = c.tellBit + k := by
    rcases read_cases hi k with ⟨-, hr⟩ | ⟨h1, h2, hn, v₁, c₁, hr, hs, hi, hv, hrest, ht, hm⟩ | ⟨-, -, -, hr⟩ |
      ⟨-, -, -, -, c₁, hr, -⟩ <;> rw [hr] at e <;> cases e
    exact ⟨h1, h2, hn, hs, hi, ht⟩
  have hrl := rest_length hi
  have hbl := hs.2
  -- where the bytes are after the read
  have hcase : (k ≤ c.bitIndex ∧ c'.bytePos = c.bytePos ∧ c'.bitIndex = c.bitIndex - k) ∨
      (c.bitIndex < k ∧ c'.bytePos * 8 = c.bytePos * 8 + min 64 ((c.byteLen - c.bytePos) * 8) ∧
        c'.bitIndex + k = c.bitIndex + min 64 ((c.byteLen - c.bytePos) * 8)) := by
    unfold Cursor.read at e
    rw [if_neg (by omega)] at e
    by_cases hk : c.bitIndex ≥ k
    · rw [if_pos hk] at e
      cases e
      exact .inl ⟨hk, rfl, rfl⟩
    · rw [if_neg hk] at e
      obtain ⟨c₁, el, -, hb, hp, -⟩ := load_spec hi (by omega)
      simp only [el] at e
      split at e
      · cases e
      · next hgt =>
        cases e
        refine .inr ⟨by omega, ?_, ?_⟩
        · show c₁.bytePos * 8 = _
          omega
        · show c₁.bitIndex - (k - c.bitIndex) + k = _
          omega
  simp only [tellBit] at *
  refine ⟨hi', by rw [hbl]; exact hlen, by simp only [tellBit]; omega, ?_, ?_⟩ <;> intro h0 <;> simp only [tellBit] <;>
    by_cases hb0 : c.bitIndex = 0
  · have := hidle hb0
    omega
  · have := hbusy hb0
    omega
  · have := hidle hb0
    omega
  · have := hbusy hb0
    omega

theorem piece_align {off n : Nat} {c : Cursor} (h : PieceInv off n c) :
    PieceInv off n c.align32 ∧ c.align32.tellBit = c.tellBit + toPiece n (c.tellBit - off * 8) := by
  obtain ⟨hsb, hi', -, -, hbp, -⟩ := align32_spec h.toInv
  have hi := h.toInv
  have hlen := h.len
  have hle := h.le
  have hidle := h.idle
  have hbusy := h.busy
  have hil := hi.idx_le
  have hlt := hi.idx_lt
  have hpl := hi.pos_le
  have hbl := hsb.2
  have hidx : (32 ≤ c.bitIndex ∧ c.align32.bitIndex = 32) ∨ (c.bitIndex < 32 ∧ c.align32.bitIndex = 0) := by
    unfold Cursor.align32
    split
    · exact .inl ⟨by assumption, rfl⟩
    · exact .inr ⟨by omega, rfl⟩
  have hlen' : c.align32.byteLen * 8 = off * 8 + n := by rw [hbl]; exact hlen
  have hp : c.align32.bytePos = c.bytePos := hbp
  clear hbp hsb h
  generalize c.align32 = c' at *
  have htb : c.tellBit = c.bytePos * 8 - c.bitIndex := rfl
  have htb' : c'.tellBit = c'.bytePos * 8 - c'.bitIndex := rfl
  have ht : c'.tellBit = c.tellBit + toPiece n (c.tellBit - off * 8) := by
    unfold toPiece
    by_cases hb0 : c.bitIndex = 0
    · have := hidle hb0
      split <;> omega
    · have := hbusy hb0
      split <;> omega
  refine ⟨⟨hi', hlen', by omega, fun h0 => ?_, fun h0 => ?_⟩, ht⟩
  all_goals
    clear ht
    by_cases hb0 : c.bitIndex = 0
    · have := hidle hb0
      omega
    · have := hbusy hb0
      omega

/-- Cursors that read pieces from a byte on. -/
def pieceGrid (off n : Nat) : Grid where
  on := PieceInv off n
  pos c := c.tellBit - off * 8
  pad := toPiece n
  ends m := m = n
  inv h := h.toInv
  add h ht := by
    have := h.le
    omega
  read h e := piece_read h e
  align h := piece_align h
  ending {c} h := by
    have := rest_length h.toInv
    have := tellBit_le h.toInv
    have := h.len
    have := h.le
    omega
  fits {m p} h hp := by
    unfold toPiece
    split <;> omega

end Verif
