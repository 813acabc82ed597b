import Verif.Cursor.Model
import Verif.Base.Bits

/-! Representation invariant of the cursor and the behaviour of each operation in terms of bits. -/

set_option linter.unusedSimpArgs false

namespace Verif.Cursor
open Spec

/-- The bits the cursor may read. -/
def bits (c : Cursor) : List Bool := bitsOf (c.inner.take c.byteLen)

/-- The bits that follow the current position. -/
def rest (c : Cursor) : List Bool := c.bits.drop c.tellBit

/-- Representation invariant. -/
structure Inv (c : Cursor) : Prop where
  len_le : c.byteLen ≤ c.inner.length
  pos_le : c.bytePos ≤ c.byteLen
  idx_le : c.bitIndex ≤ c.bytePos * 8
  idx_lt : c.bitIndex < 64
  block : c.currentBlock.toNat = natOfBits (c.rest.take c.bitIndex)

/-- The buffer is the same. -/
def SameBuf (c c' : Cursor) : Prop := c'.inner = c.inner ∧ c'.byteLen = c.byteLen

theorem SameBuf.rfl' {c : Cursor} : SameBuf c c := ⟨rfl, rfl⟩
theorem SameBuf.trans {a b c : Cursor} (h₁ : SameBuf a b) (h₂ : SameBuf b c) : SameBuf a c :=
  ⟨h₂.1.trans h₁.1, h₂.2.trans h₁.2⟩
theorem SameBuf.bits {c c' : Cursor} (h : SameBuf c c') : c'.bits = c.bits := by
  simp [Cursor.bits, h.1, h.2]

theorem bits_length {c : Cursor} (h : Inv c) : c.bits.length = c.byteLen * 8 := by
  have := h.len_le
  simp [bits, bitsOf_length]; omega

theorem tellBit_le {c : Cursor} (h : Inv c) : c.tellBit ≤ c.byteLen * 8 := by
  have := h.pos_le
  simp only [tellBit]; omega

theorem rest_length {c : Cursor} (h : Inv c) : c.rest.length = c.byteLen * 8 - c.tellBit := by
  simp [rest, bits_length h]

theorem inv_new (l : List U8) : Inv (new l) := by
  constructor <;> simp [new, natOfBits]

theorem inv_newWithLen {l : List U8} {n : Nat} {c : Cursor} (h : newWithLen l n = .ok c) : Inv c := by
  simp only [newWithLen] at h
  split at h
  · simp at h
  · simp at h; subst h
    constructor <;> simp [natOfBits]; omega

theorem assemble_toNat (bs : List U8) (idx : Nat) (acc : U64) (h : idx + bs.length ≤ 8)
    (hacc : acc.toNat < 2 ^ (8 * idx)) :
    (assemble bs idx acc).toNat = acc.toNat + 2 ^ (8 * idx) * natOfBits (bitsOf bs) := by
  induction bs generalizing idx acc with
  | nil => simp [assemble, bitsOf, natOfBits]
  | cons b bs ih =>
    simp only [List.length_cons] at h
    have hb : b.toNat < 2 ^ 8 := b.isLt
    have hpow : (2:Nat) ^ (8 * (idx + 1)) = 2 ^ (8 * idx) * 2 ^ 8 := by rw [← Nat.pow_add]; congr 1
    have hle : (2:Nat) ^ (8 * (idx + 1)) ≤ 2 ^ 64 := Nat.pow_le_pow_right (by omega) (by omega)
    have hmul : 2 ^ (8 * idx) * b.toNat + 2 ^ (8 * idx) ≤ 2 ^ (8 * (idx + 1)) := by
      rw [hpow, ← Nat.mul_succ]; exact Nat.mul_le_mul_left _ hb
    have hstep : (acc ||| (b.setWidth 64 <<< (idx * 8))).toNat = acc.toNat + 2 ^ (8 * idx) * b.toNat := by
      rw [BitVec.toNat_or, BitVec.toNat_shiftLeft, BitVec.toNat_setWidth,
        Nat.mod_eq_of_lt (a := b.toNat) (by omega), Nat.mul_comm idx 8, Nat.mod_eq_of_lt,
        or_shiftLeft_eq_add hacc]
      rw [Nat.shiftLeft_eq, Nat.mul_comm]; omega
    simp only [assemble]
    rw [ih (idx + 1) _ (by omega) (by rw [hstep]; omega), hstep, natOfBits_bitsOf_cons, hpow,
      Nat.mul_add, ← Nat.mul_assoc, Nat.add_assoc]

theorem and_mask_toNat (x : U64) (n : Nat) (hn : n ≤ 64) :
    (x &&& (BitVec.allOnes 64 >>> (64 - n))).toNat = x.toNat % 2 ^ n := by
  have : (BitVec.allOnes 64 >>> (64 - n)).toNat = 2 ^ n - 1 := by
    rw [BitVec.toNat_ushiftRight, BitVec.toNat_allOnes, Nat.shiftRight_eq_div_pow]
    have h64 : (2:Nat) ^ 64 = 2 ^ n * 2 ^ (64 - n) := by rw [← Nat.pow_add]; congr 1; omega
    have hp := Nat.two_pow_pos (64 - n)
    have hq := Nat.two_pow_pos n
    rw [h64]
    apply Nat.div_eq_of_lt_le
    · rw [Nat.sub_mul]; omega
    · rw [Nat.sub_add_cancel hq]; omega
  rw [BitVec.toNat_and, this, Nat.and_two_pow_sub_one_eq_mod]

/-- What a successful `load_current_block` leaves behind. -/
theorem load_spec {c : Cursor} (h : Inv c) (hp : c.tellBit < c.byteLen * 8) :
    ∃ c', loadCurrentBlock c = (.ok (), c') ∧ SameBuf c c' ∧
      c'.bitIndex = min 64 ((c.byteLen - c.bytePos) * 8) ∧
      c'.bytePos * 8 = c.bytePos * 8 + c'.bitIndex ∧
      c'.bytePos ≤ c'.byteLen ∧
      c'.tellBit = c.bytePos * 8 ∧
      c'.currentBlock.toNat = natOfBits (c'.rest.take c'.bitIndex) ∧
      (c.byteLen % 4 = 0 → c.bytePos % 4 = 0 → c'.bytePos % 4 = 0) := by
  have hlen := h.len_le
  have hpos := h.pos_le
  have hcond : ¬ c.tellByte ≥ c.byteLen := by simp only [tellByte]; omega
  have htb : c.clearBlockState.tellByte = c.bytePos := by
    simp [tellByte, tellBit, clearBlockState]
  simp only [loadCurrentBlock, hcond, if_false, htb]
  have hbl : c.clearBlockState.byteLen = c.byteLen := rfl
  have hin : c.clearBlockState.inner = c.inner := rfl
  have hbp : c.clearBlockState.bytePos = c.bytePos := rfl
  simp only [hbl, hin, hbp]
  -- the slice
  let n := min 8 (c.byteLen - c.bytePos)
  have hs : ∀ r : Nat × Nat, r = (if c.bytePos + 8 < c.byteLen then (c.bytePos, c.bytePos + 8)
      else (c.bytePos, c.byteLen)) →
      slice? c.inner r.1 r.2 = some ((c.inner.drop c.bytePos).take n) := by
    intro r hr
    split at hr
    · subst hr; simp only [slice?]; rw [if_pos (by omega)]; congr 2; omega
    · subst hr; simp only [slice?]; rw [if_pos (by omega)]; congr 2; omega
  rw [hs _ rfl]
  simp only
  have hnl : ((c.inner.drop c.bytePos).take n).length = n := by
    simp only [List.length_take, List.length_drop]; omega
  refine ⟨_, rfl, ⟨rfl, rfl⟩, ?_, ?_, ?_, ?_, ?_, ?_⟩
  · simp only [hnl]; omega
  · simp only [hnl]; omega
  · simp only [hnl, hbl]; omega
  · simp only [tellBit, hnl]; omega
  · simp only
    rw [assemble_toNat _ 0 0 (by rw [hnl]; omega) (by simp)]
    simp only [BitVec.ofNat_eq_ofNat, BitVec.toNat_ofNat, Nat.zero_mod, Nat.mul_zero, Nat.pow_zero, Nat.one_mul, Nat.zero_add]
    congr 1
    simp only [rest, tellBit, bits, hnl, hbl, hin]
    rw [show (c.bytePos + n) * 8 - n * 8 = 8 * c.bytePos by omega, ← bitsOf_drop,
      Nat.mul_comm n 8, ← bitsOf_take]
    congr 1
    rw [List.drop_take, List.take_take]
    congr 1
    omega
  · intro h1 h2; simp only [hnl]; omega

theorem take_rest_add {c : Cursor} {a b : Nat} :
    c.rest.take (a + b) = c.rest.take a ++ (c.rest.drop a).take b := by
  rw [List.take_add]

/-- Drop `k` bits of the current block. -/
def consume (c : Cursor) (k : Nat) : Cursor :=
  { c with currentBlock := c.currentBlock >>> k, bitIndex := c.bitIndex - k }

theorem read_fast {c : Cursor} {n : Nat} (h1 : 1 ≤ n) (h2 : n ≤ 63) (hf : c.bitIndex ≥ n) :
    read n c = (.ok (c.currentBlock &&& (BitVec.allOnes 64 >>> (64 - n))), c.consume n) := by
  simp only [read]; rw [if_neg (by omega), if_pos hf]; rfl

/-- A read inside the buffer. -/
theorem read_ok {c : Cursor} (h : Inv c) {n : Nat} (h1 : 1 ≤ n) (h2 : n ≤ 63) (hn : n ≤ c.rest.length) :
    ∃ v c', read n c = (.ok v, c') ∧ SameBuf c c' ∧ Inv c' ∧
      v.toNat = natOfBits (c.rest.take n) ∧ c'.rest = c.rest.drop n ∧ c'.tellBit = c.tellBit + n ∧
      (c.byteLen % 4 = 0 → c.bytePos % 4 = 0 → c'.bytePos % 4 = 0) := by
  have hrl := rest_length h
  have hidx := h.idx_le
  have hpos := h.pos_le
  have hlt := h.idx_lt
  have hblk := h.block
  have hidx2 : c.bitIndex ≤ c.rest.length := by rw [hrl]; simp only [tellBit]; omega
  by_cases hfast : c.bitIndex ≥ n
  · -- fast path
    refine ⟨_, _, read_fast h1 h2 hfast, ⟨rfl, rfl⟩, ?_, ?_, ?_, ?_, ?_⟩
    · have htell : (c.consume n).rest = c.rest.drop n := by
        simp only [rest, tellBit, bits, List.drop_drop, consume]; congr 1; omega
      refine ⟨h.len_le, hpos, ?_, ?_, ?_⟩
      · simp only [consume]; omega
      · simp only [consume]; omega
      · rw [htell]
        simp only [consume, BitVec.toNat_ushiftRight, Nat.shiftRight_eq_div_pow, hblk]
        rw [← natOfBits_drop, List.drop_take]
    · rw [and_mask_toNat _ _ (by omega), hblk, ← natOfBits_take, List.take_take, Nat.min_eq_left hfast]
    · simp only [rest, tellBit, bits, List.drop_drop, consume]; congr 1; omega
    · simp only [tellBit, consume]; omega
    · exact fun _ h => h
  · have hp : c.tellBit < c.byteLen * 8 := by
      rw [hrl] at hn; omega
    obtain ⟨c₁, hl, hsb, hbi, hbp, hple, htl, hcb, hmod⟩ := load_spec h hp
    have hsb1 := hsb.1
    have hsb2 := hsb.2
    have hrest1 : c₁.rest = c.rest.drop c.bitIndex := by
      simp only [rest, hsb.bits, List.drop_drop, htl]; congr 1; simp only [tellBit]; omega
    have hleft : ¬ (n - c.bitIndex > c₁.bitIndex) := by
      rw [hbi]; rw [hrl] at hn; simp only [tellBit] at hn; omega
    have hr : read n c = (.ok ((if c.bitIndex > 0 then c.currentBlock else 0) |||
        ((c₁.currentBlock &&& (BitVec.allOnes 64 >>> (64 - (n - c.bitIndex)))) <<< (n - (n - c.bitIndex)))),
        c₁.consume (n - c.bitIndex)) := by
      simp only [read]
      rw [if_neg (by omega), if_neg hfast, hl]
      simp only [hleft, if_false, consume]
    have htell' : (c₁.consume (n - c.bitIndex)).tellBit = c.tellBit + n := by
      simp only [tellBit, consume] at htl ⊢; omega
    have hrest' : (c₁.consume (n - c.bitIndex)).rest = c.rest.drop n := by
      rw [rest, htell', rest, List.drop_drop]; congr 1
      simp only [bits, consume, hsb.1, hsb.2]
    refine ⟨_, _, hr, ⟨hsb1, hsb2⟩, ?_, ?_, hrest', htell', ?_⟩
    · refine ⟨by simp only [consume, hsb1, hsb2]; exact h.len_le, hple, ?_, ?_, ?_⟩
      · simp only [consume]; omega
      · simp only [consume]; omega
      · rw [hrest']
        simp only [consume, BitVec.toNat_ushiftRight, Nat.shiftRight_eq_div_pow, hcb, hrest1]
        rw [← natOfBits_drop, List.drop_take, List.drop_drop]
        congr 3; omega
    · rw [BitVec.toNat_or, BitVec.toNat_shiftLeft, and_mask_toNat _ _ (by omega), hcb, hrest1]
      have hp1 : (if c.bitIndex > 0 then c.currentBlock else 0 : U64).toNat
          = natOfBits (c.rest.take c.bitIndex) := by
        split
        · exact hblk
        · have : c.bitIndex = 0 := by omega
          simp [this, natOfBits]
      rw [hp1, show n - (n - c.bitIndex) = c.bitIndex by omega]
      have hlt1 : natOfBits (c.rest.take c.bitIndex) < 2 ^ c.bitIndex := by
        have := natOfBits_lt (c.rest.take c.bitIndex)
        rwa [List.length_take, Nat.min_eq_left hidx2] at this
      rw [← natOfBits_take, List.take_take, Nat.min_eq_left (by omega)]
      have hv : natOfBits (c.rest.take n) = natOfBits (c.rest.take c.bitIndex) +
          2 ^ c.bitIndex * natOfBits ((c.rest.drop c.bitIndex).take (n - c.bitIndex)) := by
        conv => lhs; rw [show n = c.bitIndex + (n - c.bitIndex) by omega, take_rest_add, natOfBits_append]
        rw [List.length_take, Nat.min_eq_left hidx2]
      rw [Nat.mod_eq_of_lt, or_shiftLeft_eq_add hlt1, hv]
      rw [Nat.shiftLeft_eq, Nat.mul_comm]
      have hlt2 := natOfBits_lt (c.rest.take n)
      have : 2 ^ (c.rest.take n).length ≤ 2 ^ 64 := Nat.pow_le_pow_right (by omega) (by simp; omega)
      omega
    · intro h1 h2; exact hmod h1 h2

/-- A read that does not fit, at the end of the buffer. -/
theorem read_eof {c : Cursor} (h : Inv c) {n : Nat} (h1 : 1 ≤ n) (h2 : n ≤ 63) (hn : c.rest = []) :
    read n c = (.err .eof, c) := by
  have hrl := rest_length h
  have hle := tellBit_le h
  have hpos := h.pos_le
  have hidx := h.idx_le
  have hzero : c.byteLen * 8 - c.tellBit = 0 := by rw [← hrl, hn]; rfl
  have hb : c.bitIndex = 0 := by simp only [tellBit] at *; omega
  simp only [read]
  rw [if_neg (by omega), if_neg (by omega)]
  have : loadCurrentBlock c = (.err .eof, c) := by
    simp only [loadCurrentBlock]
    rw [if_pos (by simp only [tellByte, tellBit] at *; omega)]
  rw [this]

/-- A read that does not fit, not at the end: the rest of the current block is dropped. -/
theorem read_short {c : Cursor} (h : Inv c) {n : Nat} (h2 : n ≤ 63) (hn : c.rest.length < n)
    (hne : c.rest ≠ []) :
    ∃ c', read n c = (.err .short, c') ∧ SameBuf c c' ∧ Inv c' ∧ c'.tellBit = c.tellBit + c.bitIndex ∧
      c'.bytePos = c'.byteLen ∧
      c'.rest = c.rest.drop c.bitIndex ∧ (c.byteLen % 4 = 0 → c.bytePos % 4 = 0 → c'.bytePos % 4 = 0) := by
  have hrl := rest_length h
  have hpos := h.pos_le
  have hidx := h.idx_le
  have hlt := h.idx_lt
  have hp : c.tellBit < c.byteLen * 8 := by
    have : c.rest.length ≠ 0 := by simpa using hne
    omega
  have hbi' : c.bitIndex < n := by rw [hrl] at hn; simp only [tellBit] at hn; omega
  obtain ⟨c₁, hl, hsb, hbi, hbp, hple, htl, hcb, hmod⟩ := load_spec h hp
  have hsb1 := hsb.1
  have hsb2 := hsb.2
  have hleft : (n - c.bitIndex > c₁.bitIndex) := by
    rw [hbi]; rw [hrl] at hn; simp only [tellBit] at hn; omega
  refine ⟨c₁, ?_, hsb, ⟨?_, hple, ?_, ?_, hcb⟩, ?_, ?_, ?_, hmod⟩
  · simp only [read]
    rw [if_neg (by omega), if_neg (by omega), hl]
    simp only [hleft, if_true]
  · rw [hsb1, hsb2]; exact h.len_le
  · omega
  · omega
  · rw [htl]; simp only [tellBit]; omega
  · rw [hrl] at hn; simp only [tellBit] at hn; omega
  · simp only [rest, hsb.bits, List.drop_drop, htl]; congr 1; simp only [tellBit]; omega

theorem read_invalid (c : Cursor) {n : Nat} (h : n = 0 ∨ n ≥ 64) : read n c = (.err .invalidReadSize, c) := by
  simp only [read]; rw [if_pos h]

/-- All cases of `read` at once. -/
theorem read_cases {c : Cursor} (h : Inv c) (n : Nat) :
    ((n = 0 ∨ n ≥ 64) ∧ read n c = (.err .invalidReadSize, c)) ∨
    (1 ≤ n ∧ n ≤ 63 ∧ n ≤ c.rest.length ∧ ∃ v c', read n c = (.ok v, c') ∧ SameBuf c c' ∧ Inv c' ∧
      v.toNat = natOfBits (c.rest.take n) ∧ c'.rest = c.rest.drop n ∧ c'.tellBit = c.tellBit + n ∧
      (c.byteLen % 4 = 0 → c.bytePos % 4 = 0 → c'.bytePos % 4 = 0)) ∨
    (1 ≤ n ∧ n ≤ 63 ∧ c.rest = [] ∧ read n c = (.err .eof, c)) ∨
    (1 ≤ n ∧ n ≤ 63 ∧ c.rest.length < n ∧ c.rest ≠ [] ∧ ∃ c', read n c = (.err .short, c') ∧ SameBuf c c' ∧
      Inv c' ∧ c'.tellBit = c.tellBit + c.bitIndex ∧ c'.bytePos = c'.byteLen ∧ c'.rest = c.rest.drop c.bitIndex ∧
      (c.byteLen % 4 = 0 → c.bytePos % 4 = 0 → c'.bytePos % 4 = 0)) := by
  by_cases hv : n = 0 ∨ n ≥ 64
  · exact .inl ⟨hv, read_invalid c hv⟩
  · have h1 : 1 ≤ n := by omega
    have h2 : n ≤ 63 := by omega
    by_cases hn : n ≤ c.rest.length
    · exact .inr (.inl ⟨h1, h2, hn, read_ok h h1 h2 hn⟩)
    · by_cases he : c.rest = []
      · exact .inr (.inr (.inl ⟨h1, h2, he, read_eof h h1 h2 he⟩))
      · exact .inr (.inr (.inr ⟨h1, h2, by omega, he, read_short h h2 (by omega) he⟩))

/-! ## clear, seeks -/

theorem inv_at {c : Cursor} (h : Inv c) {p : Nat} (hp : p ≤ c.byteLen) :
    Inv (c.atByte p) := by
  refine ⟨h.len_le, hp, ?_, ?_, ?_⟩ <;> simp [atByte, clearBlockState, natOfBits]

theorem tellBit_at (c : Cursor) (p : Nat) : (c.atByte p).tellBit = p * 8 := by
  simp [atByte, clearBlockState, tellBit]

theorem seekBit_ok {c : Cursor} (h : Inv c) {p : Nat} (hp : p ≤ c.byteLen * 8) :
    ∃ c', seekBit p c = (.ok (), c') ∧ SameBuf c c' ∧ Inv c' ∧ c'.tellBit = p ∧
      c'.rest = c.bits.drop p := by
  simp only [seekBit]
  rw [if_neg (by omega)]
  have hi := inv_at h (p := p / 8 / 8 * 8) (by omega)
  have ht := tellBit_at c (p / 8 / 8 * 8)
  by_cases h0 : p % 64 > 0
  · rw [if_pos h0]
    have hrl := rest_length hi
    have : (c.atByte (p / 8 / 8 * 8)).byteLen = c.byteLen := rfl
    rw [ht, this] at hrl
    obtain ⟨v, c', hr, hsb, hinv, -, hrest, htell, -⟩ := read_ok hi (n := p % 64) (by omega) (by omega) (by omega)
    rw [hr]
    refine ⟨c', rfl, ⟨hsb.1, hsb.2⟩, hinv, ?_, ?_⟩
    · rw [htell, ht]; omega
    · rw [hrest, rest, List.drop_drop, ht]
      show c.bits.drop _ = _
      congr 1; omega
  · rw [if_neg h0]
    refine ⟨_, rfl, ⟨rfl, rfl⟩, hi, ?_, ?_⟩
    · rw [ht]; omega
    · rw [rest, ht]; show c.bits.drop _ = _
      congr 1; omega

theorem seekBit_err {c : Cursor} (h : Inv c) {p : Nat} (hp : c.byteLen * 8 < p) :
    ∃ e c', seekBit p c = (.err e, c') ∧ (e = .eof ∨ e = .short) ∧ SameBuf c c' ∧ Inv c' := by
  simp only [seekBit]
  by_cases hb : p / 8 / 8 * 8 > c.byteLen
  · rw [if_pos hb]; exact ⟨_, _, rfl, .inl rfl, .rfl', h⟩
  · rw [if_neg hb, if_pos (by omega)]
    have hi := inv_at h (p := p / 8 / 8 * 8) (by omega)
    have hrl := rest_length hi
    have ht := tellBit_at c (p / 8 / 8 * 8)
    have hbl : (c.atByte (p / 8 / 8 * 8)).byteLen = c.byteLen := rfl
    rw [ht, hbl] at hrl
    rcases read_cases hi (p % 64) with ⟨hv, -⟩ | ⟨-, -, hn, -⟩ | ⟨-, -, he, hr⟩ | ⟨-, -, -, -, c', hr, hsb, hinv, -⟩
    · omega
    · omega
    · rw [hr]; exact ⟨_, _, rfl, .inl rfl, ⟨rfl, rfl⟩, hi⟩
    · rw [hr]; exact ⟨_, _, rfl, .inr rfl, ⟨hsb.1, hsb.2⟩, hinv⟩

/-! ## align32 -/

theorem align32_spec {c : Cursor} (h : Inv c) :
    SameBuf c c.align32 ∧ Inv c.align32 ∧ c.tellBit ≤ c.align32.tellBit ∧
      c.align32.tellBit < c.tellBit + 32 ∧ c.align32.bytePos = c.bytePos ∧
      c.align32.rest = c.rest.drop (c.align32.tellBit - c.tellBit) ∧
      ((c.bitIndex ≥ 32 ∧ c.align32.tellBit = c.bytePos * 8 - 32) ∨
       (c.bitIndex < 32 ∧ c.align32.tellBit = c.bytePos * 8)) := by
  have hidx := h.idx_le
  have hlt := h.idx_lt
  have hblk := h.block
  by_cases hb : c.bitIndex ≥ 32
  · have he : c.align32 = { c with currentBlock := c.currentBlock >>> (c.bitIndex - 32), bitIndex := 32 } := by
      simp only [align32]; rw [if_pos hb]
    have ht : c.align32.tellBit = c.bytePos * 8 - 32 := by rw [he]; rfl
    have hrest : c.align32.rest = c.rest.drop (c.bitIndex - 32) := by
      rw [rest, ht, rest, List.drop_drop, he]
      show c.bits.drop _ = _
      congr 1; simp only [tellBit]; omega
    refine ⟨by rw [he]; exact ⟨rfl, rfl⟩, ?_, ?_, ?_, by rw [he], ?_, .inl ⟨hb, ht⟩⟩
    · refine ⟨by rw [he]; exact h.len_le, by rw [he]; exact h.pos_le, by rw [he]; simp only; omega,
        by rw [he]; simp, ?_⟩
      rw [hrest, he]
      simp only [BitVec.toNat_ushiftRight, Nat.shiftRight_eq_div_pow, hblk]
      rw [← natOfBits_drop, List.drop_take]
      congr 2; omega
    · rw [ht]; simp only [tellBit]; omega
    · rw [ht]; simp only [tellBit]; omega
    · rw [hrest, ht]; congr 1; simp only [tellBit]; omega
  · have he : c.align32 = c.clearBlockState := by
      simp only [align32]; rw [if_neg hb]
    have ht : c.align32.tellBit = c.bytePos * 8 := by rw [he]; simp [tellBit, clearBlockState]
    refine ⟨by rw [he]; exact ⟨rfl, rfl⟩, ?_, ?_, ?_, by rw [he]; rfl, ?_, .inr ⟨by omega, ht⟩⟩
    · rw [he]; exact ⟨h.len_le, h.pos_le, by simp [clearBlockState], by simp [clearBlockState],
        by simp [clearBlockState, natOfBits]⟩
    · rw [ht]; simp only [tellBit]; omega
    · rw [ht]; simp only [tellBit]; omega
    · rw [rest, ht, rest, List.drop_drop, he]
      show c.bits.drop _ = _
      congr 1; simp only [tellBit]; omega

/-- Word-aligned cursors: `align32` is rounding up to a multiple of 32. -/
structure WInv (c : Cursor) : Prop extends Inv c where
  len4 : c.byteLen % 4 = 0
  pos4 : c.bytePos % 4 = 0

theorem align32_word {c : Cursor} (h : WInv c) :
    WInv c.align32 ∧ c.align32.tellBit = (c.tellBit + 31) / 32 * 32 := by
  obtain ⟨hsb, hinv, -, -, hbp, -, hc⟩ := align32_spec h.toInv
  refine ⟨⟨hinv, by rw [hsb.2]; exact h.len4, by rw [hbp]; exact h.pos4⟩, ?_⟩
  have := h.pos4
  have := h.idx_le
  have := h.idx_lt
  rcases hc with ⟨h1, h2⟩ | ⟨h1, h2⟩
  · rw [h2]; simp only [tellBit]; omega
  · rw [h2]; simp only [tellBit]; omega

theorem exhausted_iff {c : Cursor} (h : Inv c) : c.exhausted = true ↔ c.tellBit = c.byteLen * 8 := by
  have := h.pos_le
  have := h.idx_le
  simp only [exhausted, Bool.and_eq_true, beq_iff_eq, decide_eq_true_eq, tellBit]
  omega

theorem exhausted_iff_rest {c : Cursor} (h : Inv c) : c.exhausted = true ↔ c.rest = [] := by
  rw [exhausted_iff h, ← List.length_eq_zero_iff, rest_length h]
  have := tellBit_le h
  omega

end Verif.Cursor
