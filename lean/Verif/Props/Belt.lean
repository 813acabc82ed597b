import Verif.Cursor.BeltSpec
import Verif.Props.Tape

/-! C62 without exemptions: a cursor is a tape fetched in pieces, over whole histories of operations. -/

namespace Verif
open Spec Cursor

/-- The cursor stands on the tape. -/
structure BRep (t : Belt) (c : Cursor) : Prop where
  inv : Cursor.Inv c
  bits : t.bits = c.bits
  pos : t.pos = c.tellBit
  edge : t.edge = c.bytePos * 8

/-- The result is the same, and the cursor stands on the new tape. -/
def BRepOut {α : Type} (r : α × Belt) (s : α × Cursor) : Prop := s.1 = r.1 ∧ BRep r.2 s.2

theorem BRep.len {t : Belt} {c : Cursor} (h : BRep t c) : t.bits.length = c.byteLen * 8 := by rw [h.bits, bits_length h.inv]

theorem BRep.rest {t : Belt} {c : Cursor} (h : BRep t c) : t.bits.drop t.pos = c.rest := by rw [h.bits, h.pos]; rfl

/-- How far the bytes have been fetched after a read. -/
theorem read_ok_edge {c c' : Cursor} (h : Cursor.Inv c) {n : Nat} {v : U64} (hr : Cursor.read n c = (.ok v, c')) :
    c'.bytePos * 8 = if c.tellBit + n ≤ c.bytePos * 8 then c.bytePos * 8 else min (c.bytePos * 8 + 64) (c.byteLen * 8) := by
  have hidx := h.idx_le
  have hpos := h.pos_le
  have ht : c.tellBit + c.bitIndex = c.bytePos * 8 := by simp only [tellBit]; omega
  simp only [Cursor.read] at hr
  split at hr
  · simp at hr
  · split at hr
    · simp only [Prod.mk.injEq] at hr
      rw [← hr.2, if_pos (by omega)]
    · rw [if_neg (by omega)]
      by_cases he : c.tellBit < c.byteLen * 8
      · obtain ⟨c1, hl, hs, h1, h2, h3, -⟩ := load_spec h he
        rw [hl] at hr
        simp only at hr
        split at hr
        · simp at hr
        · simp only [Prod.mk.injEq] at hr
          rw [← hr.2]
          simp only
          omega
      · have : c.tellByte ≥ c.byteLen := by simp only [tellByte]; omega
        simp [loadCurrentBlock, this] at hr

theorem brep_read {t : Belt} {c : Cursor} (h : BRep t c) (n : Nat) : BRepOut (t.read n) (Cursor.read n c) := by
  have hl := h.len
  have hrl := rest_length h.inv
  have hle := tellBit_le h.inv
  have hp := h.pos
  have hidx := h.inv.idx_le
  unfold Belt.read
  rcases read_cases h.inv n with ⟨h1, hr⟩ | ⟨h1, h2, hn, v, c', hr, hs, hi, hv, -, ht, -⟩ | ⟨h1, h2, he, hr⟩ |
    ⟨h1, h2, hn, he, c', hr, hs, hi, ht, hb, -⟩
  · rw [if_pos h1, hr]
    exact ⟨rfl, h⟩
  · have hedge := read_ok_edge h.inv hr
    rw [if_neg (by omega), if_neg (by omega), if_neg (by omega), hr, h.rest, ← hv]
    refine ⟨by simp, hi, h.bits.trans hs.bits.symm, by rw [hp]; exact ht.symm, ?_⟩
    rw [hp, h.edge, hl]
    exact hedge.symm
  · rw [he] at hrl
    simp only [List.length_nil] at hrl
    rw [if_neg (by omega), if_pos (by omega), hr]
    exact ⟨rfl, h⟩
  · have : c.rest.length ≠ 0 := by simpa using he
    rw [if_neg (by omega), if_neg (by omega), if_pos (by omega), hr]
    refine ⟨rfl, hi, h.bits.trans hs.bits.symm, ?_, ?_⟩
    · show t.edge = _
      rw [h.edge, ht]
      simp only [tellBit]
      omega
    · show t.bits.length = _
      rw [hb, hl, hs.2]

theorem brep_readAs {t : Belt} {c : Cursor} (h : BRep t c) (ty : IntTy) (n : Nat) :
    BRepOut (t.readAs ty n) (Cursor.readAs ty n c) := by
  have hr := brep_read h n
  unfold Belt.readAs Cursor.readAs
  cases h1 : t.read n with
  | mk o t1 =>
    cases h2 : Cursor.read n c with
    | mk o' c1 =>
      rw [h1, h2] at hr
      obtain ⟨rfl, hr⟩ := hr
      cases o' with
      | ok v => by_cases hv : v.toNat ≤ ty.max <;> simp only [hv, if_true, if_false] <;> exact ⟨rfl, hr⟩
      | err e => exact ⟨rfl, hr⟩
      | panic p => exact ⟨rfl, hr⟩
      | diverge => exact ⟨rfl, hr⟩

theorem brep_readChunks {pf : Profile} {w : Nat} (h2 : 2 ≤ w) (h32 : w ≤ 32) (k : Nat) (acc : U64) (shift : Nat) {t : Belt}
    {c : Cursor} (h : BRep t c) : BRepOut (t.readChunks pf w k acc shift) (readVbrLoop pf w k acc shift c) := by
  induction k generalizing acc shift t c with
  | zero => exact ⟨rfl, h⟩
  | succ k ih =>
    have hr := brep_read h w
    have hlt : ∀ v c', Cursor.read w c = (.ok v, c') → v.toNat < 2 ^ w := by
      intro v c' hh
      rcases read_cases h.inv w with ⟨h1, hr'⟩ | ⟨-, -, hn, v', c1, hr', hs, hi, hv, -⟩ | ⟨-, -, he, hr'⟩ | ⟨-, -, hn, he, c1, hr', -⟩
      · rw [hr'] at hh; simp at hh
      · rw [hr'] at hh
        simp only [Prod.mk.injEq, Out.ok.injEq] at hh
        rw [← hh.1, hv]
        refine Nat.lt_of_lt_of_le (natOfBits_lt _) (Nat.pow_le_pow_right (by decide) ?_)
        simp only [List.length_take]; omega
      · rw [hr'] at hh; simp at hh
      · rw [hr'] at hh; simp at hh
    simp only [Belt.readChunks, readVbrLoop]
    cases h1 : t.read w with
    | mk o t1 =>
      cases hc2 : Cursor.read w c with
      | mk o' c1 =>
        rw [h1, hc2] at hr
        obtain ⟨rfl, hm⟩ := hr
        cases o' with
        | err e => exact ⟨rfl, hm⟩
        | panic p => exact ⟨rfl, hm⟩
        | diverge => exact ⟨rfl, hm⟩
        | ok v =>
          have hlt := hlt v c1 hc2
          have hd := chunk_data h2 h32 hlt
          have hc := chunk_cont h2 h32 hlt
          have hde : v &&& ~~~(1#64 <<< (w - 1)) = BitVec.ofNat 64 (v.toNat % 2 ^ (w - 1)) := by
            apply BitVec.eq_of_toNat_eq
            rw [hd, BitVec.toNat_ofNat, Nat.mod_eq_of_lt (b := 2 ^ 64)]
            exact Nat.lt_of_le_of_lt (Nat.mod_le _ _) v.isLt
          simp only [hde]
          have step : ∀ x : U64, x = BitVec.ofNat 64 (v.toNat % 2 ^ (w - 1)) <<< (shift % 64) →
              BRepOut (if 2 ^ (w - 1) ≤ v.toNat then
                  t1.readChunks pf w k (acc ||| BitVec.ofNat 64 (v.toNat % 2 ^ (w - 1)) <<< (shift % 64)) (shift + (w - 1))
                else (.ok (acc ||| BitVec.ofNat 64 (v.toNat % 2 ^ (w - 1)) <<< (shift % 64)), t1))
              (if v &&& 1#64 <<< (w - 1) ≠ 0 then readVbrLoop pf w k (acc ||| x) (shift + (w - 1)) c1 else (.ok (acc ||| x), c1)) := by
            rintro x rfl
            by_cases hcc : 2 ^ (w - 1) ≤ v.toNat
            · rw [if_pos hcc, if_pos (hc.2 hcc)]
              exact ih _ _ hm
            · rw [if_neg hcc, if_neg (fun hh => hcc (hc.1 hh))]
              exact ⟨rfl, hm⟩
          by_cases hsh : shift < 64
          · rw [if_neg (by omega)]
            simp only [shl64, if_pos hsh]
            exact step _ (by rw [Nat.mod_eq_of_lt hsh])
          · cases pf with
            | debug =>
              rw [if_pos ⟨rfl, by omega⟩]
              simp only [shl64, if_neg hsh]
              exact ⟨rfl, hm⟩
            | release =>
              rw [if_neg (by simp)]
              simp only [shl64, if_neg hsh]
              exact step _ rfl

theorem brep_readVbr (pf : Profile) (w : Nat) {t : Belt} {c : Cursor} (h : BRep t c) :
    BRepOut (t.readVbr pf w) (Cursor.readVbr pf w c) := by
  unfold Belt.readVbr Cursor.readVbr
  by_cases hw : 2 ≤ w ∧ w ≤ 32
  · rw [if_neg (by omega), if_neg (by simpa using hw), h.len]
    exact brep_readChunks hw.1 hw.2 _ _ _ h
  · rw [if_pos (by omega), if_pos hw]
    exact ⟨rfl, h⟩

theorem BRep.jump {t : Belt} {c : Cursor} (h : BRep t c) {p : Nat} (hp : p ≤ c.byteLen) : BRep (t.jump (p * 8)) (c.atByte p) :=
  ⟨inv_at h.inv hp, h.bits, (tellBit_at c p).symm, rfl⟩

theorem brep_seekBit (p : Nat) {t : Belt} {c : Cursor} (h : BRep t c) : BRepOut (t.seekBit p) (Cursor.seekBit p c) := by
  have hl := h.len
  simp only [Belt.seekBit, Cursor.seekBit]
  by_cases hb : p / 8 / 8 * 8 > c.byteLen
  · rw [if_pos hb, if_pos (by omega)]
    exact ⟨rfl, h⟩
  · rw [if_neg hb, if_neg (by omega)]
    have hj := h.jump (p := p / 8 / 8 * 8) (by omega)
    by_cases h0 : p % 64 = 0
    · rw [if_pos h0, if_neg (by omega), show p = p / 8 / 8 * 8 * 8 by omega]
      refine ⟨rfl, ?_⟩
      rw [show p / 8 / 8 * 8 * 8 / 8 / 8 * 8 = p / 8 / 8 * 8 by omega]
      exact hj
    · rw [if_neg h0, if_pos (by omega), show p / 64 * 64 = p / 8 / 8 * 8 * 8 by omega]
      have hr := brep_read hj (p % 64)
      cases h1 : (t.jump (p / 8 / 8 * 8 * 8)).read (p % 64) with
      | mk o t1 =>
        cases h2 : Cursor.read (p % 64) (c.atByte (p / 8 / 8 * 8)) with
        | mk o' c1 =>
          rw [h1, h2] at hr
          obtain ⟨rfl, hm⟩ := hr
          cases o' <;> exact ⟨rfl, hm⟩

theorem brep_seekTo {pf : Profile} {t : Belt} {c : Cursor} (h : BRep t c) {x : Int} {off : Nat}
    (hx : (0 ≤ x ∧ off = x.toNat) ∨ (x < 0 ∧ c.byteLen < off)) (hov : pf = .debug → x < 2 ^ 63) :
    BRepOut (t.seekByte pf x) (seekTo off c) := by
  have hl := h.len
  unfold Belt.seekByte
  rw [if_neg (by rintro ⟨h1, h2⟩; have := hov h1; omega)]
  rcases seekTo_spec h.inv off with ⟨ho, hs⟩ | ⟨ho, hs⟩
  · rw [if_pos (by omega), hs]
    refine ⟨by simp; omega, ?_⟩
    rw [show x.toNat = off by omega, Nat.mul_comm]
    exact h.jump ho
  · rw [if_neg (by omega), hs]
    exact ⟨rfl, h⟩

theorem brep_addI64 {pf : Profile} {t : Belt} {c : Cursor} (h : BRep t c) (hlen : c.inner.length < 2 ^ 63) {base : Nat}
    (hb : base ≤ c.byteLen) {q : Int} (h1 : -2 ^ 63 ≤ q) (h2 : q < 2 ^ 63) :
    BRepOut (t.seekByte pf (base + q)) (match addI64 pf base q with
      | none => (.panic .seekAdd, c)
      | some off => seekTo off c) := by
  have hl := h.len
  have hbl := h.inv.len_le
  have hoff : ∀ s : Int, (BitVec.ofInt 64 s).toNat = (s % 2^64).toNat := by
    intro s; simp [BitVec.toNat_ofInt]
  simp only [addI64, hoff]
  by_cases hs : -2 ^ 63 ≤ (base : Int) + q ∧ (base : Int) + q < 2 ^ 63
  · rw [if_pos hs]
    exact brep_seekTo h (by omega) (fun _ => hs.2)
  · rw [if_neg hs]
    cases pf with
    | debug =>
      refine ⟨?_, ?_⟩ <;> unfold Belt.seekByte <;> rw [if_pos ⟨rfl, by omega⟩]
      exact h
    | release => exact brep_seekTo h (by omega) (by simp)

theorem brep_seek {pf : Profile} {t : Belt} {c : Cursor} (h : BRep t c) (hlen : c.inner.length < 2 ^ 63) {p : SeekFrom}
    (hv : Op.Valid (.seek p)) : BRepOut (t.seek pf p) (Cursor.seek pf p c) := by
  have hl := h.len
  have hle := tellBit_le h.inv
  cases p with
  | start q => exact brep_seekTo h (.inl ⟨by omega, by simp⟩) (by simp)
  | fromEnd q =>
    simp only [Belt.seek, Cursor.seek]
    by_cases hq : 0 ≤ q
    · rw [if_pos hq, if_pos hq]
      exact ⟨rfl, h⟩
    · rw [if_neg hq, if_neg (show ¬ q ≥ 0 from hq), show t.bits.length / 8 = c.byteLen by omega]
      exact brep_addI64 h hlen (Nat.le_refl _) hv.1 hv.2
  | current q =>
    simp only [Belt.seek, Cursor.seek]
    rw [h.pos]
    exact brep_addI64 h hlen (base := c.tellByte) (by simp only [tellByte]; omega) hv.1 hv.2

theorem brep_align32 {t : Belt} {c : Cursor} (h : BRep t c) : BRep t.align32 c.align32 := by
  obtain ⟨hs, hi, -, -, hb, -, hc⟩ := align32_spec h.inv
  have hidx := h.inv.idx_le
  refine ⟨hi, h.bits.trans hs.bits.symm, ?_, by rw [hb]; exact h.edge⟩
  simp only [Belt.align32]
  have hp : t.pos = c.bytePos * 8 - c.bitIndex := h.pos
  have he := h.edge
  rcases hc with ⟨h1, h2⟩ | ⟨h1, h2⟩
  · rw [if_pos (by omega), h2, he]
  · rw [if_neg (by omega), h2, he]

theorem brep_apply {pf : Profile} {t : Belt} {c : Cursor} (h : BRep t c) (hlen : c.inner.length < 2 ^ 63) {op : Op} (hv : op.Valid) :
    BRepOut (t.apply pf op) (Cursor.apply pf op c) := by
  have lift : ∀ {α : Type} {r : α × Belt} {s : α × Cursor} (f : α → Obs), BRepOut r s → BRepOut (f r.1, r.2) (f s.1, s.2) :=
    fun f hh => ⟨by rw [hh.1], hh.2⟩
  cases op with
  | read n => exact lift .word (brep_read h n)
  | readAs ty n => exact lift .word (brep_readAs h ty n)
  | readExact ty => exact lift .word (brep_readAs h ty ty.bitsize)
  | readVbr w => exact lift .word (brep_readVbr pf w h)
  | readSvbr w =>
    have hr := brep_readVbr pf w h
    simp only [Cursor.apply, Belt.apply, readSvbr_of_readVbr]
    exact ⟨by rw [hr.1], hr.2⟩
  | seekBit p => exact lift .unit (brep_seekBit p h)
  | seek p => exact lift .seek (brep_seek h hlen hv)
  | align32 => exact ⟨rfl, brep_align32 h⟩

theorem brep_view {t : Belt} {c : Cursor} (h : BRep t c) :
    (c.tellBit, c.tellByte, c.byteLen, c.exhausted) =
      (t.pos, t.pos / 8, t.bits.length / 8, decide (t.pos = t.bits.length)) := by
  have hl := h.len
  rw [h.pos, hl, tellByte, Nat.mul_div_cancel _ (by decide)]
  have : c.exhausted = decide (c.tellBit = c.byteLen * 8) := by
    rw [Bool.eq_iff_iff, exhausted_iff h.inv]; simp
  rw [this]

theorem brep_trace {pf : Profile} {ops : List Op} (hv : ∀ op ∈ ops, op.Valid) {t : Belt} {c : Cursor} (h : BRep t c)
    (hlen : c.inner.length < 2 ^ 63) : Cursor.trace pf ops c = t.trace pf ops := by
  induction ops generalizing t c with
  | nil => rfl
  | cons op ops ih =>
    have hr := brep_apply (pf := pf) h hlen (hv op (by simp))
    have hb := (inv_apply pf op h.inv).2.1
    simp only [Belt.trace, Cursor.trace]
    rw [hr.1, brep_view hr.2, ih (fun op ho => hv op (by simp [ho])) hr.2 (by rw [hb]; exact hlen)]

/-- C62, without exemptions. Whatever is done with a cursor, in whatever order and whether it succeeds or fails, it shows exactly
what a tape of bits fetched in pieces shows: results, errors, panics and positions. -/
theorem C62_belt (pf : Profile) (buf : List U8) (hlen : buf.length < 2 ^ 63) (ops : List Op) (hv : ∀ op ∈ ops, op.Valid) :
    Cursor.trace pf ops (Cursor.new buf) = (Belt.start buf).trace pf ops := by
  refine brep_trace hv ⟨inv_new buf, ?_, ?_, ?_⟩ hlen
  · simp [Belt.start, Cursor.bits, Cursor.new]
  · simp [Belt.start, Cursor.new, tellBit]
  · simp [Belt.start, Cursor.new]

/-- The operations after which `C62_tape` says nothing: a read and a `seek_bit` of too much, and `align32` after a byte seek into
the middle of a word. -/
example : (Belt.start [1, 2, 3, 4, 5, 6, 7, 8, 9, 10]).trace .debug
    [.read 60, .read 21, .read 8, .seek (.start 1), .read 4, .align32, .seekBit 81, .read 1, .seekBit 200, .align32] =
    [(.word (.ok 0x807060504030201), 60, 7, 10, false), (.word (.err .short), 64, 8, 10, false), (.word (.ok 9), 72, 9, 10, false),
     (.seek (.ok 1), 8, 1, 10, false), (.word (.ok 2), 12, 1, 10, false), (.none, 40, 5, 10, false),
     (.unit (.err .short), 64, 8, 10, false), (.word (.ok 1), 65, 8, 10, false), (.unit (.err .eof), 65, 8, 10, false),
     (.none, 80, 10, 10, true)] ∧
    ∀ op ∈ ([.read 60, .read 21, .read 8, .seek (.start 1), .read 4, .align32, .seekBit 81, .read 1, .seekBit 200, .align32] : List Op),
      op.Valid := by
  refine ⟨by decide +kernel, ?_⟩
  intro op h
  simp only [List.mem_cons, List.not_mem_nil, or_false] at h
  rcases h with rfl | rfl | rfl | rfl | rfl | rfl | rfl | rfl | rfl | rfl <;> simp [Op.Valid]

end Verif
