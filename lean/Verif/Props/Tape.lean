import Verif.Cursor.TapeSpec
import Verif.Props.Cursor

/-! C62: a cursor is a tape of bits, over whole histories of operations. -/

namespace Verif
open Spec Cursor

/-- The cursor stands on the tape. -/
structure Rep (t : Tape) (c : Cursor) : Prop where
  inv : Cursor.Inv c
  bits : t.bits = c.bits
  pos : t.pos = c.tellBit
  word : t.word = true → c.byteLen % 4 = 0 ∧ c.bytePos % 4 = 0

/-- The result is the same, and the cursor stands on the new tape if there is one. -/
def RepOut {α : Type} (r : α × Option Tape) (s : α × Cursor) : Prop := s.1 = r.1 ∧ ∀ t', r.2 = some t' → Rep t' s.2

theorem Rep.len {t : Tape} {c : Cursor} (h : Rep t c) : t.bits.length = c.byteLen * 8 := by rw [h.bits, bits_length h.inv]

theorem Rep.rest {t : Tape} {c : Cursor} (h : Rep t c) : t.bits.drop t.pos = c.rest := by rw [h.bits, h.pos]; rfl

theorem Rep.move {t : Tape} {c c' : Cursor} (h : Rep t c) {p : Nat} (hs : SameBuf c c') (hi : Cursor.Inv c') (hp : c'.tellBit = p)
    (hw : c.byteLen % 4 = 0 → c.bytePos % 4 = 0 → c'.bytePos % 4 = 0) : Rep (t.at p) c' :=
  ⟨hi, h.bits.trans hs.bits.symm, hp.symm, fun hh => by
    obtain ⟨h1, h2⟩ := h.word hh
    exact ⟨by rw [hs.2]; exact h1, hw h1 h2⟩⟩

theorem rep_read {t : Tape} {c : Cursor} (h : Rep t c) (n : Nat) : RepOut (t.read n) (Cursor.read n c) := by
  have hl := h.len
  have hrl := rest_length h.inv
  have hle := tellBit_le h.inv
  have hp := h.pos
  unfold Tape.read
  rcases read_cases h.inv n with ⟨h1, hr⟩ | ⟨h1, h2, hn, v, c', hr, hs, hi, hv, -, ht, hw⟩ | ⟨h1, h2, he, hr⟩ |
    ⟨h1, h2, hn, he, c', hr, -⟩
  · rw [if_pos h1, hr]
    exact ⟨rfl, fun t' e => by cases e; exact h⟩
  · rw [if_neg (by omega), if_neg (by omega), if_neg (by omega), hr, h.rest, ← hv]
    refine ⟨by simp, fun t' e => ?_⟩
    cases e
    exact h.move hs hi (by rw [hp]; exact ht) hw
  · rw [he] at hrl
    simp only [List.length_nil] at hrl
    rw [if_neg (by omega), if_pos (by omega), hr]
    exact ⟨rfl, fun t' e => by cases e; exact h⟩
  · have : c.rest.length ≠ 0 := by simpa using he
    rw [if_neg (by omega), if_neg (by omega), if_pos (by omega), hr]
    exact ⟨rfl, fun t' e => by cases e⟩

theorem rep_readAs {t : Tape} {c : Cursor} (h : Rep t c) (ty : IntTy) (n : Nat) :
    RepOut (t.readAs ty n) (Cursor.readAs ty n c) := by
  have hr := rep_read h n
  unfold Tape.readAs Cursor.readAs
  cases h1 : t.read n with
  | mk o t1 =>
    cases h2 : Cursor.read n c with
    | mk o' c1 =>
      rw [h1, h2] at hr
      obtain ⟨rfl, hr⟩ := hr
      cases o' with
      | ok v => by_cases hv : v.toNat ≤ ty.max <;> simp only [hv, if_true, if_false] <;> exact ⟨rfl, hr⟩
      | err e => exact ⟨rfl, hr⟩
      | panic p => exact ⟨rfl, hr⟩
      | diverge => exact ⟨rfl, hr⟩

theorem rep_readChunks {pf : Profile} {w : Nat} (h2 : 2 ≤ w) (h32 : w ≤ 32) (k : Nat) (acc : U64) (shift : Nat) {t : Tape}
    {c : Cursor} (h : Rep t c) : RepOut (t.readChunks pf w k acc shift) (readVbrLoop pf w k acc shift c) := by
  induction k generalizing acc shift t c with
  | zero => exact ⟨rfl, fun t' e => by cases e; exact h⟩
  | succ k ih =>
    have hl := h.len
    have hrl := rest_length h.inv
    have hle := tellBit_le h.inv
    have hp := h.pos
    simp only [Tape.readChunks, readVbrLoop]
    rcases read_cases h.inv w with ⟨h1, hr⟩ | ⟨-, -, hn, v, c', hr, hs, hi, hv, -, ht, hw⟩ | ⟨-, -, he, hr⟩ |
      ⟨-, -, hn, he, c', hr, -⟩
    · omega
    · have hlt : v.toNat < 2 ^ w := by
        rw [hv]
        refine Nat.lt_of_lt_of_le (natOfBits_lt _) (Nat.pow_le_pow_right (by omega) ?_)
        simp; omega
      have hm : Rep (t.at (t.pos + w)) c' := h.move hs hi (by omega) hw
      rw [if_neg (by omega), if_neg (by omega), hr, h.rest, ← hv]
      have hd := chunk_data h2 h32 hlt
      have hc := chunk_cont h2 h32 hlt
      have hde : v &&& ~~~(1#64 <<< (w - 1)) = BitVec.ofNat 64 (v.toNat % 2 ^ (w - 1)) := by
        apply BitVec.eq_of_toNat_eq
        rw [hd, BitVec.toNat_ofNat, Nat.mod_eq_of_lt (b := 2 ^ 64)]
        exact Nat.lt_of_le_of_lt (Nat.mod_le _ _) v.isLt
      simp only [hde]
      have step : ∀ x : U64, x = BitVec.ofNat 64 (v.toNat % 2 ^ (w - 1)) <<< (shift % 64) →
          RepOut (if 2 ^ (w - 1) ≤ v.toNat then
              (t.at (t.pos + w)).readChunks pf w k (acc ||| BitVec.ofNat 64 (v.toNat % 2 ^ (w - 1)) <<< (shift % 64)) (shift + (w - 1))
            else (.ok (acc ||| BitVec.ofNat 64 (v.toNat % 2 ^ (w - 1)) <<< (shift % 64)), some (t.at (t.pos + w))))
          (if v &&& 1#64 <<< (w - 1) ≠ 0 then readVbrLoop pf w k (acc ||| x) (shift + (w - 1)) c' else (.ok (acc ||| x), c')) := by
        rintro x rfl
        by_cases hcc : 2 ^ (w - 1) ≤ v.toNat
        · rw [if_pos hcc, if_pos (hc.2 hcc)]
          exact ih _ _ hm
        · rw [if_neg hcc, if_neg (fun hh => hcc (hc.1 hh))]
          exact ⟨rfl, fun t' e => by cases e; exact hm⟩
      by_cases hsh : shift < 64
      · rw [if_neg (by omega)]
        simp only [shl64, if_pos hsh]
        exact step _ (by rw [Nat.mod_eq_of_lt hsh])
      · cases pf with
        | debug =>
          rw [if_pos ⟨rfl, by omega⟩]
          simp only [shl64, if_neg hsh]
          exact ⟨rfl, fun t' e => by cases e; exact hm⟩
        | release =>
          rw [if_neg (by simp)]
          simp only [shl64, if_neg hsh]
          exact step _ rfl
    · rw [he] at hrl
      simp only [List.length_nil] at hrl
      rw [if_pos (by omega), hr]
      exact ⟨rfl, fun t' e => by cases e; exact h⟩
    · have : c.rest.length ≠ 0 := by simpa using he
      rw [if_neg (by omega), if_pos (by omega), hr]
      exact ⟨rfl, fun t' e => by cases e⟩

theorem rep_readVbr (pf : Profile) (w : Nat) {t : Tape} {c : Cursor} (h : Rep t c) :
    RepOut (t.readVbr pf w) (Cursor.readVbr pf w c) := by
  unfold Tape.readVbr Cursor.readVbr
  by_cases hw : 2 ≤ w ∧ w ≤ 32
  · rw [if_neg (by omega), if_neg (by simpa using hw), h.len]
    exact rep_readChunks hw.1 hw.2 _ _ _ h
  · rw [if_pos (by omega), if_pos hw]
    exact ⟨rfl, fun t' e => by cases e; exact h⟩

theorem readSvbr_of_readVbr (pf : Profile) (w : Nat) (c : Cursor) :
    Cursor.readSvbr pf w c = (unsignedOut (Cursor.readVbr pf w c).1, (Cursor.readVbr pf w c).2) := by
  unfold Cursor.readSvbr
  cases Cursor.readVbr pf w c with
  | mk o c1 =>
    cases o with
    | ok v =>
      have hne : ¬ ((v >>> 1).toInt = -2^63) := by rw [toInt_ushiftRight_one]; omega
      have hsgn : ((v &&& 1) ≠ 0) ↔ v.toNat % 2 = 1 := by
        rw [ne_eq, ← BitVec.toNat_inj, BitVec.toNat_and]
        simp only [BitVec.ofNat_eq_ofNat, BitVec.toNat_ofNat]
        rw [show (1 % 2 ^ 64 : Nat) = 2 ^ 1 - 1 by decide, Nat.and_two_pow_sub_one_eq_mod]
        omega
      simp only [unsignedOut, unsigned]
      rw [toInt_ushiftRight_one] at hne ⊢
      by_cases hs : v.toNat % 2 = 1
      · rw [if_pos (hsgn.2 hs), if_neg hne, if_pos hs]
      · rw [if_neg (fun hh => hs (hsgn.1 hh)), if_neg hs]
    | err e => rfl
    | panic p => rfl
    | diverge => rfl

theorem rep_readSvbr (pf : Profile) (w : Nat) {t : Tape} {c : Cursor} (h : Rep t c) :
    RepOut (unsignedOut (t.readVbr pf w).1, (t.readVbr pf w).2) (Cursor.readSvbr pf w c) := by
  have hr := rep_readVbr pf w h
  rw [readSvbr_of_readVbr]
  exact ⟨by rw [hr.1], hr.2⟩

theorem rep_seekBit (p : Nat) {t : Tape} {c : Cursor} (h : Rep t c) : RepOut (t.seekBit p) (Cursor.seekBit p c) := by
  have hl := h.len
  unfold Tape.seekBit
  by_cases hp : p ≤ t.bits.length
  · rw [if_pos hp]
    obtain ⟨c', hr, hs, hi, ht, -⟩ := seekBit_ok h.inv (p := p) (by omega)
    have hw : c.byteLen % 4 = 0 → c'.bytePos % 4 = 0 := by
      intro h4
      simp only [Cursor.seekBit] at hr
      rw [if_neg (by omega)] at hr
      have hi' := inv_at h.inv (p := p / 8 / 8 * 8) (by omega)
      have e4 : (c.atByte (p / 8 / 8 * 8)).bytePos % 4 = 0 := by
        show (p / 8 / 8 * 8) % 4 = 0
        omega
      by_cases h64 : p % 64 > 0
      · rw [if_pos h64] at hr
        have hg := (good_read (p % 64) (fun _ => True) (c.atByte (p / 8 / 8 * 8)) hi').word h4 e4
        cases hrd : Cursor.read (p % 64) (c.atByte (p / 8 / 8 * 8)) with
        | mk o c1 =>
          rw [hrd] at hr hg
          cases o with
          | ok v => simp only [Prod.mk.injEq, true_and] at hr; rw [← hr]; exact hg
          | err e => simp at hr
          | panic p => simp at hr
          | diverge => simp at hr
      · rw [if_neg h64] at hr
        simp only [Prod.mk.injEq, true_and] at hr
        rw [← hr]; exact e4
    rw [hr]
    refine ⟨rfl, fun t' e => ?_⟩
    cases e
    refine ⟨hi, h.bits.trans hs.bits.symm, ht.symm, fun hh => ?_⟩
    have h32 : t.bits.length % 32 = 0 := by simpa using hh
    have h4 : c.byteLen % 4 = 0 := by omega
    exact ⟨by rw [hs.2]; exact h4, hw h4⟩
  · rw [if_neg hp]
    simp only [Cursor.seekBit]
    by_cases hb : p / 8 / 8 * 8 > c.byteLen
    · rw [if_pos hb, if_neg (by omega)]
      exact ⟨rfl, fun t' e => by cases e⟩
    · rw [if_neg hb, if_pos (show p % 64 > 0 by omega)]
      have hi := inv_at h.inv (p := p / 8 / 8 * 8) (by omega)
      have hrl := rest_length hi
      have ht := tellBit_at c (p / 8 / 8 * 8)
      have hbl : (c.atByte (p / 8 / 8 * 8)).byteLen = c.byteLen := rfl
      rw [ht, hbl] at hrl
      rcases read_cases hi (p % 64) with ⟨hv, -⟩ | ⟨-, -, hn, -⟩ | ⟨-, -, he, hr⟩ | ⟨-, -, hn, he, c', hr, -⟩
      · omega
      · omega
      · rw [he] at hrl
        simp only [List.length_nil] at hrl
        rw [hr, if_neg (by omega)]; exact ⟨rfl, fun t' e => by cases e⟩
      · have : (c.atByte (p / 8 / 8 * 8)).rest.length ≠ 0 := by simpa using he
        rw [hr, if_pos (by omega)]; exact ⟨rfl, fun t' e => by cases e⟩

theorem rep_seekTo {pf : Profile} {t : Tape} {c : Cursor} (h : Rep t c) (hlen : c.inner.length < 2 ^ 63) {x : Int} {off : Nat}
    (hx : (0 ≤ x ∧ off = x.toNat) ∨ (x < 0 ∧ c.byteLen < off)) (hov : pf = .debug → x < 2 ^ 63) :
    RepOut (t.seekByte pf x) (seekTo off c) := by
  have hl := h.len
  have hbl := h.inv.len_le
  unfold Tape.seekByte
  rw [if_neg (by rintro ⟨h1, h2⟩; have := hov h1; omega)]
  rcases seekTo_spec h.inv off with ⟨ho, hs⟩ | ⟨ho, hs⟩
  · rw [if_pos (by omega), hs]
    refine ⟨by simp; omega, fun t' e => ?_⟩
    cases e
    refine ⟨inv_at h.inv ho, h.bits, by rw [tellBit_at]; simp only; omega, fun hh => ?_⟩
    simp only [Bool.decide_and, Bool.and_eq_true, decide_eq_true_eq] at hh
    refine ⟨by show c.byteLen % 4 = 0; omega, ?_⟩
    show off % 4 = 0
    omega
  · rw [if_neg (by omega), hs]
    exact ⟨rfl, fun t' e => by cases e; exact h⟩

theorem rep_addI64 {pf : Profile} {t : Tape} {c : Cursor} (h : Rep t c) (hlen : c.inner.length < 2 ^ 63) {base : Nat}
    (hb : base ≤ c.byteLen) {q : Int} (h1 : -2 ^ 63 ≤ q) (h2 : q < 2 ^ 63) :
    RepOut (t.seekByte pf (base + q)) (match addI64 pf base q with
      | none => (.panic .seekAdd, c)
      | some off => seekTo off c) := by
  have hl := h.len
  have hbl := h.inv.len_le
  have hoff : ∀ s : Int, (BitVec.ofInt 64 s).toNat = (s % 2^64).toNat := by
    intro s; simp [BitVec.toNat_ofInt]
  simp only [addI64, hoff]
  by_cases hs : -2 ^ 63 ≤ (base : Int) + q ∧ (base : Int) + q < 2 ^ 63
  · rw [if_pos hs]
    exact rep_seekTo h hlen (by omega) (fun _ => hs.2)
  · rw [if_neg hs]
    cases pf with
    | debug =>
      unfold Tape.seekByte
      rw [if_pos ⟨rfl, by omega⟩]
      exact ⟨rfl, fun t' e => by cases e; exact h⟩
    | release =>
      have : ((base : Int) + q) % 2 ^ 64 = base + q := by omega
      rw [this]
      exact rep_seekTo h hlen (by omega) (by simp)

theorem rep_seek {pf : Profile} {t : Tape} {c : Cursor} (h : Rep t c) (hlen : c.inner.length < 2 ^ 63) {p : SeekFrom}
    (hv : Op.Valid (.seek p)) : RepOut (t.seek pf p) (Cursor.seek pf p c) := by
  have hl := h.len
  have hle := tellBit_le h.inv
  cases p with
  | start q => exact rep_seekTo h hlen (.inl ⟨by omega, by simp⟩) (by simp)
  | fromEnd q =>
    simp only [Tape.seek, Cursor.seek]
    by_cases hq : 0 ≤ q
    · rw [if_pos hq, if_pos hq]
      exact ⟨rfl, fun t' e => by cases e; exact h⟩
    · rw [if_neg hq, if_neg (show ¬ q ≥ 0 from hq), show t.bits.length / 8 = c.byteLen by omega]
      exact rep_addI64 h hlen (Nat.le_refl _) hv.1 hv.2
  | current q =>
    simp only [Tape.seek, Cursor.seek]
    rw [h.pos]
    exact rep_addI64 h hlen (base := c.tellByte) (by simp only [tellByte]; omega) hv.1 hv.2

theorem rep_apply {pf : Profile} {t : Tape} {c : Cursor} (h : Rep t c) (hlen : c.inner.length < 2 ^ 63) {op : Op} (hv : op.Valid) :
    RepOut (t.apply pf op) (Cursor.apply pf op c) := by
  have lift : ∀ {α : Type} {r : α × Option Tape} {s : α × Cursor} (f : α → Obs), RepOut r s → RepOut (f r.1, r.2) (f s.1, s.2) :=
    fun f hh => ⟨by rw [hh.1], hh.2⟩
  cases op with
  | read n => exact lift .word (rep_read h n)
  | readAs ty n => exact lift .word (rep_readAs h ty n)
  | readExact ty => exact lift .word (rep_readAs h ty ty.bitsize)
  | readVbr w => exact lift .word (rep_readVbr pf w h)
  | readSvbr w => exact lift .int (rep_readSvbr pf w h)
  | seekBit p => exact lift .unit (rep_seekBit p h)
  | seek p => exact lift .seek (rep_seek h hlen hv)
  | align32 =>
    refine ⟨rfl, fun t' e => ?_⟩
    simp only [Tape.apply] at e
    split at e
    · rename_i hw
      cases e
      obtain ⟨h4, h4'⟩ := h.word hw
      obtain ⟨w1, ht⟩ := align32_word ⟨h.inv, h4, h4'⟩
      obtain ⟨hs, hi, -⟩ := align32_spec h.inv
      exact h.move hs hi (by rw [h.pos]; exact ht) (fun _ _ => w1.pos4)
    · cases e

theorem rep_view {t : Tape} {c : Cursor} (h : Rep t c) : (c.tellBit, c.tellByte, c.byteLen, c.exhausted) = t.view := by
  have hl := h.len
  unfold Tape.view
  rw [h.pos, hl, tellByte, Nat.mul_div_cancel _ (by decide)]
  have : c.exhausted = decide (c.tellBit = c.byteLen * 8) := by
    rw [Bool.eq_iff_iff, exhausted_iff h.inv]; simp
  rw [this]

theorem rep_trace {pf : Profile} {ops : List Op} (hv : ∀ op ∈ ops, op.Valid) {t : Tape} {c : Cursor} (h : Rep t c)
    (hlen : c.inner.length < 2 ^ 63) : Agrees (t.trace pf ops) (Cursor.trace pf ops c) := by
  induction ops generalizing t c with
  | nil => trivial
  | cons op ops ih =>
    have hr := rep_apply (pf := pf) h hlen (hv op (by simp))
    have hb := (inv_apply pf op h.inv).2.1
    simp only [Tape.trace, Cursor.trace]
    cases ha : t.apply pf op with
    | mk o t1 =>
      rw [ha] at hr
      cases t1 with
      | none => exact hr.1.symm
      | some t1 =>
        have h' := hr.2 t1 rfl
        exact ⟨hr.1.symm, (rep_view h').symm, ih (fun op ho => hv op (by simp [ho])) h' (by rw [hb]; exact hlen)⟩

/-- C62. Whatever is done with a cursor, and in whatever order, it shows what a tape of bits shows: results, errors, panics and
positions. The tape does not know where the cursor stands after a read of more bits than are left, after a failed `seek_bit`,
and after `align32` where that is not exact (C03, C06); the claim goes up to there. -/
theorem C62_tape (pf : Profile) (buf : List U8) (hlen : buf.length < 2 ^ 63) (ops : List Op) (hv : ∀ op ∈ ops, op.Valid) :
    Agrees ((Tape.start buf).trace pf ops) (Cursor.trace pf ops (Cursor.new buf)) := by
  refine rep_trace hv ⟨inv_new buf, ?_, ?_, ?_⟩ hlen
  · simp [Tape.start, Cursor.bits, Cursor.new]
  · simp [Tape.start, Cursor.new, tellBit]
  · intro hw
    have : buf.length % 4 = 0 := by simpa [Tape.start] using hw
    exact ⟨this, rfl⟩

/-- C62. The history of a cursor does not matter: cursors over the same data at the same position, however they got there, show
the same from then on, up to the same point. -/
theorem C62_history {pf : Profile} {c d : Cursor} (hc : Reachable pf c) (hd : Reachable pf d)
    (hbuf : d.inner = c.inner ∧ d.byteLen = c.byteLen) (hpos : d.tellBit = c.tellBit) (hlen : c.inner.length < 2 ^ 63)
    (ops : List Op) (hv : ∀ op ∈ ops, op.Valid) :
    ∃ l, l = Tape.trace pf ops ⟨bitsOf (c.inner.take c.byteLen), c.tellBit, false⟩ ∧
      Agrees l (Cursor.trace pf ops c) ∧ Agrees l (Cursor.trace pf ops d) := by
  refine ⟨_, rfl, rep_trace hv ⟨hc.inv, rfl, rfl, by simp⟩ hlen, rep_trace hv ⟨hd.inv, ?_, hpos.symm, by simp⟩ (by rw [hbuf.1]; exact hlen)⟩
  simp only [Cursor.bits, hbuf.1, hbuf.2]

/-- A history of nine operations on 12 bytes, and what the tape says about it. -/
example : (Tape.start [0x71, 0, 0xFF, 1, 2, 3, 4, 5, 6, 7, 8, 9]).trace .debug
    [.read 3, .readVbr 6, .align32, .seek (.current (-2)), .readAs .u8 9, .seekBit 96, .read 1, .readSvbr 6, .seekBit 97] =
    [(.word (.ok 1), some (3, 0, 12, false)), (.word (.ok 14), some (9, 1, 12, false)), (.none, some (32, 4, 12, false)),
     (.seek (.ok 2), some (16, 2, 12, false)), (.word (.err .badCast), some (25, 3, 12, false)),
     (.unit (.ok ()), some (96, 12, 12, true)), (.word (.err .eof), some (96, 12, 12, true)),
     (.int (.err .eof), some (96, 12, 12, true)), (.unit (.err .short), none)] ∧
    ∀ op ∈ ([.read 3, .readVbr 6, .align32, .seek (.current (-2)), .readAs .u8 9, .seekBit 96, .read 1, .readSvbr 6, .seekBit 97] : List Op),
      op.Valid := by
  refine ⟨by decide +kernel, ?_⟩
  intro op h
  simp only [List.mem_cons, List.not_mem_nil, or_false] at h
  rcases h with rfl | rfl | rfl | rfl | rfl | rfl | rfl | rfl | rfl <;> simp [Op.Valid]

/-- Two cursors at bit 20 of the same buffer with different internal blocks: one read its way there, the other came by a byte
seek. -/
example : ∃ c d, Reachable .debug c ∧ Reachable .debug d ∧ d.inner = c.inner ∧ d.byteLen = c.byteLen ∧ d.tellBit = c.tellBit ∧
    c.tellBit = 20 ∧ d.bytePos ≠ c.bytePos :=
  ⟨(apply .debug (.read 20) (Cursor.new (List.replicate 12 0xA5))).2,
   (apply .debug (.read 12) (apply .debug (.seek (.start 1)) (Cursor.new (List.replicate 12 0xA5))).2).2,
   .step _ (.new _), .step _ (.step _ (.new _)), by decide, by decide, by decide, by decide, by decide⟩

end Verif
