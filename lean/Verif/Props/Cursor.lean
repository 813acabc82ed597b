import Verif.Cursor.History

/-!
# Properties C01–C13: the bit cursor

Every statement is about a `Reachable` cursor: any constructor followed by any sequence of public
operations, successful or not (`Verif/Cursor/History.lean`). The specification of bit strings is
`Verif/Cursor/Spec.lean`.
-/

set_option linter.unusedSimpArgs false

namespace Verif.Props
open Verif.Spec Verif.Cursor

/-! ## C01 -/

/-- C01. A read of `1..=63` bits that fits returns the number denoted by the next `n` bits of the visible
buffer, and advances the position by exactly `n`. -/
theorem C01_read_value {pf : Profile} {c : Cursor} (h : Reachable pf c) {n : Nat} (h1 : 1 ≤ n) (h2 : n ≤ 63)
    (hfit : c.tellBit + n ≤ c.bitLen) :
    ∃ v c', Cursor.read n c = (.ok v, c') ∧
      v.toNat = natOfBits (((bitsOf (c.inner.take c.byteLen)).drop c.tellBit).take n) ∧
      c'.tellBit = c.tellBit + n ∧ c'.inner = c.inner ∧ c'.byteLen = c.byteLen := by
  have hi := h.inv
  have hl := rest_length hi
  obtain ⟨v, c', hr, hsb, -, hv, -, ht, -⟩ := read_ok hi h1 h2 (by simp only [bitLen] at hfit; omega)
  exact ⟨v, c', hr, hv, ht, hsb.1, hsb.2⟩

/-- A cursor in the middle of a 10-byte buffer, 60 bits in, so that a read of 20 bits straddles two blocks. -/
def exCursor : Cursor :=
  (Cursor.apply .debug (.read 60) (Cursor.new [1, 2, 3, 4, 5, 6, 7, 0xA8, 0xC9, 10])).2

example : Reachable .debug exCursor ∧ exCursor.tellBit = 60 ∧ exCursor.tellBit + 20 ≤ exCursor.bitLen ∧
    (Cursor.read 20 exCursor).1 = .ok 0x0AC9A :=
  ⟨.step _ (.new _), by decide, by decide, by decide⟩

/-! ## C02 -/

/-- C02. Exactly when, and with which error, a read fails; and it never panics. -/
theorem C02_read_errors {pf : Profile} {c : Cursor} (h : Reachable pf c) (n : Nat) :
    ((Cursor.read n c).1 = .err .invalidReadSize ↔ n = 0 ∨ 64 ≤ n) ∧
    ((Cursor.read n c).1 = .err .eof ↔ 1 ≤ n ∧ n ≤ 63 ∧ c.tellBit = c.bitLen) ∧
    ((Cursor.read n c).1 = .err .short ↔
      1 ≤ n ∧ n ≤ 63 ∧ c.tellBit < c.bitLen ∧ c.bitLen < c.tellBit + n) ∧
    ((∃ v, (Cursor.read n c).1 = .ok v) ↔ 1 ≤ n ∧ n ≤ 63 ∧ c.tellBit + n ≤ c.bitLen) ∧
    (Cursor.read n c).1.Returns := by
  have hi := h.inv
  have hl := rest_length hi
  have hle := tellBit_le hi
  simp only [bitLen]
  rcases read_cases hi n with ⟨hv, hr⟩ | ⟨h1, h2, hn, v, c', hr, -⟩ | ⟨h1, h2, hn, hr⟩ |
    ⟨h1, h2, hn, hne, c', hr, -⟩
  · rw [hr]; simp [Out.Returns]; omega
  · rw [hr]; simp [Out.Returns]; omega
  · rw [hn] at hl; simp only [List.length_nil] at hl
    rw [hr]; simp [Out.Returns]; omega
  · have : c.rest.length ≠ 0 := by simpa using hne
    rw [hr]; simp [Out.Returns]; omega

example : Reachable .debug exCursor ∧ (Cursor.read 21 exCursor).1 = .err .short ∧
    (Cursor.read 64 exCursor).1 = .err .invalidReadSize ∧
    (Cursor.read 1 (Cursor.apply .debug (.read 20) exCursor).2).1 = .err .eof :=
  ⟨.step _ (.new _), by decide, by decide, by decide⟩

/-! ## C03 -/

/-- C03 is false: after 60 of 72 bits, asking for 13 bits fails with `Short` but moves the position to
64, so that the four bits in between can no longer be read without seeking. -/
theorem C03_failed_read_moves :
    ∃ (c : Cursor) (n : Nat), Reachable .release c ∧ Reachable .debug c ∧
      (Cursor.read n c).1 = .err .short ∧
      c.tellBit = 60 ∧ (Cursor.read n c).2.tellBit = 64 ∧
      (Cursor.read 4 c).1 = .ok 0xF ∧ (Cursor.read 4 (Cursor.read n c).2).1 = .ok 0 :=
  ⟨(Cursor.apply .debug (.read 60) (Cursor.new [0, 0, 0, 0, 0, 0, 0, 0xF0, 0])).2, 13,
    .step (.read 60) (.new _), .step (.read 60) (.new _), by decide, by decide, by decide, by decide, by decide⟩

/-- C03, the part that holds. A failed read never moves backwards or past the end; on `InvalidReadSize`
and `Eof` it changes nothing at all. What is missing from the full property: on `Short` the position can
move forward (see `C03_failed_read_moves`). -/
theorem C03_failed_read_partial {pf : Profile} {c : Cursor} (h : Reachable pf c) {n : Nat} {e : CErr} {c' : Cursor}
    (hr : Cursor.read n c = (.err e, c')) :
    (e ≠ .short → c' = c) ∧ c.tellBit ≤ c'.tellBit ∧ c'.tellBit ≤ c'.bitLen ∧ c'.bitLen = c.bitLen := by
  have hi := h.inv
  rcases read_cases hi n with ⟨hv, hr'⟩ | ⟨h1, h2, hn, v, c₁, hr', -⟩ | ⟨h1, h2, hn, hr'⟩ |
    ⟨h1, h2, hn, hne, c₁, hr', hsb, hi', ht, -⟩
  · rw [hr'] at hr; simp at hr; obtain ⟨rfl, rfl⟩ := hr
    exact ⟨fun _ => rfl, Nat.le_refl _, tellBit_le hi, rfl⟩
  · rw [hr'] at hr; simp at hr
  · rw [hr'] at hr; simp at hr; obtain ⟨rfl, rfl⟩ := hr
    exact ⟨fun _ => rfl, Nat.le_refl _, tellBit_le hi, rfl⟩
  · rw [hr'] at hr; simp at hr; obtain ⟨rfl, rfl⟩ := hr
    refine ⟨by simp, by omega, tellBit_le hi', by simp [bitLen, hsb.2]⟩

/-- How far a `Short` read moves, for cursors that have not used the byte-granular `Seek`: to the start of
the last 64-bit block of the buffer, or to the end if that block is already partly consumed. At the start of that block it depends
on whether it has been fetched; see `C62_belt` for the position after any history. -/
theorem C03_short_position {pf : Profile} {c : Cursor} (h : SeeklessReachable pf c) {n : Nat} {c' : Cursor}
    (hr : Cursor.read n c = (.err .short, c')) :
    (c'.tellBit = c.bitLen / 64 * 64 ∨ c'.tellBit = c.bitLen) ∧
    (c.bitLen / 64 * 64 < c.tellBit → c'.tellBit = c.bitLen) := by
  have hi := h.reachable.inv
  have hb := h.blocked
  have hl := rest_length hi
  have hidx := hi.idx_le
  have hpos := hi.pos_le
  rcases read_cases hi n with ⟨hv, hr'⟩ | ⟨h1, h2, hn, v, c₁, hr', -⟩ | ⟨h1, h2, hn, hr'⟩ |
    ⟨h1, h2, hn, hne, c₁, hr', hsb, hi', ht, -⟩
  · rw [hr'] at hr; simp at hr
  · rw [hr'] at hr; simp at hr
  · rw [hr'] at hr; simp at hr
  · rw [hr'] at hr; simp at hr; subst hr
    rw [hl] at hn
    simp only [Blocked, tellBit, bitLen] at *
    omega

example : ∃ c', SeeklessReachable .debug exCursor ∧ Cursor.read 21 exCursor = (.err .short, c') ∧
    c'.tellBit = 64 := ⟨(Cursor.read 21 exCursor).2, .step _ (by simp) (.new _), by decide, by decide⟩

/-! ## C04 -/

/-- C04. `seek_bit(p)` succeeds iff `p` is at most the bit length; it then puts the position at `p`. -/
theorem C04_seekBit_iff {pf : Profile} {c : Cursor} (h : Reachable pf c) (p : Nat) :
    ((Cursor.seekBit p c).1 = .ok () ↔ p ≤ c.bitLen) ∧
    (p ≤ c.bitLen → (Cursor.seekBit p c).2.tellBit = p ∧ (Cursor.seekBit p c).2.inner = c.inner ∧
      (Cursor.seekBit p c).2.byteLen = c.byteLen) ∧
    (c.bitLen < p → (Cursor.seekBit p c).1 = .err .eof ∨ (Cursor.seekBit p c).1 = .err .short) := by
  have hi := h.inv
  simp only [bitLen]
  rcases Nat.lt_or_ge (c.byteLen * 8) p with hp | hp
  · obtain ⟨e, c', hr, he, -, -⟩ := seekBit_err hi hp
    rw [hr]; refine ⟨by simp; omega, by omega, fun _ => ?_⟩
    rcases he with rfl | rfl <;> simp
  · obtain ⟨c', hr, hsb, hi', ht, -⟩ := seekBit_ok hi hp
    rw [hr]; exact ⟨by simp; omega, fun _ => ⟨ht, hsb.1, hsb.2⟩, by omega⟩

/-- C04, failed seeks: the error is `Short` if there are bits after the last multiple of 64 at or before the target, and `Eof`
otherwise. The cursor has then moved to that multiple of 64, unless that is itself behind the end. -/
theorem C04_seekBit_fails {pf : Profile} {c : Cursor} (h : Reachable pf c) {p : Nat} (hp : c.bitLen < p) :
    (Cursor.seekBit p c).1 = (if p / 64 * 64 < c.bitLen then .err .short else .err .eof) ∧
    (Cursor.seekBit p c).2.tellBit = (if p / 64 * 64 ≤ c.bitLen then p / 64 * 64 else c.tellBit) := by
  have hi := h.inv
  have hlen : c.bitLen = c.byteLen * 8 := rfl
  simp only [Cursor.seekBit]
  by_cases hb : p / 8 / 8 * 8 > c.byteLen
  · rw [if_pos hb, if_neg (by omega), if_neg (by omega)]; exact ⟨rfl, rfl⟩
  · have hi' := inv_at hi (p := p / 8 / 8 * 8) (by omega)
    have hrl := rest_length hi'
    have ht := tellBit_at c (p / 8 / 8 * 8)
    have hbl : (c.atByte (p / 8 / 8 * 8)).byteLen = c.byteLen := rfl
    have hbi : (c.atByte (p / 8 / 8 * 8)).bitIndex = 0 := rfl
    rw [ht, hbl] at hrl
    rw [if_neg hb, if_pos (show p % 64 > 0 by omega), if_pos (show p / 64 * 64 ≤ c.bitLen by omega)]
    rcases read_cases hi' (p % 64) with ⟨hv, -⟩ | ⟨-, -, hn, -⟩ | ⟨-, -, he, hr⟩ | ⟨-, -, -, he, c', hr, -, -, ht', -⟩
    · omega
    · omega
    · rw [he] at hrl
      simp only [List.length_nil] at hrl
      rw [hr, if_neg (by omega)]
      exact ⟨rfl, by simp only; omega⟩
    · have : (c.atByte (p / 8 / 8 * 8)).rest.length ≠ 0 := by simpa using he
      rw [hr, if_pos (by omega)]
      exact ⟨rfl, by simp only; omega⟩

example : Reachable .debug exCursor ∧ exCursor.bitLen < 81 ∧ (Cursor.seekBit 81 exCursor).2.tellBit = 64 ∧
    (Cursor.seekBit 200 exCursor).2.tellBit = 60 ∧
    (Cursor.seekBit 65 (Cursor.new [1, 2, 3, 4, 5, 6, 7, 8])).1 = .err .eof ∧
    (Cursor.seekBit 65 (Cursor.new [1, 2, 3, 4, 5, 6, 7, 8])).2.tellBit = 64 :=
  ⟨.step _ (.new _), by decide, by decide, by decide, by decide, by decide⟩

/-- C04, history independence: after a successful `seek_bit` nothing of the earlier history remains — the
whole cursor state, hence everything observable later, is the same as for a fresh cursor over the buffer. -/
theorem C04_seekBit_forgets {c d : Cursor} (hbuf : c.inner = d.inner ∧ c.byteLen = d.byteLen) {p : Nat}
    (hp : p ≤ c.bitLen) : Cursor.seekBit p c = Cursor.seekBit p d := by
  simp only [bitLen] at hp
  have h1 : ¬ (p / 8 / 8 * 8 > c.byteLen) := by omega
  have h2 : c.atByte (p / 8 / 8 * 8) = d.atByte (p / 8 / 8 * 8) := by
    simp [Cursor.atByte, Cursor.clearBlockState, hbuf.1, hbuf.2]
  simp only [Cursor.seekBit, h2, ← hbuf.2, if_neg h1]

/-- C04 with C01: what is read after `seek_bit(p)` is the bits at `p`. -/
theorem C04_seekBit_then_read {pf : Profile} {c : Cursor} (h : Reachable pf c) {p n : Nat} (h1 : 1 ≤ n) (h2 : n ≤ 63)
    (hp : p + n ≤ c.bitLen) :
    ∃ v, (Cursor.read n (Cursor.seekBit p c).2).1 = .ok v ∧
      v.toNat = natOfBits (((bitsOf (c.inner.take c.byteLen)).drop p).take n) := by
  have hr : Reachable pf (Cursor.seekBit p c).2 := .step (.seekBit p) h
  obtain ⟨-, hs, -⟩ := C04_seekBit_iff h p
  obtain ⟨ht, hin, hbl⟩ := hs (by omega)
  obtain ⟨v, c', he, hv, -⟩ := C01_read_value hr h1 h2 (by simp only [bitLen] at *; rw [ht, hbl]; omega)
  refine ⟨v, by rw [he], ?_⟩
  rw [hv, ht, hin, hbl]

example : Reachable .debug exCursor ∧ 75 ≤ exCursor.bitLen ∧ (Cursor.seekBit 75 exCursor).2.tellBit = 75 ∧
    (Cursor.seekBit 81 exCursor).1 = .err .short ∧ (Cursor.seekBit 200 exCursor).1 = .err .eof :=
  ⟨.step _ (.new _), by decide, by decide, by decide, by decide⟩

/-! ## C05 -/

/-- The byte a `SeekFrom` asks for. -/
def seekTarget (c : Cursor) : SeekFrom → Int
  | .start p => p.toNat
  | .fromEnd p => c.byteLen + p
  | .current p => c.tellByte + p

/-- The argument is an `i64`. -/
def SeekArgOk : SeekFrom → Prop
  | .start _ => True
  | .fromEnd p => -2^63 ≤ p ∧ p < 2^63
  | .current p => -2^63 ≤ p ∧ p < 2^63

/-- The documentation excludes seeking at or past the end relative to it. -/
def SeekSupported : SeekFrom → Prop
  | .fromEnd p => p < 0
  | _ => True

/-- The part of C05 that holds, in both profiles: on a buffer that can exist (`< 2^63` bytes), `seek` goes to
the target iff it lies in the buffer (and is not `End` with a non-negative offset), reports it, and otherwise
fails without changing the cursor. In debug builds this needs the sum not to overflow `i64`; that is what is
missing from the full property (see `C05_seek_panics`). -/
theorem C05_seek_exact_partial {pf : Profile} {c : Cursor} (h : Reachable pf c) (hlen : c.inner.length < 2^63)
    {p : SeekFrom} (hp : SeekArgOk p) (hov : pf = .release ∨ seekTarget c p < 2^63 ∨ ∃ q, p = .start q) :
    (0 ≤ seekTarget c p ∧ seekTarget c p ≤ c.byteLen ∧ SeekSupported p →
      ∃ c', Cursor.seek pf p c = (.ok (seekTarget c p).toNat, c') ∧ c'.tellByte = seekTarget c p ∧
        c'.tellBit = 8 * c'.tellByte ∧ c'.inner = c.inner ∧ c'.byteLen = c.byteLen) ∧
    (¬ (0 ≤ seekTarget c p ∧ seekTarget c p ≤ c.byteLen ∧ SeekSupported p) →
      ∃ e, Cursor.seek pf p c = (.err e, c)) := by
  have hi := h.inv
  have hbl := hi.len_le
  have htb : c.tellByte ≤ c.byteLen := by have := tellBit_le hi; simp only [tellByte]; omega
  -- the final step, for an offset
  have key : ∀ off : Nat, (off ≤ c.byteLen → ∃ c', seekTo off c = (.ok off, c') ∧ c'.tellByte = off ∧
      c'.tellBit = 8 * c'.tellByte ∧ c'.inner = c.inner ∧ c'.byteLen = c.byteLen) ∧
      (c.byteLen < off → seekTo off c = (.err .invalidInput, c)) := by
    intro off
    refine ⟨fun ho => ?_, fun ho => ?_⟩
    · rcases seekTo_spec hi off with ⟨_, hs⟩ | ⟨hc, _⟩
      · refine ⟨_, hs, ?_, ?_, rfl, rfl⟩ <;> simp [Cursor.atByte, tellByte, tellBit, clearBlockState]; omega
      · omega
    · rcases seekTo_spec hi off with ⟨hc, _⟩ | ⟨_, hs⟩
      · omega
      · exact hs
  have radd : ∀ (base : Nat) (q : Int), base ≤ c.byteLen → -2^63 ≤ q → q < 2^63 →
      (pf = .release ∨ (base : Int) + q < 2^63) →
      ∃ off, addI64 pf base q = some off ∧
        ((0 ≤ (base : Int) + q ∧ (base : Int) + q < 2^63 ∧ off = ((base : Int) + q).toNat) ∨
         (((base : Int) + q < 0 ∨ 2^63 ≤ (base : Int) + q) ∧ c.byteLen < off)) := by
    intro base q hb h1 h2 h3
    have hoff : ∀ s : Int, (BitVec.ofInt 64 s).toNat = (s % 2^64).toNat := by
      intro s; simp [BitVec.toNat_ofInt]
    refine ⟨((base : Int) + q) % 2^64 |>.toNat, ?_, ?_⟩
    · simp only [addI64, hoff]
      split
      · rfl
      · rcases h3 with rfl | h3
        · rfl
        · omega
    · omega
  cases p with
  | start q =>
    simp only [seekTarget, Cursor.seek, SeekSupported, and_true]
    refine ⟨fun hc => ?_, fun hc => ?_⟩
    · obtain ⟨c', h1, h2, h3, h4, h5⟩ := (key q.toNat).1 (by omega)
      exact ⟨c', by simpa using h1, by rw [h2], h3, h4, h5⟩
    · exact ⟨_, (key q.toNat).2 (by omega)⟩
  | fromEnd q =>
    simp only [seekTarget, Cursor.seek, SeekArgOk, SeekSupported] at *
    by_cases hq : q ≥ 0
    · rw [if_pos hq]
      exact ⟨fun hc => by omega, fun _ => ⟨_, rfl⟩⟩
    · rw [if_neg hq]
      obtain ⟨off, ha, hcases⟩ := radd c.byteLen q (Nat.le_refl _) hp.1 hp.2 (by right; omega)
      rw [ha]; simp only
      rcases hcases with ⟨h0, h1, rfl⟩ | ⟨h0, h1⟩
      · refine ⟨fun _ => ?_, fun hc => by omega⟩
        obtain ⟨c', g1, g2, g3, g4, g5⟩ := (key ((c.byteLen : Int) + q).toNat).1 (by omega)
        exact ⟨c', g1, by rw [g2]; omega, g3, g4, g5⟩
      · exact ⟨fun hc => by omega, fun _ => ⟨_, (key off).2 h1⟩⟩
  | current q =>
    simp only [seekTarget, Cursor.seek, SeekArgOk, SeekSupported, and_true] at *
    obtain ⟨off, ha, hcases⟩ := radd c.tellByte q htb hp.1 hp.2 (by
      rcases hov with h | h | ⟨q', h⟩
      · exact .inl h
      · exact .inr h
      · simp at h)
    rw [ha]; simp only
    rcases hcases with ⟨h0, h1, rfl⟩ | ⟨h0, h1⟩
    · refine ⟨fun hc => ?_, fun hc => ⟨_, (key _).2 (by omega)⟩⟩
      obtain ⟨c', g1, g2, g3, g4, g5⟩ := (key ((c.tellByte : Int) + q).toNat).1 (by omega)
      exact ⟨c', g1, by rw [g2]; omega, g3, g4, g5⟩
    · exact ⟨fun hc => by omega, fun _ => ⟨_, (key off).2 h1⟩⟩

example : Reachable .debug exCursor ∧ exCursor.tellByte = 7 ∧
    (Cursor.seek .debug (.current (-3)) exCursor).1 = .ok 4 ∧
    (Cursor.seek .debug (.fromEnd (-11)) exCursor).1 = .err .invalidInput ∧
    (Cursor.seek .debug (.current (-8)) exCursor).1 = .err .invalidInput ∧
    (Cursor.seek .debug (.fromEnd 0) exCursor).1 = .err .unsupported ∧
    (Cursor.seek .debug (.start 10) exCursor).1 = .ok 10 :=
  ⟨.step _ (.new _), by decide, by decide, by decide, by decide, by decide, by decide⟩

/-- C05 is false in debug builds: a relative seek by `i64::MAX` from any position but 0 panics (the sum
overflows) instead of returning an error. -/
theorem C05_seek_panics :
    ∃ c, Reachable .debug c ∧ SeekArgOk (.current (2^63 - 1)) ∧
      (Cursor.seek .debug (.current (2^63 - 1)) c).1 = .panic .seekAdd :=
  ⟨(Cursor.apply .debug (.read 8) (Cursor.new [1, 2])).2, .step _ (.new _), by simp [SeekArgOk], by decide⟩

/-- C05, what is missing in debug builds: a seek panics exactly if it is one relative to the position whose sum is too large for
`i64`; and that, too, does not change the cursor. With `C05_seek_exact_partial` this determines every seek. -/
theorem C05_panics_iff {pf : Profile} {c : Cursor} (h : Reachable pf c) (hlen : c.inner.length < 2^63) {p : SeekFrom}
    (hp : SeekArgOk p) :
    ((∃ s, (Cursor.seek pf p c).1 = .panic s) ↔ pf = .debug ∧ (∃ q, p = .current q) ∧ 2^63 ≤ seekTarget c p) ∧
    ∀ s, (Cursor.seek pf p c).1 = .panic s → (Cursor.seek pf p c).2 = c := by
  have hi := h.inv
  have hbl := hi.len_le
  have htb : c.tellByte ≤ c.byteLen := by have := tellBit_le hi; simp only [tellByte]; omega
  by_cases hov : pf = .release ∨ seekTarget c p < 2^63 ∨ ∃ q, p = .start q
  · obtain ⟨h1, h2⟩ := C05_seek_exact_partial h hlen hp hov
    have hno : ∀ s, (Cursor.seek pf p c).1 ≠ .panic s := by
      intro s hs
      by_cases ht : 0 ≤ seekTarget c p ∧ seekTarget c p ≤ c.byteLen ∧ SeekSupported p
      · obtain ⟨c', e, -⟩ := h1 ht; rw [e] at hs; cases hs
      · obtain ⟨e, he⟩ := h2 ht; rw [he] at hs; cases hs
    refine ⟨⟨fun ⟨s, hs⟩ => absurd hs (hno s), ?_⟩, fun s hs => absurd hs (hno s)⟩
    rintro ⟨rfl, ⟨q, rfl⟩, ht⟩
    rcases hov with hov | hov | ⟨r, hr⟩
    · cases hov
    · omega
    · cases hr
  · have hpf : pf = .debug := by cases pf with
      | debug => rfl
      | release => exact absurd (.inl rfl) hov
    subst hpf
    have ht : 2^63 ≤ seekTarget c p := by
      refine Classical.byContradiction fun ht => hov (.inr (.inl (by omega)))
    cases p with
    | start q => exact absurd (.inr (.inr ⟨q, rfl⟩)) hov
    | fromEnd q =>
      have hq : q ≥ 0 := by simp only [seekTarget] at ht; omega
      have e : Cursor.seek .debug (.fromEnd q) c = (.err .unsupported, c) := by simp [Cursor.seek, hq]
      rw [e]
      exact ⟨⟨fun ⟨s, hs⟩ => (by cases hs), fun ⟨_, ⟨r, hr⟩, _⟩ => (by cases hr)⟩, fun s hs => (by cases hs)⟩
    | current q =>
      have e : Cursor.seek .debug (.current q) c = (.panic .seekAdd, c) := by
        have hz : addI64 .debug c.tellByte q = none := by
          have : ¬ (-2^63 ≤ (c.tellByte : Int) + q ∧ (c.tellByte : Int) + q < 2^63) := by
            simp only [seekTarget] at ht
            omega
          simp only [addI64, if_neg this]
        simp [Cursor.seek, hz]
      rw [e]
      exact ⟨⟨fun _ => ⟨rfl, ⟨q, rfl⟩, ht⟩, fun _ => ⟨_, rfl⟩⟩, fun _ _ => rfl⟩

/-! ## C06 -/

/-- C06 for word-aligned histories (buffer length a multiple of 4, byte seeks only to multiples of 4):
`align32` moves to the least multiple of 32 at or after the position, and stays inside the buffer. This is
what is used by the bitstream parser. Missing from the full property: other buffers and seeks, where it is
false (`C06_align32_misaligns`). -/
theorem C06_align32_partial {pf : Profile} {c : Cursor} (h : WordReachable pf c) :
    c.align32.tellBit % 32 = 0 ∧ c.tellBit ≤ c.align32.tellBit ∧ c.align32.tellBit ≤ c.bitLen ∧
    (∀ q, q % 32 = 0 → c.tellBit ≤ q → c.align32.tellBit ≤ q) := by
  have hw := h.winv
  obtain ⟨hw', ht⟩ := align32_word hw
  have hle := tellBit_le hw.toInv
  have h4 := hw.len4
  simp only [bitLen]
  rw [ht]
  refine ⟨by omega, by omega, by omega, ?_⟩
  intro q hq hle'; omega

/-- What holds for every history: `align32` never moves back, never passes the end, and skips fewer than 32
bits. -/
theorem C06_align32_bounds {pf : Profile} {c : Cursor} (h : Reachable pf c) :
    c.tellBit ≤ c.align32.tellBit ∧ c.align32.tellBit < c.tellBit + 32 ∧ c.align32.tellBit ≤ c.bitLen := by
  obtain ⟨hsb, hi, h1, h2, -⟩ := align32_spec h.inv
  have := tellBit_le hi
  rw [hsb.2] at this
  exact ⟨h1, h2, this⟩

/-- C06 is false in general: with a 13-byte buffer, aligning at bit 65 goes to bit 72; and after a byte seek
to offset 1 in a 16-byte buffer, aligning at bit 9 goes to bit 40. -/
theorem C06_align32_misaligns :
    (∃ c, Reachable .release c ∧ c.byteLen = 13 ∧ c.tellBit = 65 ∧ c.align32.tellBit = 72) ∧
    (∃ c, Reachable .release c ∧ c.byteLen = 16 ∧ c.tellBit = 9 ∧ c.align32.tellBit = 40) :=
  ⟨⟨(apply .release (.read 33) (apply .release (.read 32) (Cursor.new (List.replicate 13 0))).2).2,
     .step _ (.step _ (.new _)), by decide, by decide, by decide⟩,
   ⟨(apply .release (.read 1) (apply .release (.seek (.start 1)) (Cursor.new (List.replicate 16 0))).2).2,
     .step _ (.step _ (.new _)), by decide, by decide, by decide⟩⟩

example : ∃ c, WordReachable .debug c ∧ c.tellBit = 69 ∧ c.align32.tellBit = 96 :=
  ⟨(apply .debug (.readVbr 6) (apply .debug (.read 63) (Cursor.new (List.replicate 12 0))).2).2,
    .step _ (by simp) (.step _ (by simp) (.new (by decide))), by decide, by decide⟩

/-! ## C07 -/

/-- C07. After any history the position is within bounds, the length is that of the constructor, and
`exhausted` means exactly "at the end". -/
theorem C07_bounds {pf : Profile} {c : Cursor} (h : Reachable pf c) :
    c.tellBit ≤ c.bitLen ∧ c.tellByte ≤ c.byteLen ∧ c.byteLen ≤ c.inner.length ∧
    (c.exhausted = true ↔ c.tellBit = c.bitLen) := by
  have hi := h.inv
  have := tellBit_le hi
  exact ⟨this, by simp only [tellByte]; omega, hi.len_le, exhausted_iff hi⟩

/-- C07, continued: no operation changes the buffer or its length. -/
theorem C07_buffer_fixed {pf : Profile} {c : Cursor} (h : Reachable pf c) (op : Op) :
    (apply pf op c).2.byteLen = c.byteLen ∧ (apply pf op c).2.inner = c.inner :=
  ⟨(inv_apply pf op h.inv).2.2, (inv_apply pf op h.inv).2.1⟩

example : ∃ c, Reachable .debug c ∧ c.exhausted = true ∧ c.bitLen = 16 :=
  ⟨(apply .debug (.read 60) (apply .debug (.read 5) (Cursor.new [1, 2])).2).2, .step _ (.step _ (.new _)),
    by decide, by decide⟩

/-! ## C08 -/

/-- C08. A length-limited cursor shows exactly what an unlimited cursor over the prefix shows, for every
sequence of operations (results, positions, length, exhaustion). -/
theorem C08_limit_is_prefix (pf : Profile) (buf : List U8) (n : Nat) (ops : List Op) :
    (n ≤ buf.length → ∃ c, Cursor.newWithLen buf n = .ok c ∧
      trace pf ops c = trace pf ops (Cursor.new (buf.take n))) ∧
    (buf.length < n → Cursor.newWithLen buf n = .err .invalidLength) := by
  refine ⟨fun h => ?_, fun h => ?_⟩
  · refine ⟨_, by simp only [Cursor.newWithLen]; rw [if_neg (by omega)], ?_⟩
    rw [← trace_trunc]
    congr 1
    simp only [Cursor.trunc, Cursor.new, List.length_take]
    congr 1
    omega
  · simp only [Cursor.newWithLen]; rw [if_pos (by omega)]

/-- C08, non-interference form: bytes after the limit are not observable. -/
theorem C08_suffix_invisible (pf : Profile) (buf s₁ s₂ : List U8) (ops : List Op) :
    ∃ c₁ c₂, Cursor.newWithLen (buf ++ s₁) buf.length = .ok c₁ ∧
      Cursor.newWithLen (buf ++ s₂) buf.length = .ok c₂ ∧ trace pf ops c₁ = trace pf ops c₂ := by
  obtain ⟨c₁, h1, t1⟩ := (C08_limit_is_prefix pf (buf ++ s₁) buf.length ops).1 (by simp)
  obtain ⟨c₂, h2, t2⟩ := (C08_limit_is_prefix pf (buf ++ s₂) buf.length ops).1 (by simp)
  refine ⟨c₁, c₂, h1, h2, ?_⟩
  rw [t1, t2, List.take_left' rfl, List.take_left' rfl]

example : ∃ c, Cursor.newWithLen [0xFF, 0xFF, 0xFF] 2 = .ok c ∧
    trace .debug [.read 10, .read 10, .seekBit 3] c =
      [(.word (.ok 0x3FF), 10, 1, 2, false), (.word (.err .short), 16, 2, 2, true), (.unit (.ok ()), 3, 0, 2, false)] :=
  ⟨_, rfl, by decide⟩

/-! ## C09 -/

/-- C09. Reading `a` and then `b` bits gives the low and high part of reading `a + b` bits at once. -/
theorem C09_read_split {pf : Profile} {c : Cursor} (h : Reachable pf c) {a b : Nat} (ha : 1 ≤ a) (hb : 1 ≤ b)
    (hab : a + b ≤ 63) (hfit : c.tellBit + (a + b) ≤ c.bitLen) :
    ∃ x y z c₁ c₂ c₃, Cursor.read a c = (.ok x, c₁) ∧ Cursor.read b c₁ = (.ok y, c₂) ∧
      Cursor.read (a + b) c = (.ok z, c₃) ∧ z.toNat = x.toNat + 2 ^ a * y.toNat ∧ x.toNat < 2 ^ a ∧
      y.toNat < 2 ^ b ∧ c₂.tellBit = c₃.tellBit := by
  have hi := h.inv
  have hl := rest_length hi
  simp only [bitLen] at hfit
  obtain ⟨x, c₁, h1, hsb1, hi1, hx, hr1, ht1, -⟩ := read_ok hi (n := a) ha (by omega) (by omega)
  obtain ⟨y, c₂, h2, hsb2, hi2, hy, hr2, ht2, -⟩ := read_ok hi1 (n := b) hb (by omega)
    (by rw [hr1, List.length_drop]; omega)
  obtain ⟨z, c₃, h3, hsb3, hi3, hz, hr3, ht3, -⟩ := read_ok hi (n := a + b) (by omega) hab (by omega)
  refine ⟨x, y, z, c₁, c₂, c₃, h1, h2, h3, ?_, ?_, ?_, by omega⟩
  · rw [hz, hx, hy, hr1, take_rest_add, natOfBits_append, List.length_take, Nat.min_eq_left (by omega)]
  · rw [hx]
    have := natOfBits_lt (c.rest.take a)
    rwa [List.length_take, Nat.min_eq_left (by omega)] at this
  · rw [hy]
    have := natOfBits_lt (c₁.rest.take b)
    rwa [List.length_take, Nat.min_eq_left (by rw [hr1, List.length_drop]; omega)] at this

example : Reachable .debug exCursor ∧ exCursor.tellBit + (7 + 13) ≤ exCursor.bitLen :=
  ⟨.step _ (.new _), by decide⟩

/-! ## C10 -/

/-- C10 for `read_as`: same failures as `read`; otherwise the value read if the type can represent it,
`BadCast` if not. -/
theorem C10_readAs (c : Cursor) (t : IntTy) (n : Nat) :
    (∀ e, (Cursor.read n c).1 = .err e → (Cursor.readAs t n c).1 = .err e) ∧
    (∀ v, (Cursor.read n c).1 = .ok v →
      (Cursor.readAs t n c).1 = if v.toNat ≤ t.max then .ok v else .err .badCast) ∧
    (Cursor.readAs t n c).2 = (Cursor.read n c).2 := by
  simp only [Cursor.readAs]
  match Cursor.read n c with
  | (.ok v, c') =>
    refine ⟨by simp, ?_, ?_⟩
    · intro v' hv'
      simp at hv'; subst hv'
      simp only; split <;> rfl
    · simp only; split <;> rfl
  | (.err e, c') => simp
  | (.panic p, c') => simp
  | (.diverge, c') => simp

/-- The part of C10 about `read_exact` that holds: for the unsigned types of at most 32 bits it returns the
next 8, 16 or 32 bits whenever they are there. Missing: the signed types and those of 64 bits or more, for which it is false
(`C10_readExact_wide_never`, `C10_readExact_signed`, `C10_readExact_signed_fails`). -/
theorem C10_readExact_partial {pf : Profile} {c : Cursor} (h : Reachable pf c) {t : IntTy}
    (ht : t = .u8 ∨ t = .u16 ∨ t = .u32) (hfit : c.tellBit + t.bitsize ≤ c.bitLen) :
    ∃ v, (Cursor.readExact t c).1 = .ok v ∧
      v.toNat = natOfBits (((bitsOf (c.inner.take c.byteLen)).drop c.tellBit).take t.bitsize) ∧
      (Cursor.readExact t c).2.tellBit = c.tellBit + t.bitsize := by
  have hb : 1 ≤ t.bitsize ∧ t.bitsize ≤ 63 ∧ 2 ^ t.bitsize = t.max + 1 := by
    rcases ht with rfl | rfl | rfl <;> decide
  obtain ⟨v, c', hr, hv, htell, -⟩ := C01_read_value h hb.1 hb.2.1 hfit
  obtain ⟨-, h2, h3⟩ := C10_readAs c t t.bitsize
  have hlt : v.toNat < 2 ^ t.bitsize := by
    rw [hv]
    refine Nat.lt_of_lt_of_le (natOfBits_lt _) (Nat.pow_le_pow_right (by omega) ?_)
    simp; omega
  refine ⟨v, ?_, hv, ?_⟩
  · simp only [Cursor.readExact]
    rw [h2 v (by rw [hr]), if_pos (by omega)]
  · simp only [Cursor.readExact]; rw [h3, hr]; exact htell

/-- C10 is false for the types of 64 bits or more: `read_exact` always fails, on every cursor, even with data left. -/
theorem C10_readExact_wide_never (c : Cursor) (t : IntTy) (ht : 64 ≤ t.bitsize) :
    Cursor.readExact t c = (.err .invalidReadSize, c) := by
  simp only [Cursor.readExact, Cursor.readAs]
  rw [read_invalid c (by omega)]

/-- What `read_exact` does for the signed types of at most 32 bits: it never returns a negative number. The next 8, 16 or 32 bits
are returned if the last of them is zero; else it fails, and they are consumed all the same. -/
theorem C10_readExact_signed {pf : Profile} {c : Cursor} (h : Reachable pf c) {t : IntTy}
    (ht : t = .i8 ∨ t = .i16 ∨ t = .i32) (hfit : c.tellBit + t.bitsize ≤ c.bitLen) :
    let n := natOfBits (((bitsOf (c.inner.take c.byteLen)).drop c.tellBit).take t.bitsize)
    (Cursor.readExact t c).1 = (if n < 2 ^ (t.bitsize - 1) then .ok (BitVec.ofNat 64 n) else .err .badCast) ∧
      (Cursor.readExact t c).2.tellBit = c.tellBit + t.bitsize := by
  have hb : 1 ≤ t.bitsize ∧ t.bitsize ≤ 63 ∧ 2 ^ (t.bitsize - 1) = t.max + 1 := by
    rcases ht with rfl | rfl | rfl <;> decide
  obtain ⟨v, c', hr, hv, htell, -⟩ := C01_read_value h hb.1 hb.2.1 hfit
  obtain ⟨-, h2, h3⟩ := C10_readAs c t t.bitsize
  refine ⟨?_, by simp only [Cursor.readExact]; rw [h3, hr]; exact htell⟩
  simp only [Cursor.readExact]
  rw [h2 v (by rw [hr]), ← hv, hb.2.2, BitVec.ofNat_toNat, BitVec.setWidth_eq]
  simp only [Nat.lt_succ_iff]

/-- C10 is false for the signed types: `read_exact::<i8>` fails on the byte `0xFF`. -/
theorem C10_readExact_signed_fails :
    ∃ c, Reachable .release c ∧ (Cursor.readExact .i8 c).1 = .err .badCast ∧ (Cursor.readExact .u8 c).1 = .ok 0xFF :=
  ⟨Cursor.new [0xFF], .new _, by decide, by decide⟩

example : Reachable .debug exCursor ∧ exCursor.tellBit + IntTy.u16.bitsize ≤ exCursor.bitLen ∧
    exCursor.tellBit + IntTy.i16.bitsize ≤ exCursor.bitLen ∧ 64 ≤ IntTy.i128.bitsize :=
  ⟨.step _ (.new _), by decide, by decide, by decide⟩

/-! ## C11 -/

/-- C11. Reading the canonical VBR-`w` encoding of `v`, wherever it stands, returns `v` and consumes exactly
the encoding, in both build profiles. -/
theorem C11_vbr_roundtrip (pf pf' : Profile) {c : Cursor} (h : Reachable pf' c) {w : Nat} (hw : 2 ≤ w ∧ w ≤ 32) (v : U64)
    {tail : List Bool}
    (hbits : (bitsOf (c.inner.take c.byteLen)).drop c.tellBit = encVbr w v ++ tail) :
    ∃ c', Cursor.readVbr pf w c = (.ok v, c') ∧ c'.tellBit = c.tellBit + (encVbr w v).length ∧
      (bitsOf (c'.inner.take c'.byteLen)).drop c'.tellBit = tail := by
  obtain ⟨c', hr, -, -, hrest, ht, -⟩ := readVbr_enc pf hw.1 hw.2 v h.inv hbits
  exact ⟨c', hr, ht, hrest⟩

example : (bitsOf ([0x71, 0x00] : List U8)).drop 0 =
    encVbr 6 (0x31#64 ) ++ [false, false, false, false] := by decide

/-! ## C12 -/

/-- C12, termination and totality: on every cursor and width, `read_vbr` returns a value or an error, or — in
debug builds only — panics on a shift overflow; it never loops forever, and never moves backwards. -/
theorem C12_vbr_total {pf pf' : Profile} {c : Cursor} (h : Reachable pf' c) (w : Nat) :
    (Cursor.readVbr pf w c).1 ≠ .diverge ∧
    (∀ p, (Cursor.readVbr pf w c).1 = .panic p → p = .vbrShift ∧ pf = .debug) ∧
    c.tellBit ≤ (Cursor.readVbr pf w c).2.tellBit := by
  have hg := good_readVbr (A := fun p => p = .vbrShift ∧ pf = .debug) pf w (fun h => ⟨rfl, h⟩) c h.inv
  exact ⟨hg.nodiv, hg.panics, hg.mono⟩

/-- C12, widths: outside `2..=32` the call fails without moving. -/
theorem C12_vbr_width (pf : Profile) (c : Cursor) {w : Nat} (hw : w < 2 ∨ 32 < w) :
    Cursor.readVbr pf w c = (.err .invalidVbrWidth, c) := by
  simp only [Cursor.readVbr]; rw [if_pos (by omega)]

/-- C12, value, the part that holds: any chunk sequence (canonical or not) none of whose shifts reaches 64 is
read as its mathematical value modulo `2^64`, in both profiles. Missing: longer chunk sequences
(`C12_vbr_overlong`). -/
theorem C12_vbr_chunks_partial {pf pf' : Profile} {c : Cursor} (h : Reachable pf' c) {w : Nat} (hw : 2 ≤ w ∧ w ≤ 32)
    {chunks : List Nat} (hne : chunks ≠ []) (hx : ∀ x ∈ chunks, x < 2 ^ (w - 1))
    (hs : (chunks.length - 1) * (w - 1) < 64) {tail : List Bool}
    (hbits : (bitsOf (c.inner.take c.byteLen)).drop c.tellBit = rawVbr w chunks ++ tail) :
    ∃ v c', Cursor.readVbr pf w c = (.ok v, c') ∧ v.toNat = chunksValue w chunks % 2 ^ 64 ∧
      c'.tellBit = c.tellBit + w * chunks.length := by
  have hi := h.inv
  obtain ⟨v, hv, hval⟩ := vbrAccum_value pf (w := w) chunks 0 0 hx (by simp) (.inr (by omega)) (by omega)
  have hlen := rest_length hi
  have hfuel : chunks.length ≤ c.bitLen + 1 := by
    have hb' : c.rest = rawVbr w chunks ++ tail := hbits
    rw [hb', List.length_append, rawVbr_length] at hlen
    have : chunks.length ≤ w * chunks.length := Nat.le_mul_of_pos_left _ (by omega)
    simp only [bitLen]; omega
  obtain ⟨c', hl, -, -, -, ht, -⟩ := (readVbrLoop_chunks pf hw.1 hw.2 chunks hne hx (c.bitLen + 1) hfuel 0 0 hi hbits).1 v hv
  refine ⟨v, c', ?_, ?_, ht⟩
  · simp only [Cursor.readVbr]; rw [if_neg (by simp; omega)]; exact hl
  · rw [hval]; simp

/-- C12 is false for longer sequences: in debug builds *every* chunk sequence with a shift of 64 or more
panics. -/
theorem C12_vbr_overlong {pf' : Profile} {c : Cursor} (h : Reachable pf' c) {w : Nat} (hw : 2 ≤ w ∧ w ≤ 32)
    {chunks : List Nat} (hne : chunks ≠ []) (hx : ∀ x ∈ chunks, x < 2 ^ (w - 1))
    (hs : 64 ≤ (chunks.length - 1) * (w - 1)) {tail : List Bool}
    (hbits : (bitsOf (c.inner.take c.byteLen)).drop c.tellBit = rawVbr w chunks ++ tail) :
    (Cursor.readVbr .debug w c).1 = .panic .vbrShift := by
  have hi := h.inv
  have hlen := rest_length hi
  have hfuel : chunks.length ≤ c.bitLen + 1 := by
    have hb' : c.rest = rawVbr w chunks ++ tail := hbits
    rw [hb', List.length_append, rawVbr_length] at hlen
    have : chunks.length ≤ w * chunks.length := Nat.le_mul_of_pos_left _ (by omega)
    simp only [bitLen]; omega
  obtain ⟨c', hp⟩ := (readVbrLoop_chunks .debug hw.1 hw.2 chunks hne hx (c.bitLen + 1) hfuel 0 0 hi hbits).2
    (vbrAccum_debug_none chunks 0 0 hne (by omega))
  simp only [Cursor.readVbr]; rw [if_neg (by simp; omega), hp]

/-- Concretely: eleven `0xFF` bytes make `read_vbr(6)` panic in a debug build, while the release build returns
an error only because the data ends. -/
theorem C12_vbr_panics :
    ∃ c, Reachable .debug c ∧ (Cursor.readVbr .debug 6 c).1 = .panic .vbrShift ∧
      (Cursor.readVbr .release 6 c).1 = .err .short :=
  ⟨Cursor.new (List.replicate 11 0xFF), .new _, by decide +kernel, by decide +kernel⟩

/-- And a release build returns a wrong value: the chunks `0, .., 0, 1` (13 zeros) stand for `2^65`, which is 0
modulo `2^64`, but `read_vbr(6)` returns 2. -/
theorem C12_vbr_wrong_value :
    ∃ c chunks, Reachable .release c ∧ (∀ x ∈ chunks, x < 2 ^ 5) ∧
      (bitsOf (c.inner.take c.byteLen)).drop c.tellBit = rawVbr 6 chunks ++ List.replicate 4 false ∧
      chunksValue 6 chunks % 2 ^ 64 = 0 ∧ (Cursor.readVbr .release 6 c).1 = .ok 2 :=
  ⟨Cursor.new [0x20, 0x08, 0x82, 0x20, 0x08, 0x82, 0x20, 0x08, 0x82, 0x60, 0x00],
    [0, 0, 0, 0, 0, 0, 0, 0, 0, 0, 0, 0, 0, 1], .new _, by decide +kernel, by decide +kernel, by decide +kernel, by decide +kernel⟩

example : Reachable .debug (Cursor.new [0x20, 0x04, 0xFF]) ∧
    (bitsOf ([0x20, 0x04, 0xFF] : List U8)).drop 0 = rawVbr 6 [0, 16] ++ (bitsOf ([0x20, 0x04, 0xFF] : List U8)).drop 12 :=
  ⟨.new _, by decide +kernel⟩

/-! ## C13 -/

/-- C13. For every integer of magnitude below `2^63`, reading the signed encoding returns it, in both profiles
(so the negation never overflows). -/
theorem C13_svbr_roundtrip (pf pf' : Profile) {c : Cursor} (h : Reachable pf' c) {w : Nat} (hw : 2 ≤ w ∧ w ≤ 32)
    (i : Int) (hi : -2^63 < i ∧ i < 2^63) {tail : List Bool}
    (hbits : (bitsOf (c.inner.take c.byteLen)).drop c.tellBit = encVbr w (BitVec.ofNat 64 (signed i)) ++ tail) :
    ∃ c', Cursor.readSvbr pf w c = (.ok i, c') ∧
      c'.tellBit = c.tellBit + (encVbr w (BitVec.ofNat 64 (signed i))).length := by
  obtain ⟨c', hr, -, -, -, ht, -⟩ := readVbr_enc pf hw.1 hw.2 _ h.inv hbits
  have hs : signed i < 2 ^ 64 := by simp only [signed]; split <;> omega
  have hn : (BitVec.ofNat 64 (signed i)).toNat = signed i := by rw [BitVec.toNat_ofNat, Nat.mod_eq_of_lt hs]
  refine ⟨c', ?_, ht⟩
  simp only [Cursor.readSvbr, hr]
  have hne : ¬ ((BitVec.ofNat 64 (signed i) >>> 1).toInt = -2^63) := by
    rw [toInt_ushiftRight_one]; omega
  have hsgn : ((BitVec.ofNat 64 (signed i) &&& 1) ≠ 0) ↔ i < 0 := by
    rw [ne_eq, ← BitVec.toNat_inj, BitVec.toNat_and, hn]
    simp only [BitVec.ofNat_eq_ofNat, BitVec.toNat_ofNat]
    rw [show (1 % 2 ^ 64 : Nat) = 2 ^ 1 - 1 by decide, Nat.and_two_pow_sub_one_eq_mod]
    simp only [signed]; split <;> omega
  rw [if_neg hne, toInt_ushiftRight_one, hn]
  by_cases hneg : i < 0
  · rw [if_pos (hsgn.2 hneg)]
    have : signed i / 2 = i.natAbs := by simp only [signed]; rw [if_pos hneg]; omega
    rw [this]; congr 2; omega
  · rw [if_neg (fun hc => hneg (hsgn.1 hc))]
    have : signed i / 2 = i.natAbs := by simp only [signed]; rw [if_neg hneg]; omega
    rw [this]; congr 2; omega

/-- On arbitrary input `read_svbr` has no failure mode that `read_vbr` lacks: the negation never panics. -/
theorem C13_svbr_total {pf pf' : Profile} {c : Cursor} (h : Reachable pf' c) (w : Nat) :
    (Cursor.readSvbr pf w c).1 ≠ .diverge ∧
    (∀ p, (Cursor.readSvbr pf w c).1 = .panic p → p = .vbrShift ∧ pf = .debug) := by
  have hg := good_readSvbr (A := fun p => p = .vbrShift ∧ pf = .debug) pf w (fun h => ⟨rfl, h⟩) c h.inv
  exact ⟨hg.nodiv, hg.panics⟩

example : Reachable .debug (Cursor.new [0xF7, 0x02]) ∧
    (bitsOf ([0xF7, 0x02] : List U8)).drop 0 =
      encVbr 6 (BitVec.ofNat 64 (signed (-187))) ++ [false, false, false, false] := ⟨.new _, by decide⟩

end Verif.Props
