import Verif.Cursor.Good

/-!
# Histories of cursor operations

The public API of the cursor as a list of operations, with what each lets the caller observe.
-/

set_option linter.unusedSimpArgs false

namespace Verif.Cursor
open Spec

/-- The public `&mut self` operations of `BitCursor` (llvm-bitcursor/src/lib.rs). -/
inductive Op where
  | read (n : Nat)
  | readAs (t : IntTy) (n : Nat)
  | readExact (t : IntTy)
  | readVbr (w : Nat)
  | readSvbr (w : Nat)
  | seekBit (p : Nat)
  | seek (p : SeekFrom)
  | align32
deriving DecidableEq, Repr

/-- What a caller sees of one operation. -/
inductive Obs where
  | word (r : Out CErr U64)
  | int (r : Out CErr Int)
  | unit (r : Out CErr Unit)
  | seek (r : Out IoErr Nat)
  | none
deriving DecidableEq, Repr

/-- Run one operation. -/
def apply (pf : Profile) : Op → Cursor → Obs × Cursor
  | .read n, c => (.word (Cursor.read n c).1, (Cursor.read n c).2)
  | .readAs t n, c => (.word (Cursor.readAs t n c).1, (Cursor.readAs t n c).2)
  | .readExact t, c => (.word (Cursor.readExact t c).1, (Cursor.readExact t c).2)
  | .readVbr w, c => (.word (Cursor.readVbr pf w c).1, (Cursor.readVbr pf w c).2)
  | .readSvbr w, c => (.int (Cursor.readSvbr pf w c).1, (Cursor.readSvbr pf w c).2)
  | .seekBit p, c => (.unit (Cursor.seekBit p c).1, (Cursor.seekBit p c).2)
  | .seek p, c => (.seek (Cursor.seek pf p c).1, (Cursor.seek pf p c).2)
  | .align32, c => (.none, Cursor.align32 c)

/-- Cursors reachable from a constructor by any sequence of operations, successful or not. -/
inductive Reachable (pf : Profile) : Cursor → Prop where
  | new (buf : List U8) : Reachable pf (Cursor.new buf)
  | newWithLen {buf : List U8} {n : Nat} {c : Cursor} : Cursor.newWithLen buf n = .ok c → Reachable pf c
  | step {c : Cursor} (op : Op) : Reachable pf c → Reachable pf (apply pf op c).2

/-- Reachable cursors over a buffer whose visible length is a multiple of 4 and that byte-seek only to
multiples of 4. -/
inductive WordReachable (pf : Profile) : Cursor → Prop where
  | new {buf : List U8} : buf.length % 4 = 0 → WordReachable pf (Cursor.new buf)
  | newWithLen {buf : List U8} {n : Nat} {c : Cursor} : n % 4 = 0 →
      Cursor.newWithLen buf n = .ok c → WordReachable pf c
  | step {c : Cursor} (op : Op) :
      (∀ p, op = .seek p → ∀ off, (Cursor.seek pf p c).1 = .ok off → off % 4 = 0) →
      WordReachable pf c → WordReachable pf (apply pf op c).2

/-- Reachable cursors that never used the byte-granular `Seek`. -/
inductive SeeklessReachable (pf : Profile) : Cursor → Prop where
  | new (buf : List U8) : SeeklessReachable pf (Cursor.new buf)
  | newWithLen {buf : List U8} {n : Nat} {c : Cursor} : Cursor.newWithLen buf n = .ok c → SeeklessReachable pf c
  | step {c : Cursor} (op : Op) : (∀ p, op ≠ .seek p) → SeeklessReachable pf c →
      SeeklessReachable pf (apply pf op c).2

/-- Run a list of operations and record, for each, what is observed together with the position, the
length and the exhaustion flag afterwards. -/
def trace (pf : Profile) : List Op → Cursor → List (Obs × Nat × Nat × Nat × Bool)
  | [], _ => []
  | op :: ops, c =>
    let r := apply pf op c
    (r.1, r.2.tellBit, r.2.tellByte, r.2.byteLen, r.2.exhausted) :: trace pf ops r.2

theorem seekTo_spec {c : Cursor} (_ : Inv c) (off : Nat) :
    (off ≤ c.byteLen ∧ seekTo off c = (.ok off, (c.atByte off))) ∨
    (c.byteLen < off ∧ seekTo off c = (.err .invalidInput, c)) := by
  simp only [seekTo]
  by_cases ho : off > c.byteLen
  · rw [if_pos ho]; exact .inr ⟨ho, rfl⟩
  · rw [if_neg ho]; exact .inl ⟨by omega, rfl⟩

theorem inv_seekTo {c : Cursor} (h : Inv c) (off : Nat) :
    Inv (seekTo off c).2 ∧ SameBuf c (seekTo off c).2 ∧
      ((∃ o, (seekTo off c).1 = .ok o ∧ (seekTo off c).2.bytePos = o) ∨ (seekTo off c).2 = c) := by
  rcases seekTo_spec h off with ⟨ho, hs⟩ | ⟨-, hs⟩
  · rw [hs]; exact ⟨inv_at h ho, ⟨rfl, rfl⟩, .inl ⟨off, rfl, rfl⟩⟩
  · rw [hs]; exact ⟨h, .rfl', .inr rfl⟩

theorem inv_seek (pf : Profile) {c : Cursor} (h : Inv c) (p : SeekFrom) :
    Inv (seek pf p c).2 ∧ SameBuf c (seek pf p c).2 ∧
      ((∃ o, (seek pf p c).1 = .ok o ∧ (seek pf p c).2.bytePos = o) ∨ (seek pf p c).2 = c) := by
  cases p with
  | start pos => exact inv_seekTo h _
  | fromEnd pos =>
    simp only [seek]
    split
    · exact ⟨h, .rfl', .inr rfl⟩
    · split
      · exact ⟨h, .rfl', .inr rfl⟩
      · exact inv_seekTo h _
  | current pos =>
    simp only [seek]
    split
    · exact ⟨h, .rfl', .inr rfl⟩
    · exact inv_seekTo h _

theorem inv_seekBit {c : Cursor} (h : Inv c) (p : Nat) :
    Inv (seekBit p c).2 ∧ SameBuf c (seekBit p c).2 := by
  rcases Nat.lt_or_ge (c.byteLen * 8) p with hp | hp
  · obtain ⟨e, c', hr, -, hsb, hi⟩ := seekBit_err h hp; rw [hr]; exact ⟨hi, hsb⟩
  · obtain ⟨c', hr, hsb, hi, -⟩ := seekBit_ok h hp; rw [hr]; exact ⟨hi, hsb⟩

theorem good_anything {ε α : Type} {k : Nat} {m : StM Cursor ε α} (h : Good (fun _ => True) k m) {c : Cursor}
    (hc : Inv c) : Inv (m c).2 ∧ SameBuf c (m c).2 := ⟨(h c hc).inv, (h c hc).same⟩

theorem inv_apply (pf : Profile) (op : Op) {c : Cursor} (h : Inv c) :
    Inv (apply pf op c).2 ∧ SameBuf c (apply pf op c).2 := by
  cases op with
  | read n => exact good_anything (good_read n _) h
  | readAs t n => exact good_anything (good_readAs t n _) h
  | readExact t => exact good_anything (good_readExact t _) h
  | readVbr w => exact good_anything (good_readVbr pf w (fun _ => trivial)) h
  | readSvbr w => exact good_anything (good_readSvbr pf w (fun _ => trivial)) h
  | seekBit p => exact inv_seekBit h p
  | seek p => exact ⟨(inv_seek pf h p).1, (inv_seek pf h p).2.1⟩
  | align32 => exact ⟨(align32_spec h).2.1, (align32_spec h).1⟩

theorem Reachable.inv {pf : Profile} {c : Cursor} (h : Reachable pf c) : Inv c := by
  induction h with
  | new buf => exact inv_new buf
  | newWithLen h => exact inv_newWithLen h
  | step op _ ih => exact (inv_apply pf op ih).1

theorem WordReachable.winv {pf : Profile} {c : Cursor} (h : WordReachable pf c) : WInv c := by
  induction h with
  | new h => exact ⟨inv_new _, h, rfl⟩
  | newWithLen h4 h =>
    refine ⟨inv_newWithLen h, ?_, ?_⟩ <;>
    · simp only [Cursor.newWithLen] at h
      split at h
      · simp at h
      · simp at h; subst h; simp [h4]
  | @step c op hop _ ih =>
    have hs := (inv_apply pf op ih.toInv)
    refine ⟨hs.1, by rw [hs.2.2]; exact ih.len4, ?_⟩
    have hl4 := ih.len4
    have hp4 := ih.pos4
    have gd : ∀ {ε α : Type} {k : Nat} {m : StM Cursor ε α}, Good (fun _ => True) k m →
      (m c).2.bytePos % 4 = 0 := fun hm => (hm c ih.toInv).word hl4 hp4
    cases op with
    | read n => exact gd (good_read n _)
    | readAs t n => exact gd (good_readAs t n _)
    | readExact t => exact gd (good_readExact t _)
    | readVbr w => exact gd (good_readVbr pf w (fun _ => trivial))
    | readSvbr w => exact gd (good_readSvbr pf w (fun _ => trivial))
    | seekBit p =>
      simp only [apply, Cursor.seekBit]
      split
      · exact hp4
      · next hle =>
        have hi := inv_at ih.toInv (p := p / 8 / 8 * 8) (by omega)
        have h4 : (c.atByte (p / 8 / 8 * 8)).bytePos % 4 = 0 := by
          simp only [atByte, clearBlockState]; omega
        split
        · have := (good_read (p % 64) (fun _ => True) _ hi).word hl4 h4
          split <;> simp_all
        · exact h4
    | seek p =>
      rcases (inv_seek pf ih.toInv p).2.2 with ⟨o, ho, hb⟩ | he
      · simp only [apply]; rw [hb]; exact hop p rfl o ho
      · simp only [apply]; rw [he]; exact hp4
    | align32 => simp only [apply]; rw [(align32_spec ih.toInv).2.2.2.2.1]; exact hp4

/-- Block loads happen at multiples of 8 bytes or at the end. -/
def Blocked (c : Cursor) : Prop := c.bytePos % 8 = 0 ∨ c.bytePos = c.byteLen

theorem blocked_read {c : Cursor} (h : Inv c) (hb : Blocked c) (n : Nat) : Blocked (read n c).2 := by
  have hl : ∀ (c : Cursor), Inv c → Blocked c → Blocked (loadCurrentBlock c).2 := by
    intro c h hb
    rcases Nat.lt_or_ge c.tellBit (c.byteLen * 8) with ht | ht
    · obtain ⟨c', hr, hsb, hbi, hbp, -⟩ := load_spec h ht
      have := h.pos_le
      have := hsb.2
      rw [hr]; simp only [Blocked] at *; omega
    · simp only [loadCurrentBlock]
      rw [if_pos (by simp only [tellByte]; omega)]; exact hb
  have hl' := hl c h hb
  simp only [read]
  split
  · exact hb
  · split
    · exact hb
    · split <;> (try split) <;> simp_all [Blocked]

theorem SeeklessReachable.reachable {pf : Profile} {c : Cursor} (h : SeeklessReachable pf c) : Reachable pf c := by
  induction h with
  | new buf => exact .new buf
  | newWithLen h => exact .newWithLen h
  | step op _ _ ih => exact .step op ih

theorem blocked_vbrLoop (pf : Profile) (w fuel : Nat) (r : U64) (shift : Nat) {c : Cursor} (h : Inv c)
    (hb : Blocked c) : Blocked (readVbrLoop pf w fuel r shift c).2 := by
  induction fuel generalizing r shift c with
  | zero => exact hb
  | succ fuel ih =>
    have h1 := blocked_read h hb w
    have h2 := (good_read w (fun _ => True) c h).inv
    simp only [readVbrLoop]
    match hr : read w c with
    | (.ok v, c') =>
      rw [hr] at h1 h2
      simp only
      split
      · exact h1
      · split
        · exact ih _ _ h2 h1
        · exact h1
    | (.err e, c') => rw [hr] at h1; exact h1
    | (.panic e, c') => rw [hr] at h1; exact h1
    | (.diverge, c') => rw [hr] at h1; exact h1

theorem blocked_vbr (pf : Profile) (w : Nat) {c : Cursor} (h : Inv c)
    (hb : Blocked c) : Blocked (readVbr pf w c).2 := by
  simp only [readVbr]
  split
  · exact hb
  · exact blocked_vbrLoop pf w _ _ _ h hb

theorem SeeklessReachable.blocked {pf : Profile} {c : Cursor} (h : SeeklessReachable pf c) : Blocked c := by
  induction h with
  | new buf => exact .inl rfl
  | newWithLen h =>
    simp only [Cursor.newWithLen] at h
    split at h
    · simp at h
    · simp at h; subst h; exact .inl rfl
  | @step c op hop hr ih =>
    have hi := hr.reachable.inv
    have hra : ∀ t n, Blocked (Cursor.readAs t n c).2 := by
      intro t n
      have := blocked_read hi ih n
      simp only [Cursor.readAs]
      split <;> (try split) <;> simp_all
    cases op with
    | read n => exact blocked_read hi ih n
    | readAs t n => exact hra t n
    | readExact t => exact hra t _
    | readVbr w => exact blocked_vbr pf w hi ih
    | readSvbr w =>
      have := blocked_vbr pf w hi ih
      simp only [apply, Cursor.readSvbr]
      split <;> simp_all
      repeat' split
      all_goals simp_all
    | seekBit p =>
      simp only [apply, Cursor.seekBit]
      split
      · exact ih
      · next hle =>
        have hi' := inv_at hi (p := p / 8 / 8 * 8) (by omega)
        have hb' : Blocked (c.atByte (p / 8 / 8 * 8)) := by
          left; simp only [atByte, clearBlockState]; omega
        have := blocked_read hi' hb' (p % 64)
        split
        · split <;> simp_all
        · exact hb'
    | seek p => exact absurd rfl (hop p)
    | align32 =>
      have h1 := (align32_spec hi).2.2.2.2.1
      have h2 := (align32_spec hi).1.2
      simp only [apply, Blocked, h1, h2]; exact ih

/-! ## Truncating the buffer -/

/-- The cursor over exactly the visible bytes. -/
def trunc (c : Cursor) : Cursor := { c with inner := c.inner.take c.byteLen }

theorem slice_trunc (l : List U8) (n a b : Nat) (h : b ≤ n) : slice? (l.take n) a b = slice? l a b := by
  simp only [slice?, List.length_take]
  by_cases hc : a ≤ b ∧ b ≤ l.length
  · rw [if_pos hc, if_pos (by omega), List.drop_take, List.take_take]
    congr 2; omega
  · rw [if_neg hc, if_neg (by omega)]

theorem load_trunc (c : Cursor) : loadCurrentBlock c.trunc = ((loadCurrentBlock c).1, (loadCurrentBlock c).2.trunc) := by
  have ht : c.trunc.tellByte = c.tellByte := rfl
  simp only [loadCurrentBlock, ht]
  have hb : c.trunc.byteLen = c.byteLen := rfl
  have e1 : c.trunc.clearBlockState.tellByte = c.clearBlockState.tellByte := rfl
  have e2 : c.trunc.clearBlockState.byteLen = c.byteLen := rfl
  have e3 : c.trunc.clearBlockState.inner = c.inner.take c.byteLen := rfl
  have e4 : c.clearBlockState.inner = c.inner := rfl
  have e5 : c.clearBlockState.byteLen = c.byteLen := rfl
  simp only [hb, e1, e2, e3, e4, e5]
  split
  · rfl
  · have hle : (if c.clearBlockState.tellByte + 8 < c.byteLen then
        (c.clearBlockState.tellByte, c.clearBlockState.tellByte + 8)
        else (c.clearBlockState.tellByte, c.byteLen)).2 ≤ c.byteLen := by
      split <;> simp only <;> omega
    rw [slice_trunc _ _ _ _ hle]
    split <;> rfl

/-- An action that does not see beyond the visible bytes. -/
def Blind {ε α : Type} (m : StM Cursor ε α) : Prop := ∀ c, m c.trunc = ((m c).1, (m c).2.trunc)

theorem blind_read (n : Nat) : Blind (read n) := by
  intro c
  have e1 : c.trunc.bitIndex = c.bitIndex := rfl
  have e2 : c.trunc.currentBlock = c.currentBlock := rfl
  simp only [read, load_trunc, e1, e2]
  split
  · rfl
  · split
    · rfl
    · match loadCurrentBlock c with
      | (.ok _, c') =>
        simp only [show c'.trunc.bitIndex = c'.bitIndex from rfl, show c'.trunc.currentBlock = c'.currentBlock from rfl]
        split <;> rfl
      | (.err e, c') => rfl
      | (.panic e, c') => rfl
      | (.diverge, c') => rfl

theorem blind_readAs (t : IntTy) (n : Nat) : Blind (readAs t n) := by
  intro c
  simp only [readAs, blind_read n c]
  match read n c with
  | (.ok _, c') => simp only; split <;> rfl
  | (.err e, c') => rfl
  | (.panic e, c') => rfl
  | (.diverge, c') => rfl

theorem blind_vbrLoop (pf : Profile) (w fuel : Nat) (r : U64) (shift : Nat) : Blind (readVbrLoop pf w fuel r shift) := by
  induction fuel generalizing r shift with
  | zero => intro c; rfl
  | succ fuel ih =>
    intro c
    simp only [readVbrLoop, blind_read w c]
    match read w c with
    | (.ok _, c') =>
      simp only
      split
      · rfl
      · split
        · exact ih _ _ c'
        · rfl
    | (.err e, c') => rfl
    | (.panic e, c') => rfl
    | (.diverge, c') => rfl

theorem blind_readVbr (pf : Profile) (w : Nat) : Blind (readVbr pf w) := by
  intro c
  simp only [readVbr]
  split
  · rfl
  · exact blind_vbrLoop pf w _ _ _ c

theorem blind_readSvbr (pf : Profile) (w : Nat) : Blind (readSvbr pf w) := by
  intro c
  simp only [readSvbr, blind_readVbr pf w c]
  match readVbr pf w c with
  | (.ok _, c') => simp only; repeat' (first | rfl | split)
  | (.err e, c') => rfl
  | (.panic e, c') => rfl
  | (.diverge, c') => rfl

theorem blind_seekBit (p : Nat) : Blind (seekBit p) := by
  intro c
  have e : (c.trunc.atByte (p / 8 / 8 * 8)) =
      ((c.atByte (p / 8 / 8 * 8))).trunc := rfl
  have eb : c.trunc.byteLen = c.byteLen := rfl
  simp only [seekBit, e, eb, blind_read _ _]
  split
  · rfl
  · split
    · match read (p % 64) (c.atByte (p / 8 / 8 * 8)) with
      | (.ok _, c') => rfl
      | (.err e, c') => rfl
      | (.panic e, c') => rfl
      | (.diverge, c') => rfl
    · rfl

theorem blind_seekTo (off : Nat) : Blind (seekTo off) := by
  intro c
  simp only [seekTo, show c.trunc.byteLen = c.byteLen from rfl]
  split <;> rfl

theorem blind_seek (pf : Profile) (p : SeekFrom) : Blind (seek pf p) := by
  intro c
  cases p with
  | start pos => exact blind_seekTo _ c
  | fromEnd pos =>
    simp only [seek, show c.trunc.byteLen = c.byteLen from rfl]
    split
    · rfl
    · split
      · rfl
      · exact blind_seekTo _ c
  | current pos =>
    simp only [seek, show c.trunc.tellByte = c.tellByte from rfl]
    split
    · rfl
    · exact blind_seekTo _ c

theorem apply_trunc (pf : Profile) (op : Op) (c : Cursor) :
    apply pf op c.trunc = ((apply pf op c).1, (apply pf op c).2.trunc) := by
  cases op with
  | read n => simp only [apply, blind_read n c]
  | readAs t n => simp only [apply, blind_readAs t n c]
  | readExact t => simp only [apply, readExact, blind_readAs t _ c]
  | readVbr w => simp only [apply, blind_readVbr pf w c]
  | readSvbr w => simp only [apply, blind_readSvbr pf w c]
  | seekBit p => simp only [apply, blind_seekBit p c]
  | seek p => simp only [apply, blind_seek pf p c]
  | align32 =>
    simp only [apply, align32, show c.trunc.bitIndex = c.bitIndex from rfl]
    split <;> rfl

theorem trace_trunc (pf : Profile) (ops : List Op) (c : Cursor) : trace pf ops c.trunc = trace pf ops c := by
  induction ops generalizing c with
  | nil => rfl
  | cons op ops ih => simp only [trace, apply_trunc, ih]; rfl

end Verif.Cursor
