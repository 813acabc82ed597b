import Verif.Bitstream.Parser
import Verif.Bitstream.Writer
import Verif.Cursor.Good

/-!
Reading back what the writer writes: cursor-level actions.
-/

set_option linter.unusedSimpArgs false

namespace Verif
open Spec Cursor

variable {ε ε' α β : Type}

/-- On every word-aligned cursor whose remaining bits start with `bits`, at a position congruent to `pos` modulo
32, the action returns `v` and consumes exactly `bits`. -/
def Reads (m : StM Cursor ε α) (pos : Nat) (bits : List Bool) (v : α) : Prop :=
  ∀ c tail, WInv c → c.tellBit % 32 = pos % 32 → c.rest = bits ++ tail →
    ∃ c', m c = (.ok v, c') ∧ WInv c' ∧ SameBuf c c' ∧ c'.rest = tail ∧ c'.tellBit = c.tellBit + bits.length

theorem Reads.pure (v : α) (pos : Nat) : Reads (Pure.pure v : StM Cursor ε α) pos [] v := by
  intro c tail h _ hr
  exact ⟨c, rfl, h, .rfl', by simpa using hr, by simp⟩

theorem Reads.bind {m : StM Cursor ε α} {f : α → StM Cursor ε β} {pos : Nat} {b₁ b₂ : List Bool} {x : α} {y : β}
    (h₁ : Reads m pos b₁ x) (h₂ : Reads (f x) (pos + b₁.length) b₂ y) :
    Reads (m >>= f) pos (b₁ ++ b₂) y := by
  intro c tail h hp hr
  obtain ⟨c₁, e₁, w₁, s₁, r₁, t₁⟩ := h₁ c (b₂ ++ tail) h hp (by rw [hr, List.append_assoc])
  obtain ⟨c₂, e₂, w₂, s₂, r₂, t₂⟩ := h₂ c₁ tail w₁ (by omega) r₁
  refine ⟨c₂, ?_, w₂, s₁.trans s₂, r₂, by simp; omega⟩
  rw [StM.bind_ok e₁, e₂]

/-- Sequencing with something that reads nothing. -/
theorem Reads.bind_pure {m : StM Cursor ε α} {pos : Nat} {b : List Bool} {x : α} (h : Reads m pos b x) (f : α → β) :
    Reads (m >>= fun a => Pure.pure (f a)) pos b (f x) := by
  have := h.bind (f := fun a => Pure.pure (f a)) (.pure (f x) _)
  simpa using this

theorem Reads.mapErr {m : StM Cursor ε α} {pos : Nat} {b : List Bool} {x : α} (h : Reads m pos b x) (f : ε → ε') :
    Reads (StM.mapErr f m) pos b x := by
  intro c tail hc hp hr
  obtain ⟨c', e, rest⟩ := h c tail hc hp hr
  exact ⟨c', by simp [StM.mapErr, e], rest⟩

theorem Reads.cur {m : CurM α} {pos : Nat} {b : List Bool} {x : α} (h : Reads m pos b x) :
    Reads (cur m) pos b x := h.mapErr _

theorem reads_read {n : Nat} (h1 : 1 ≤ n) (h2 : n ≤ 63) {v : U64} (hv : v.toNat < 2 ^ n) (pos : Nat) :
    Reads (Cursor.read n) pos (bitsOfNat n v.toNat) v := by
  intro c tail h _ hr
  obtain ⟨x, c', e, sb, hi, hx, hrest, ht, hw⟩ := read_ok h.toInv h1 h2 (by rw [hr]; simp)
  have : x = v := by
    apply BitVec.eq_of_toNat_eq
    rw [hx, hr, List.take_left' (by simp), natOfBits_bitsOfNat_of_lt hv]
  subst this
  refine ⟨c', e, ⟨hi, by rw [sb.2]; exact h.len4, hw h.len4 h.pos4⟩, sb, ?_, by simpa using ht⟩
  rw [hrest, hr, List.drop_left' (by simp)]

/-- Reading a single bit. -/
theorem reads_bit (b : Bool) (pos : Nat) : Reads (Cursor.read 1) pos [b] (BitVec.ofBool b |>.setWidth 64) := by
  have := reads_read (n := 1) (by omega) (by omega) (v := (BitVec.ofBool b).setWidth 64)
    (by cases b <;> decide) pos
  cases b <;> exact this

theorem reads_readAs {t : IntTy} {n : Nat} (h1 : 1 ≤ n) (h2 : n ≤ 63) {v : U64} (hv : v.toNat < 2 ^ n)
    (ht : v.toNat ≤ t.max) (pos : Nat) : Reads (Cursor.readAs t n) pos (bitsOfNat n v.toNat) v := by
  intro c tail h hp hr
  obtain ⟨c', e, rest⟩ := reads_read h1 h2 hv pos c tail h hp hr
  exact ⟨c', by simp [Cursor.readAs, e, ht], rest⟩

theorem reads_readVbr (pf : Profile) {w : Nat} (h1 : 2 ≤ w) (h2 : w ≤ 32) (v : U64) (pos : Nat) :
    Reads (Cursor.readVbr pf w) pos (encVbr w v) v := by
  intro c tail h _ hr
  obtain ⟨c', e, sb, hi, hrest, ht, hw⟩ := readVbr_enc pf h1 h2 v h.toInv hr
  exact ⟨c', e, ⟨hi, by rw [sb.2]; exact h.len4, hw h.len4 h.pos4⟩, sb, hrest, ht⟩

theorem pad32_length (pos : Nat) : (pad32 pos).length = (32 - pos % 32) % 32 := by simp [pad32]

theorem reads_align (pos : Nat) : Reads (align) pos (pad32 pos) () := by
  intro c tail h hp hr
  obtain ⟨hw, ht⟩ := align32_word h
  obtain ⟨sb, -, -, -, -, hrest, -⟩ := align32_spec h.toInv
  have hd : c.align32.tellBit - c.tellBit = (pad32 pos).length := by rw [ht, pad32_length]; omega
  refine ⟨c.align32, rfl, hw, sb, ?_, ?_⟩
  · rw [hrest, hd, hr, List.drop_left' rfl]
  · rw [ht, pad32_length]; omega

end Verif
