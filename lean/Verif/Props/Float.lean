import Verif.Cursor.Float
import Verif.Cursor.FloatSpec
import Verif.Props.Cursor

/-!
# C92: numbers read as floating point
-/

namespace Verif

open Spec Cursor Props

/-- A floating point number is not strictly between two neighbouring multiples of `2 ^ s`, from `2 ^ (p - 1) * 2 ^ s` on. -/
theorem float_gap {p s q y : Nat} (hp : 1 ≤ p) (hq : 2 ^ (p - 1) ≤ q) (h : FloatNumber p y) :
    y ≤ q * 2 ^ s ∨ q * 2 ^ s + 2 ^ s ≤ y := by
  obtain ⟨m, e, hm, rfl⟩ := h
  by_cases he : s ≤ e
  · obtain ⟨d, rfl⟩ := Nat.exists_eq_add_of_le he
    have e1 : m * 2 ^ (s + d) = (m * 2 ^ d) * 2 ^ s := by rw [Nat.pow_add]; ac_rfl
    rw [e1]
    rcases Nat.lt_or_ge q (m * 2 ^ d) with hlt | hge
    · right
      have := Nat.mul_le_mul_right (2 ^ s) hlt
      rw [Nat.succ_mul] at this
      exact this
    · exact .inl (Nat.mul_le_mul_right _ hge)
  · left
    obtain ⟨d, rfl⟩ := Nat.exists_eq_add_of_lt (Nat.lt_of_not_le he)
    have h1 : m * 2 ^ e ≤ 2 ^ p * 2 ^ e := Nat.mul_le_mul_right _ (by omega)
    have h2 : 2 ^ p * 2 ^ e ≤ 2 ^ (p - 1) * 2 ^ (e + d + 1) := by
      rw [← Nat.pow_add, ← Nat.pow_add]
      exact Nat.pow_le_pow_right (by omega) (by omega)
    have h3 : 2 ^ (p - 1) * 2 ^ (e + d + 1) ≤ q * 2 ^ (e + d + 1) := Nat.mul_le_mul_right _ hq
    omega

theorem FloatTy.digits_pos (t : FloatTy) : 2 ≤ t.digits := by cases t <;> decide

/-- C92. A number read as floating point is the nearest floating point number, and of two that are as near the even one. -/
theorem C92_rounded (t : FloatTy) (v : U64) : Rounded t.digits v.toNat (t.ofU64 v) := by
  have hp := t.digits_pos
  unfold FloatTy.ofU64
  generalize t.digits = p at hp ⊢
  generalize v.toNat = n
  by_cases hn : n < 2 ^ p
  · rw [if_pos hn]
    refine ⟨⟨n, 0, hn, by simp⟩, fun y _ => ?_, fun y _ h1 h2 => ?_⟩
    · unfold apart; omega
    · unfold apart at h1; omega
  rw [if_neg hn]
  have hn0 : n ≠ 0 := by intro h; subst h; exact hn (Nat.two_pow_pos p)
  have hL1 : 2 ^ Nat.log2 n ≤ n := Nat.log2_self_le hn0
  have hL2 : n < 2 ^ (Nat.log2 n + 1) := Nat.lt_log2_self
  have hL : p ≤ Nat.log2 n := by
    rcases Nat.lt_or_ge (Nat.log2 n) p with h | h
    · exact absurd (Nat.lt_of_lt_of_le hL2 (Nat.pow_le_pow_right (by omega) h)) hn
    · exact h
  show Rounded p n (if 2 * (n % 2 ^ (Nat.log2 n + 1 - p)) < 2 ^ (Nat.log2 n + 1 - p) ∨
    (2 * (n % 2 ^ (Nat.log2 n + 1 - p)) = 2 ^ (Nat.log2 n + 1 - p) ∧ n / 2 ^ (Nat.log2 n + 1 - p) % 2 = 0) then _ else _)
  obtain ⟨s, hs⟩ : ∃ s, Nat.log2 n + 1 - p = s := ⟨_, rfl⟩
  rw [hs]
  have hq1 : 2 ^ (p - 1) ≤ n / 2 ^ s := by
    rw [Nat.le_div_iff_mul_le (Nat.two_pow_pos s), ← Nat.pow_add, show p - 1 + s = Nat.log2 n by omega]
    exact hL1
  have hq2 : n / 2 ^ s < 2 ^ p := by
    rw [Nat.div_lt_iff_lt_mul (Nat.two_pow_pos s), ← Nat.pow_add, show p + s = Nat.log2 n + 1 by omega]
    exact hL2
  have hdm : n / 2 ^ s * 2 ^ s + n % 2 ^ s = n := by rw [Nat.mul_comm]; exact Nat.div_add_mod n (2 ^ s)
  have hr : n % 2 ^ s < 2 ^ s := Nat.mod_lt _ (Nat.two_pow_pos s)
  have hgap : ∀ y, FloatNumber p y → y ≤ n / 2 ^ s * 2 ^ s ∨ n / 2 ^ s * 2 ^ s + 2 ^ s ≤ y :=
    fun y hy => float_gap (by omega) hq1 hy
  generalize n / 2 ^ s = q at hq1 hq2 hdm hgap ⊢
  generalize n % 2 ^ s = r at hdm hr ⊢
  have hB : (q + 1) * 2 ^ s = q * 2 ^ s + 2 ^ s := Nat.succ_mul _ _
  have hpow : 2 ^ p = 2 * 2 ^ (p - 1) := by rw [← Nat.pow_succ', show (p - 1).succ = p by omega]
  split
  · rename_i h
    refine ⟨⟨q, s, hq2, rfl⟩, fun y hy => ?_, fun y hy h1 h2 => ?_⟩
    · have := hgap y hy
      unfold apart
      generalize q * 2 ^ s = A at *
      omega
    · refine ⟨q, s, hq1, hq2, ?_, rfl⟩
      have := hgap y hy
      unfold apart at h1
      generalize q * 2 ^ s = A at *
      omega
  · rename_i h
    have hev : q % 2 = 1 → EvenFloat p ((q + 1) * 2 ^ s) := by
      intro hodd
      by_cases hlt : q + 1 < 2 ^ p
      · exact ⟨q + 1, s, by omega, hlt, by omega, rfl⟩
      · refine ⟨2 ^ (p - 1), s + 1, Nat.le_refl _, by have := Nat.two_pow_pos (p - 1); omega, ?_, ?_⟩
        · rw [show p - 1 = (p - 2) + 1 by omega, Nat.pow_succ]; omega
        · rw [show q + 1 = 2 ^ p by omega, hpow, Nat.pow_succ]; ac_rfl
    refine ⟨?_, fun y hy => ?_, fun y hy h1 h2 => hev ?_⟩
    · by_cases hlt : q + 1 < 2 ^ p
      · exact ⟨q + 1, s, hlt, rfl⟩
      · refine ⟨2 ^ (p - 1), s + 1, by have := Nat.two_pow_pos (p - 1); omega, ?_⟩
        rw [show q + 1 = 2 ^ p by omega, hpow, Nat.pow_succ]; ac_rfl
    · have := hgap y hy
      rw [hB]
      unfold apart
      generalize q * 2 ^ s = A at *
      omega
    · have := hgap y hy
      rw [hB] at h1 h2
      unfold apart at h1
      generalize q * 2 ^ s = A at *
      omega

/-- Halfway between two floating point numbers, above and below; and a number that is rounded up to one more digit. -/
example : FloatTy.f32.ofU64 0x1000001 = 0x1000000 ∧ FloatTy.f32.ofU64 0x1000003 = 0x1000004 ∧
    FloatTy.f32.ofU64 0xffffffff = 0x100000000 ∧ FloatTy.f64.ofU64 0xffffffff = 0xffffffff ∧
    FloatTy.f64.ofU64 0xffffffffffffffff = 2 ^ 64 := by
  decide +kernel

/-- C92. The number stays the same if and only if it is a floating point number. -/
theorem C92_same (t : FloatTy) (v : U64) : t.ofU64 v = v.toNat ↔ FloatNumber t.digits v.toNat := by
  have h := C92_rounded t v
  constructor
  · intro e; rw [← e]; exact h.float
  · intro hf
    have := h.nearest _ hf
    unfold apart at this
    omega

/-- C92. Reading as floating point keeps the order of numbers, if not their differences. -/
theorem C92_monotone (t : FloatTy) (v w : U64) (h : v.toNat ≤ w.toNat) : t.ofU64 v ≤ t.ofU64 w := by
  rcases Nat.lt_or_ge (t.ofU64 w) (t.ofU64 v) with hlt | hge
  · rcases Nat.lt_or_eq_of_le h with hvw | hvw
    · have h1 := (C92_rounded t v).nearest _ (C92_rounded t w).float
      have h2 := (C92_rounded t w).nearest _ (C92_rounded t v).float
      unfold apart at h1 h2
      omega
    · rw [BitVec.eq_of_toNat_eq hvw]; exact Nat.le_refl _
  · exact hge

/-- C92. `read_as::<f32>` and `read_as::<f64>` fail when `read` does and only then, never with `BadCast`; else they give the number
`read` would, rounded. They move the cursor as `read` does. -/
theorem C92_readAs (c : Cursor) (t : FloatTy) (n : Nat) :
    (∀ e, (Cursor.readAsFloat t n c).1 = .err e ↔ (Cursor.read n c).1 = .err e) ∧
    (∀ v, (Cursor.read n c).1 = .ok v →
      ∃ x, (Cursor.readAsFloat t n c).1 = .ok x ∧ Rounded t.digits v.toNat x) ∧
    (Cursor.readAsFloat t n c).2 = (Cursor.read n c).2 := by
  simp only [Cursor.readAsFloat]
  match Cursor.read n c with
  | (.ok v, c') =>
    refine ⟨by simp, ?_, rfl⟩
    intro v' hv'
    simp at hv'; subst hv'
    exact ⟨_, rfl, C92_rounded t v⟩
  | (.err e, c') => simp
  | (.panic p, c') => simp
  | (.diverge, c') => simp

/-- C92. Reading as floating point at most as many bits as the type has digits gives the number the bits denote. -/
theorem C92_readAs_partial {pf : Profile} {c : Cursor} (h : Reachable pf c) {t : FloatTy} {n : Nat} (hn : 1 ≤ n)
    (hd : n ≤ t.digits) (hfit : c.tellBit + n ≤ c.bitLen) :
    (Cursor.readAsFloat t n c).1 = .ok (natOfBits (((bitsOf (c.inner.take c.byteLen)).drop c.tellBit).take n)) ∧
      (Cursor.readAsFloat t n c).2.tellBit = c.tellBit + n := by
  have h53 : t.digits ≤ 53 := by cases t <;> decide
  obtain ⟨v, c', hr, hv, htell, -⟩ := C01_read_value h hn (by omega) hfit
  have hlt : v.toNat < 2 ^ n := by
    rw [hv]
    refine Nat.lt_of_lt_of_le (natOfBits_lt _) (Nat.pow_le_pow_right (by omega) ?_)
    simp; omega
  have he : t.ofU64 v = v.toNat :=
    (C92_same t v).2 ⟨v.toNat, 0, Nat.lt_of_lt_of_le hlt (Nat.pow_le_pow_right (by omega) hd), by simp⟩
  simp only [Cursor.readAsFloat, hr]
  exact ⟨by rw [he, hv], htell⟩

example : Reachable .debug exCursor ∧ exCursor.tellBit + 13 ≤ exCursor.bitLen ∧ 13 ≤ FloatTy.f32.digits :=
  ⟨.step _ (.new _), by decide, by decide⟩

/-- C92 is false from one bit more on: `read_as` returns another number than the bits denote, without `BadCast`. So do two
different numbers become the same. -/
theorem C92_readAs_refuted :
    ∃ c d, Reachable .release c ∧ Reachable .release d ∧ (Cursor.read 25 c).1 = .ok 0x1000001 ∧
      (Cursor.readAsFloat .f32 25 c).1 = .ok 0x1000000 ∧
      (Cursor.read 25 d).1 = .ok 0x1000000 ∧ (Cursor.readAsFloat .f32 25 d).1 = .ok 0x1000000 :=
  ⟨Cursor.new [1, 0, 0, 1], Cursor.new [0, 0, 0, 1], .new _, .new _, by decide +kernel, by decide +kernel, by decide +kernel,
    by decide +kernel⟩

/-- C92. `read_exact::<f64>` always fails, on every cursor, even with data left. -/
theorem C92_readExact_f64 (c : Cursor) : Cursor.readExactFloat .f64 c = (.err .invalidReadSize, c) := by
  simp only [Cursor.readExactFloat, Cursor.readAsFloat]
  rw [read_invalid c (by decide)]

/-- C92. `read_exact::<f32>` gives the next 32 bits read as a whole number, rounded to 24 digits: not the floating point number whose
encoding they are. -/
theorem C92_readExact_f32 {pf : Profile} {c : Cursor} (h : Reachable pf c) (hfit : c.tellBit + 32 ≤ c.bitLen) :
    ∃ x, (Cursor.readExactFloat .f32 c).1 = .ok x ∧
      Rounded 24 (natOfBits (((bitsOf (c.inner.take c.byteLen)).drop c.tellBit).take 32)) x ∧
      (Cursor.readExactFloat .f32 c).2.tellBit = c.tellBit + 32 := by
  obtain ⟨v, c', hr, hv, htell, -⟩ := C01_read_value h (n := 32) (by omega) (by omega) hfit
  refine ⟨FloatTy.f32.ofU64 v, ?_, ?_, ?_⟩
  · simp only [Cursor.readExactFloat, Cursor.readAsFloat, FloatTy.bitsize, hr]
  · rw [← hv]; exact C92_rounded .f32 v
  · simp only [Cursor.readExactFloat, Cursor.readAsFloat, FloatTy.bitsize, hr]; exact htell

/-- The four bytes that encode 1.0 are read as 1065353216.0. -/
example : Reachable .debug (Cursor.new [0, 0, 0x80, 0x3f]) ∧ (Cursor.new [0, 0, 0x80, 0x3f]).tellBit + 32 ≤ (Cursor.new [0, 0, 0x80, 0x3f]).bitLen ∧
    (Cursor.readExactFloat .f32 (Cursor.new [0, 0, 0x80, 0x3f])).1 = .ok 1065353216 :=
  ⟨.new _, by decide, by decide +kernel⟩

end Verif
