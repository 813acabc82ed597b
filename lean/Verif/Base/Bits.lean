import Verif.Cursor.Spec

/-! Lemmas about bit strings and the numbers they denote. -/

namespace Verif.Spec

@[simp] theorem bitsOfByte_length (b : U8) : (bitsOfByte b).length = 8 := rfl

theorem bitsOf_length (l : List U8) : (bitsOf l).length = 8 * l.length := by
  induction l with
  | nil => rfl
  | cons b bs ih => simp only [bitsOf, List.length_append, bitsOfByte_length, ih, List.length_cons]; omega

theorem bitsOf_append (a b : List U8) : bitsOf (a ++ b) = bitsOf a ++ bitsOf b := by
  induction a with
  | nil => rfl
  | cons x xs ih => simp [bitsOf, ih]

theorem bitsOf_take (l : List U8) (n : Nat) : bitsOf (l.take n) = (bitsOf l).take (8 * n) := by
  induction l generalizing n with
  | nil => simp [bitsOf]
  | cons x xs ih =>
    cases n with
    | zero => simp [bitsOf]
    | succ n =>
      simp only [List.take_succ_cons, bitsOf, ih]
      rw [List.take_append, List.take_of_length_le (l := bitsOfByte x) (by simp; omega)]
      simp only [bitsOfByte_length]
      congr 1

theorem bitsOf_drop (l : List U8) (n : Nat) : bitsOf (l.drop n) = (bitsOf l).drop (8 * n) := by
  induction l generalizing n with
  | nil => simp [bitsOf]
  | cons x xs ih =>
    cases n with
    | zero => simp [bitsOf]
    | succ n =>
      simp only [List.drop_succ_cons, bitsOf, ih]
      rw [List.drop_append]
      rw [List.drop_of_length_le (l := bitsOfByte x) (by simp; omega)]
      simp only [bitsOfByte_length, List.nil_append]
      congr 1

theorem natOfBits_lt (l : List Bool) : natOfBits l < 2 ^ l.length := by
  induction l with
  | nil => simp [natOfBits]
  | cons b bs ih =>
    simp only [natOfBits, List.length_cons, Nat.pow_succ]
    cases b <;> simp <;> omega

theorem natOfBits_append (a b : List Bool) :
    natOfBits (a ++ b) = natOfBits a + 2 ^ a.length * natOfBits b := by
  induction a with
  | nil => simp [natOfBits]
  | cons x xs ih =>
    simp only [List.cons_append, natOfBits, ih, List.length_cons, Nat.pow_succ]
    rw [Nat.mul_add, ← Nat.mul_assoc, Nat.mul_comm 2 (2 ^ xs.length)]
    omega

theorem natOfBits_take (l : List Bool) (n : Nat) : natOfBits (l.take n) = natOfBits l % 2 ^ n := by
  rcases Nat.lt_or_ge n l.length with h | h
  · have := natOfBits_append (l.take n) (l.drop n)
    rw [List.take_append_drop] at this
    rw [this]
    have hl : (l.take n).length = n := by simp; omega
    rw [hl, Nat.add_mul_mod_self_left, Nat.mod_eq_of_lt]
    have := natOfBits_lt (l.take n); rwa [hl] at this
  · rw [List.take_of_length_le h, Nat.mod_eq_of_lt]
    exact Nat.lt_of_lt_of_le (natOfBits_lt l) (Nat.pow_le_pow_right (by omega) h)

theorem natOfBits_drop (l : List Bool) (n : Nat) : natOfBits (l.drop n) = natOfBits l / 2 ^ n := by
  rcases Nat.lt_or_ge n l.length with h | h
  · have := natOfBits_append (l.take n) (l.drop n)
    rw [List.take_append_drop] at this
    rw [this]
    have hl : (l.take n).length = n := by simp; omega
    rw [hl, Nat.add_mul_div_left _ _ (Nat.two_pow_pos n), Nat.div_eq_of_lt, Nat.zero_add]
    have := natOfBits_lt (l.take n); rwa [hl] at this
  · rw [List.drop_of_length_le h, Nat.div_eq_of_lt]; rfl
    exact Nat.lt_of_lt_of_le (natOfBits_lt l) (Nat.pow_le_pow_right (by omega) h)

@[simp] theorem bitsOfNat_length (n v : Nat) : (bitsOfNat n v).length = n := by
  induction n generalizing v with
  | zero => rfl
  | succ n ih => simp [bitsOfNat, ih]

theorem natOfBits_bitsOfNat (n v : Nat) : natOfBits (bitsOfNat n v) = v % 2 ^ n := by
  induction n generalizing v with
  | zero => simp [bitsOfNat, natOfBits, Nat.mod_one]
  | succ n ih =>
    simp only [bitsOfNat, natOfBits, ih]
    rw [Nat.pow_succ, Nat.mul_comm (2 ^ n) 2, Nat.mod_mul]
    have : v % 2 = 0 ∨ v % 2 = 1 := by omega
    rcases this with h | h <;> simp [h]

theorem natOfBits_bitsOfNat_of_lt {n v : Nat} (h : v < 2 ^ n) : natOfBits (bitsOfNat n v) = v := by
  rw [natOfBits_bitsOfNat, Nat.mod_eq_of_lt h]

theorem natOfBits_inj {a b : List Bool} (hl : a.length = b.length) (h : natOfBits a = natOfBits b) : a = b := by
  induction a generalizing b with
  | nil => cases b with
    | nil => rfl
    | cons => simp at hl
  | cons x xs ih =>
    cases b with
    | nil => simp at hl
    | cons y ys =>
      simp only [natOfBits] at h
      have hxy : x = y := by
        cases x <;> cases y <;> simp at h ⊢ <;> omega
      subst hxy
      rw [ih (by simpa using hl) (by omega)]

theorem natOfBits_bitsOfByte (b : U8) : natOfBits (bitsOfByte b) = b.toNat := by
  revert b; decide +kernel

theorem bitsOfNat_toNat (b : U8) : bitsOfNat 8 b.toNat = bitsOfByte b := by
  apply natOfBits_inj (by simp)
  rw [natOfBits_bitsOfByte, natOfBits_bitsOfNat_of_lt b.isLt]

theorem natOfBits_bitsOf_cons (b : U8) (bs : List U8) :
    natOfBits (bitsOf (b :: bs)) = b.toNat + 2 ^ 8 * natOfBits (bitsOf bs) := by
  rw [bitsOf, natOfBits_append, natOfBits_bitsOfByte, bitsOfByte_length]

theorem bitsOf_inj {a b : List U8} (h : bitsOf a = bitsOf b) : a = b := by
  induction a generalizing b with
  | nil => cases b with
    | nil => rfl
    | cons => simp [bitsOf, bitsOfByte] at h
  | cons x xs ih =>
    cases b with
    | nil => simp [bitsOf, bitsOfByte] at h
    | cons y ys =>
      simp only [bitsOf] at h
      have := List.append_inj h rfl
      rw [ih this.2]
      congr 1
      apply BitVec.eq_of_toNat_eq
      rw [← natOfBits_bitsOfByte, ← natOfBits_bitsOfByte, this.1]

/-- Disjoint bitwise or is addition. -/
theorem or_shiftLeft_eq_add {a b i : Nat} (h : a < 2 ^ i) : a ||| (b <<< i) = a + 2 ^ i * b := by
  rw [Nat.or_comm, ← Nat.shiftLeft_add_eq_or_of_lt h, Nat.shiftLeft_eq, Nat.mul_comm, Nat.add_comm]

end Verif.Spec
