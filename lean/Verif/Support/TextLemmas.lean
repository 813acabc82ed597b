import Verif.Support.Lemmas

/-!
# Lemmas about splitting, joining and decimal numbers
-/

namespace Verif

theorem split_ne_nil (sep : Char) (s : Str) : split sep s ≠ [] := by
  cases s with
  | nil => simp [split]
  | cons c cs =>
    unfold split
    split
    · simp
    · split <;> simp

theorem split_no_sep (sep : Char) (s : Str) (h : sep ∉ s) : split sep s = [s] := by
  induction s with
  | nil => rfl
  | cons c cs ih =>
    simp only [List.mem_cons, not_or] at h
    unfold split
    rw [if_neg (fun e => h.1 e.symm), ih h.2]

theorem split_append (sep : Char) (a b : Str) (h : sep ∉ a) : split sep (a ++ sep :: b) = a :: split sep b := by
  induction a with
  | nil => simp [split]
  | cons c cs ih =>
    simp only [List.mem_cons, not_or] at h
    rw [List.cons_append, split, if_neg (fun e => h.1 e.symm), ih h.2]

theorem split_append_any (sep : Char) (a b : Str) : split sep (a ++ sep :: b) = split sep a ++ split sep b := by
  induction a with
  | nil => simp [split]
  | cons c cs ih =>
    rw [List.cons_append, split, ih]
    conv => rhs; rw [split]
    split
    · rfl
    · cases h : split sep cs with
      | nil => exact absurd h (split_ne_nil _ _)
      | cons p ps => rfl

theorem split_intercalate (sep : Char) (ps : List Str) (hne : ps ≠ []) (h : ∀ p ∈ ps, sep ∉ p) :
    split sep ([sep].intercalate ps) = ps := by
  induction ps with
  | nil => exact absurd rfl hne
  | cons p ps ih =>
    cases ps with
    | nil =>
      rw [List.intercalate_singleton]
      exact split_no_sep _ _ (h p (by simp))
    | cons q qs =>
      rw [List.intercalate_cons_cons, List.append_assoc, List.singleton_append, split_append _ _ _ (h p (by simp)),
        ih (by simp) (fun p hp => h p (List.mem_cons_of_mem _ hp))]

theorem split_mem (sep : Char) (s p : Str) (hp : p ∈ split sep s) : sep ∉ p ∧ ∀ c ∈ p, c ∈ s := by
  induction s generalizing p with
  | nil =>
    simp [split] at hp
    subst hp
    simp
  | cons c cs ih =>
    rw [split] at hp
    split at hp
    · rcases List.mem_cons.1 hp with rfl | hp
      · simp
      · exact ⟨(ih p hp).1, fun x hx => List.mem_cons_of_mem _ ((ih p hp).2 x hx)⟩
    · rename_i hc
      cases h : split sep cs with
      | nil => exact absurd h (split_ne_nil _ _)
      | cons q qs =>
        rw [h] at hp ih
        rcases List.mem_cons.1 hp with rfl | hp
        · have hq := ih q (by simp)
          refine ⟨?_, ?_⟩
          · intro hm
            rcases List.mem_cons.1 hm with rfl | hm
            · exact hc rfl
            · exact hq.1 hm
          · intro x hx
            rcases List.mem_cons.1 hx with rfl | hx
            · simp
            · exact List.mem_cons_of_mem _ (hq.2 x hx)
        · have hq := ih p (List.mem_cons_of_mem _ hp)
          exact ⟨hq.1, fun x hx => List.mem_cons_of_mem _ (hq.2 x hx)⟩

theorem intercalate_split (sep : Char) (s : Str) : [sep].intercalate (split sep s) = s := by
  induction s with
  | nil => rfl
  | cons c cs ih =>
    rw [split]
    split
    · rename_i h
      subst h
      rw [List.intercalate_cons_of_ne_nil (split_ne_nil _ _), ih]
      rfl
    · cases h : split sep cs with
      | nil => exact absurd h (split_ne_nil _ _)
      | cons p ps =>
        rw [h] at ih
        show [sep].intercalate ((c :: p) :: ps) = _
        rw [List.intercalate_cons_cons_left, ih]

theorem decimal_ne_nil (n : Nat) : decimal n ≠ [] := Nat.toDigits_ne_nil

theorem decimal_digit {n : Nat} {c : Char} (h : c ∈ decimal n) : 48 ≤ c.toNat ∧ c.toNat ≤ 57 := by
  have := Nat.isDigit_of_mem_toDigits (by decide) (by decide) h
  unfold Char.isDigit at this
  rw [Bool.and_eq_true, decide_eq_true_iff, decide_eq_true_iff, ge_iff_le, UInt32.le_iff_toNat_le,
    UInt32.le_iff_toNat_le] at this
  exact this

theorem decimal_not_mem (n : Nat) (c : Char) (h : ¬ (48 ≤ c.toNat ∧ c.toNat ≤ 57)) : c ∉ decimal n :=
  fun hc => h (decimal_digit hc)

theorem ofDigitChars_mono (ds : Str) (a : Nat) : a ≤ Nat.ofDigitChars 10 ds a := by
  induction ds generalizing a with
  | nil => exact Nat.le_of_eq Nat.ofDigitChars_nil.symm
  | cons c cs ih =>
    rw [Nat.ofDigitChars_cons]
    have := ih (10 * a + (c.toNat - '0'.toNat))
    omega

theorem parseDigits_ok (max : Nat) (ds : Str) (acc : Nat) (hd : ∀ c ∈ ds, 48 ≤ c.toNat ∧ c.toNat ≤ 57)
    (hmax : Nat.ofDigitChars 10 ds acc ≤ max) : parseDigits max acc ds = .ok (Nat.ofDigitChars 10 ds acc) := by
  induction ds generalizing acc with
  | nil => rw [Nat.ofDigitChars_nil]; rfl
  | cons c cs ih =>
    rw [Nat.ofDigitChars_cons] at hmax ⊢
    have h0 : '0'.toNat = 48 := rfl
    have he : acc * 10 + (c.toNat - 48) = 10 * acc + (c.toNat - '0'.toNat) := by rw [h0]; omega
    unfold parseDigits digit?
    rw [if_pos (hd c (by simp))]
    dsimp only
    rw [he, if_pos (Nat.le_trans (ofDigitChars_mono cs _) hmax)]
    exact ih _ (fun c hc => hd c (List.mem_cons_of_mem _ hc)) hmax

theorem parseUInt_decimal (max n : Nat) (h : n ≤ max) : parseUInt max (decimal n) = .ok n := by
  have hn : Nat.ofDigitChars 10 (decimal n) 0 = n := Nat.ofDigitChars_ten_toDigits
  cases hd : decimal n with
  | nil => exact absurd hd (decimal_ne_nil n)
  | cons c cs =>
    have hc := decimal_digit (n := n) (c := c) (by rw [hd]; simp)
    have hp : c ≠ '+' := by rintro rfl; exact absurd hc (by decide)
    have hm : c ≠ '-' := by rintro rfl; exact absurd hc (by decide)
    unfold parseUInt
    dsimp only
    rw [if_neg (by simp [hp, hm]), if_neg hp, ← hd, parseDigits_ok max _ 0 (fun c hc => decimal_digit hc) (by omega), hn]

theorem parseU32_decimal (n : Nat) (h : n < 2 ^ 32) : parseU32 (decimal n) = .ok (BitVec.ofNat 32 n) := by
  unfold parseU32
  rw [parseUInt_decimal _ n (by omega)]
  rfl

theorem parseU64_decimal (n : Nat) (h : n < 2 ^ 64) : parseU64 (decimal n) = .ok (BitVec.ofNat 64 n) := by
  unfold parseU64
  rw [parseUInt_decimal _ n (by omega)]
  rfl

theorem utf8Size_ascii (c : Char) (h : c.toNat < 128) : c.utf8Size = 1 := by
  unfold Char.utf8Size
  rw [if_pos]
  rw [UInt32.le_iff_toNat_le]
  have : c.val.toNat < 128 := h
  simp
  omega

end Verif
