import Verif.Cursor.Lemmas

/-! Lemmas about `read_vbr`. -/

set_option linter.unusedSimpArgs false

namespace Verif.Cursor
open Spec

theorem vbrChunks_spec (w : Nat) (hw : 2 ≤ w) (k v : Nat) (hv : v < 2 ^ k) (hk : 0 < k) :
    vbrChunks w k v ≠ [] ∧ (∀ x ∈ vbrChunks w k v, x < 2 ^ (w - 1)) ∧
      chunksValue w (vbrChunks w k v) = v ∧
      (∀ j, v < 2 ^ j → 0 < j → ((vbrChunks w k v).length - 1) * (w - 1) < j) := by
  induction k generalizing v with
  | zero => omega
  | succ k ih =>
    have hp : 2 ≤ 2 ^ (w - 1) := by
      calc 2 = 2 ^ 1 := rfl
        _ ≤ 2 ^ (w - 1) := Nat.pow_le_pow_right (by omega) (by omega)
    have hp0 : 0 < 2 ^ (w - 1) := by omega
    simp only [vbrChunks]
    by_cases h : v < 2 ^ (w - 1)
    · simp [h, chunksValue]
    · simp only [h, if_false]
      have hdiv : v / 2 ^ (w - 1) < 2 ^ k := by
        rw [Nat.div_lt_iff_lt_mul hp0]
        calc v < 2 ^ (k + 1) := hv
          _ = 2 ^ k * 2 := Nat.pow_succ ..
          _ ≤ _ := Nat.mul_le_mul_left _ hp
      have hk0 : 0 < k := by
        rcases Nat.eq_zero_or_pos k with rfl | h'
        · have : v < 2 := by simpa using hv
          omega
        · exact h'
      obtain ⟨h1, h2, h3, h4⟩ := ih _ hdiv hk0
      refine ⟨by simp, ?_, ?_, ?_⟩
      · intro x hx
        rcases List.mem_cons.1 hx with rfl | hx
        · exact Nat.mod_lt _ hp0
        · exact h2 x hx
      · simp only [chunksValue, h3]; exact Nat.mod_add_div ..
      · intro j hj hj0
        have hjw : w - 1 < j := by
          rcases Nat.lt_or_ge (w - 1) j with h' | h'
          · exact h'
          · have := Nat.pow_le_pow_right (n := 2) (by omega) h'
            omega
        have hd : v / 2 ^ (w - 1) < 2 ^ (j - (w - 1)) := by
          rw [Nat.div_lt_iff_lt_mul hp0, ← Nat.pow_add]
          rwa [Nat.sub_add_cancel (by omega)]
        have := h4 _ hd (by omega)
        have hl : 0 < (vbrChunks w k (v / 2 ^ (w - 1))).length := List.length_pos_iff.2 h1
        simp only [List.length_cons, Nat.add_sub_cancel]
        have he : (vbrChunks w k (v / 2 ^ (w - 1))).length =
          ((vbrChunks w k (v / 2 ^ (w - 1))).length - 1) + 1 := by omega
        rw [he, Nat.add_mul, Nat.one_mul]; omega

theorem rawVbr_length (w : Nat) (xs : List Nat) : (rawVbr w xs).length = w * xs.length := by
  induction xs with
  | nil => rfl
  | cons x xs ih =>
    cases xs with
    | nil => simp [rawVbr]
    | cons y ys => simp only [rawVbr, List.length_append, bitsOfNat_length, ih, List.length_cons, Nat.mul_add]; omega

theorem mask_toNat {w : Nat} (h : 2 ≤ w) (h' : w ≤ 32) : (1#64 <<< (w - 1)).toNat = 2 ^ (w - 1) := by
  have : (2:Nat) ^ (w - 1) < 2 ^ 64 := Nat.pow_lt_pow_right (by omega) (by omega)
  rw [BitVec.toNat_shiftLeft, Nat.shiftLeft_eq, BitVec.toNat_ofNat]
  rw [Nat.mod_eq_of_lt (a := 1) (by omega), Nat.one_mul, Nat.mod_eq_of_lt this]

theorem mask_eq {w : Nat} : (1#64 <<< (w - 1)) = BitVec.twoPow 64 (w - 1) := by
  rw [← BitVec.twoPow_eq]

/-- Data part of a chunk. -/
theorem chunk_data {w : Nat} (h : 2 ≤ w) (h' : w ≤ 32) {b : U64} (hb : b.toNat < 2 ^ w) :
    (b &&& ~~~(1#64 <<< (w - 1))).toNat = b.toNat % 2 ^ (w - 1) := by
  apply Nat.eq_of_testBit_eq
  intro i
  rw [← BitVec.getLsbD, BitVec.getLsbD_and, BitVec.getLsbD_not, mask_eq, BitVec.getLsbD_twoPow,
    Nat.testBit_mod_two_pow, ← BitVec.getLsbD]
  by_cases hi : i < w
  · by_cases hi2 : i < w - 1
    · have : ¬ (w - 1 = i) := by omega
      have : i < 64 := by omega
      simp [*]
    · have : w - 1 = i := by omega
      simp [this]
  · have : b.getLsbD i = false := by
      apply Nat.testBit_lt_two_pow
      exact Nat.lt_of_lt_of_le hb (Nat.pow_le_pow_right (by omega) (by omega))
    simp [this]

/-- Continuation bit of a chunk. -/
theorem chunk_cont {w : Nat} (h : 2 ≤ w) (h' : w ≤ 32) {b : U64} (hb : b.toNat < 2 ^ w) :
    (b &&& (1#64 <<< (w - 1))) ≠ 0 ↔ 2 ^ (w - 1) ≤ b.toNat := by
  have hpow : (2:Nat) ^ w = 2 ^ (w - 1) * 2 := by rw [← Nat.pow_succ]; congr 1; omega
  have hp := Nat.two_pow_pos (w - 1)
  rw [mask_eq, BitVec.and_twoPow]
  have hbit : b.getLsbD (w - 1) = true ↔ 2 ^ (w - 1) ≤ b.toNat := by
    rw [BitVec.getLsbD, Nat.testBit_eq_decide_div_mod_eq, decide_eq_true_eq]
    constructor
    · intro h
      rcases Nat.lt_or_ge b.toNat (2 ^ (w - 1)) with h2 | h2
      · rw [Nat.div_eq_of_lt h2] at h; simp at h
      · exact h2
    · intro h
      have : b.toNat / 2 ^ (w - 1) = 1 := by
        apply Nat.div_eq_of_lt_le <;> omega
      rw [this]
  rw [← hbit]
  cases hh : b.getLsbD (w - 1)
  · simp
  · have : BitVec.twoPow 64 (w - 1) ≠ 0#64 := by
      intro hc
      have := congrArg BitVec.toNat hc
      rw [← mask_eq, mask_toNat h h'] at this
      simp at this
    simp [this]

/-- Outcome of `read_vbr` on a given chunk sequence. -/
def vbrAccum (pf : Profile) (w : Nat) : List Nat → U64 → Nat → Option U64
  | [], r, _ => some r
  | x :: xs, r, shift =>
    match shl64 pf (BitVec.ofNat 64 x) shift with
    | none => none
    | some y => vbrAccum pf w xs (r ||| y) (shift + (w - 1))

theorem rawVbr_cons {w x : Nat} {xs : List Nat} (h : xs ≠ []) :
    rawVbr w (x :: xs) = bitsOfNat w (2 ^ (w - 1) + x) ++ rawVbr w xs := by
  cases xs with
  | nil => exact absurd rfl h
  | cons => rfl

theorem readVbrLoop_chunks (pf : Profile) {w : Nat} (h : 2 ≤ w) (h' : w ≤ 32) (xs : List Nat) (hne : xs ≠ [])
    (hx : ∀ x ∈ xs, x < 2 ^ (w - 1)) (fuel : Nat) (hf : xs.length ≤ fuel) (r : U64) (shift : Nat)
    {c : Cursor} (hi : Inv c) {tail : List Bool} (hr : c.rest = rawVbr w xs ++ tail) :
    (∀ v, vbrAccum pf w xs r shift = some v →
      ∃ c', readVbrLoop pf w fuel r shift c = (.ok v, c') ∧ SameBuf c c' ∧ Inv c' ∧ c'.rest = tail ∧
        c'.tellBit = c.tellBit + w * xs.length ∧ (c.byteLen % 4 = 0 → c.bytePos % 4 = 0 → c'.bytePos % 4 = 0)) ∧
    (vbrAccum pf w xs r shift = none → ∃ c', readVbrLoop pf w fuel r shift c = (.panic .vbrShift, c')) := by
  induction xs generalizing fuel r shift c with
  | nil => exact absurd rfl hne
  | cons x xs ih =>
    have hpow : (2:Nat) ^ w = 2 ^ (w - 1) * 2 := by rw [← Nat.pow_succ]; congr 1; omega
    have hp := Nat.two_pow_pos (w - 1)
    have hw64 : (2:Nat) ^ (w - 1) < 2 ^ 64 := Nat.pow_lt_pow_right (by omega) (by omega)
    have hxlt : x < 2 ^ (w - 1) := hx x (by simp)
    obtain ⟨fuel, rfl⟩ : ∃ k, fuel = k + 1 := ⟨fuel - 1, by simp at hf; omega⟩
    -- the value of the first chunk
    obtain ⟨b, hb, hcons⟩ : ∃ b, (if xs = [] then x else 2 ^ (w - 1) + x) = b ∧
        rawVbr w (x :: xs) = bitsOfNat w b ++ rawVbr w xs := by
      refine ⟨_, rfl, ?_⟩
      by_cases hxs : xs = []
      · subst hxs; simp [rawVbr]
      · rw [if_neg hxs, rawVbr_cons hxs]
    have hblt : b < 2 ^ w := by rw [← hb]; split <;> omega
    have hlen : w ≤ c.rest.length := by rw [hr, hcons]; simp
    obtain ⟨v, c₁, hread, hsb, hi1, hv, hrest, htell, hmod⟩ := read_ok hi (n := w) (by omega) (by omega) hlen
    have hvb : v.toNat = b := by
      rw [hv, hr, hcons, List.append_assoc, List.take_left' (by simp), natOfBits_bitsOfNat_of_lt hblt]
    have hrest1 : c₁.rest = rawVbr w xs ++ tail := by
      rw [hrest, hr, hcons, List.append_assoc, List.drop_left' (by simp)]
    have hdata : (v &&& ~~~(1#64 <<< (w - 1))) = BitVec.ofNat 64 x := by
      apply BitVec.eq_of_toNat_eq
      rw [chunk_data h h' (by rw [hvb]; exact hblt), hvb, BitVec.toNat_ofNat, ← hb]
      rw [Nat.mod_eq_of_lt (a := x) (b := 2 ^ 64) (by omega)]
      split
      · exact Nat.mod_eq_of_lt hxlt
      · rw [Nat.add_mod_left, Nat.mod_eq_of_lt hxlt]
    have hcont : (v &&& (1#64 <<< (w - 1))) ≠ 0 ↔ xs ≠ [] := by
      rw [chunk_cont h h' (by rw [hvb]; exact hblt), hvb, ← hb]
      split
      · simp [*]
      · simp [*]
    simp only [readVbrLoop, hread, hdata, vbrAccum]
    cases hshl : shl64 pf (BitVec.ofNat 64 x) shift with
    | none => simp
    | some y =>
      simp only
      by_cases hxs : xs = []
      · subst hxs
        have : ¬ ((v &&& (1#64 <<< (w - 1))) ≠ 0) := by rw [hcont]; simp
        rw [if_neg this]
        simp only [vbrAccum]
        refine ⟨?_, by simp⟩
        intro v' hv'
        simp only [Option.some.injEq] at hv'
        refine ⟨c₁, by rw [hv'], hsb, hi1, ?_, ?_, hmod⟩
        · rw [hrest1]; simp [rawVbr]
        · rw [htell]; simp
      · rw [if_pos (hcont.2 hxs)]
        obtain ⟨ih1, ih2⟩ := ih hxs (fun z hz => hx z (by simp [hz])) fuel (by simp at hf; omega) (r ||| y)
          (shift + (w - 1)) hi1 hrest1
        refine ⟨?_, ih2⟩
        intro v' hv'
        obtain ⟨c', hl, hsb', hi', hrest', htell', hmod'⟩ := ih1 v' hv'
        refine ⟨c', hl, hsb.trans hsb', hi', hrest', ?_, ?_⟩
        · rw [htell', htell]; simp only [List.length_cons, Nat.mul_add]; omega
        · intro ha hb'; exact hmod' (by rw [hsb.2]; exact ha) (hmod ha hb')

theorem shl64_toNat {pf : Profile} {x : U64} {shift : Nat} (h : shift < 64) :
    shl64 pf x shift = some (x <<< shift) := by simp [shl64, h]

/-- When no shift reaches 64 the accumulated value is the mathematical one, modulo `2^64`. -/
theorem vbrAccum_value (pf : Profile) {w : Nat} (xs : List Nat) (r : U64) (shift : Nat)
    (hx : ∀ x ∈ xs, x < 2 ^ (w - 1)) (hr : r.toNat < 2 ^ shift)
    (hs : xs = [] ∨ shift + (xs.length - 1) * (w - 1) < 64) (hw : w ≤ 65) :
    ∃ v, vbrAccum pf w xs r shift = some v ∧ v.toNat = (r.toNat + 2 ^ shift * chunksValue w xs) % 2 ^ 64 := by
  induction xs generalizing r shift with
  | nil =>
    refine ⟨r, rfl, ?_⟩
    simp only [chunksValue, Nat.mul_zero, Nat.add_zero]
    rw [Nat.mod_eq_of_lt r.isLt]
  | cons x xs ih =>
    have hs' : shift + xs.length * (w - 1) < 64 := by simpa using hs
    have hshift : shift < 64 := by omega
    have hxlt : x < 2 ^ (w - 1) := hx x (by simp)
    have hx64 : x < 2 ^ 64 := Nat.lt_of_lt_of_le hxlt (Nat.pow_le_pow_right (by omega) (by omega))
    simp only [vbrAccum, shl64_toNat hshift]
    -- the new accumulator
    have hsplit : (2:Nat) ^ 64 = 2 ^ shift * 2 ^ (64 - shift) := by rw [← Nat.pow_add]; congr 1; omega
    have hnew : (r ||| (BitVec.ofNat 64 x <<< shift)).toNat = r.toNat + 2 ^ shift * (x % 2 ^ (64 - shift)) := by
      rw [BitVec.toNat_or, BitVec.toNat_shiftLeft, BitVec.toNat_ofNat, Nat.mod_eq_of_lt hx64]
      rw [Nat.shiftLeft_eq, Nat.mul_comm x, hsplit, Nat.mul_mod_mul_left]
      rw [Nat.mul_comm (2 ^ shift) (x % _), ← Nat.shiftLeft_eq, or_shiftLeft_eq_add hr,
        Nat.shiftLeft_eq, Nat.mul_comm (x % _)]
    have hmodeq : (r.toNat + 2 ^ shift * (x % 2 ^ (64 - shift))) = (r.toNat + 2 ^ shift * x) % 2 ^ 64 := by
      have hlt : r.toNat + 2 ^ shift * (x % 2 ^ (64 - shift)) < 2 ^ 64 := by
        rw [← hnew]; exact BitVec.isLt _
      have e1 : 2 ^ shift * x = 2 ^ shift * (x % 2 ^ (64 - shift)) + 2 ^ 64 * (x / 2 ^ (64 - shift)) := by
        conv => lhs; rw [← Nat.mod_add_div x (2 ^ (64 - shift)), Nat.mul_add, ← Nat.mul_assoc, ← hsplit]
      rw [e1, ← Nat.add_assoc, Nat.add_mul_mod_self_left, Nat.mod_eq_of_lt hlt]
    have hbound : (r ||| (BitVec.ofNat 64 x <<< shift)).toNat < 2 ^ (shift + (w - 1)) := by
      rw [hnew, Nat.pow_add]
      have : x % 2 ^ (64 - shift) ≤ x := Nat.mod_le ..
      calc r.toNat + 2 ^ shift * (x % 2 ^ (64 - shift)) < 2 ^ shift + 2 ^ shift * x := by
            have := Nat.mul_le_mul_left (2 ^ shift) this; omega
        _ = 2 ^ shift * (x + 1) := by rw [Nat.mul_add]; omega
        _ ≤ _ := Nat.mul_le_mul_left _ hxlt
    obtain ⟨v, hv, hval⟩ := ih (r ||| (BitVec.ofNat 64 x <<< shift)) (shift + (w - 1))
      (fun z hz => hx z (by simp [hz])) hbound (by
        cases xs with
        | nil => exact .inl rfl
        | cons y ys =>
          right
          simp only [List.length_cons, Nat.add_sub_cancel] at hs' ⊢
          rw [Nat.add_mul] at hs'; omega)
    refine ⟨v, hv, ?_⟩
    rw [hval, hnew, hmodeq]
    simp only [chunksValue]
    rw [Nat.pow_add, Nat.mul_add, Nat.mod_add_mod, Nat.mul_assoc, Nat.add_assoc]

/-- When a shift reaches 64, a debug build panics. -/
theorem vbrAccum_debug_none {w : Nat} (xs : List Nat) (r : U64) (shift : Nat)
    (hs : xs ≠ []) (hs' : 64 ≤ shift + (xs.length - 1) * (w - 1)) :
    vbrAccum .debug w xs r shift = none := by
  induction xs generalizing r shift with
  | nil => exact absurd rfl hs
  | cons x xs ih =>
    simp only [vbrAccum]
    cases hshl : shl64 .debug (BitVec.ofNat 64 x) shift with
    | none => rfl
    | some y =>
      have hlt : shift < 64 := by
        simp only [shl64] at hshl
        split at hshl
        · assumption
        · simp at hshl
      simp only
      cases xs with
      | nil => simp at hs'; omega
      | cons z zs =>
        apply ih _ _ (by simp)
        simp only [List.length_cons, Nat.add_sub_cancel] at hs' ⊢
        rw [Nat.add_mul] at hs'; omega

/-- In release builds every chunk sequence is accepted. -/
theorem vbrAccum_release_some {w : Nat} (xs : List Nat) (r : U64) (shift : Nat) :
    ∃ v, vbrAccum .release w xs r shift = some v := by
  induction xs generalizing r shift with
  | nil => exact ⟨r, rfl⟩
  | cons x xs ih =>
    simp only [vbrAccum, shl64]
    by_cases h : shift < 64
    · simp only [h, if_true]; exact ih _ _
    · simp only [h, if_false]; exact ih _ _

/-- The canonical encoding decodes to the value it encodes. -/
theorem readVbr_enc (pf : Profile) {w : Nat} (h : 2 ≤ w) (h' : w ≤ 32) (v : U64)
    {c : Cursor} (hi : Inv c) {tail : List Bool} (hr : c.rest = encVbr w v ++ tail) :
    ∃ c', readVbr pf w c = (.ok v, c') ∧ SameBuf c c' ∧ Inv c' ∧ c'.rest = tail ∧
      c'.tellBit = c.tellBit + (encVbr w v).length ∧
      (c.byteLen % 4 = 0 → c.bytePos % 4 = 0 → c'.bytePos % 4 = 0) := by
  obtain ⟨h1, h2, h3, h4⟩ := vbrChunks_spec w h 64 v.toNat v.isLt (by omega)
  have hlen := rest_length hi
  have hfuel : (vbrChunks w 64 v.toNat).length ≤ c.bitLen + 1 := by
    rw [hr, encVbr, List.length_append, rawVbr_length] at hlen
    have : (vbrChunks w 64 v.toNat).length ≤ w * (vbrChunks w 64 v.toNat).length :=
      Nat.le_mul_of_pos_left _ (by omega)
    simp only [bitLen]; omega
  obtain ⟨v', hv', hval⟩ := vbrAccum_value pf (w := w) _ 0 0 h2 (by simp) (.inr (by
    rw [Nat.zero_add]; exact h4 64 v.isLt (by omega))) (by omega)
  have : v' = v := by
    apply BitVec.eq_of_toNat_eq
    rw [hval, h3]
    simp [Nat.mod_eq_of_lt v.isLt]
  subst this
  obtain ⟨c', hl, hsb, hi', hrest, htell, hmod⟩ :=
    (readVbrLoop_chunks pf h h' _ h1 h2 (c.bitLen + 1) hfuel 0 0 hi hr).1 _ hv'
  refine ⟨c', ?_, hsb, hi', hrest, ?_, hmod⟩
  · simp only [readVbr]; rw [if_neg (by simp; omega)]; exact hl
  · rw [htell, encVbr, rawVbr_length]

end Verif.Cursor
