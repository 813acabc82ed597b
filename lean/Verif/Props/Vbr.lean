import Verif.Bitstream.Faults
import Verif.Cursor.History

/-!
C12 and C13 without gaps: what `read_vbr` and `read_svbr` do on all bits, from every cursor. A read depends on the remaining bits
only (`rest_readVbr`), so that the grammar of integers, which was proved for cursors on a grid, holds for all cursors.
-/

namespace Verif.Props
open Spec Cursor

/-! ## Cursors with the same remaining bits -/

theorem rest_read {c d : Cursor} (hc : Inv c) (hd : Inv d) (h : c.rest = d.rest) (n : Nat) :
    (read n c).1 = (read n d).1 ∧
      (∀ v, (read n c).1 = .ok v → Inv (read n c).2 ∧ Inv (read n d).2 ∧ (read n c).2.rest = (read n d).2.rest ∧
        (read n c).2.rest.length + n = c.rest.length) := by
  rcases read_cases hc n with ⟨h0, hr⟩ | ⟨h1, h2, hn, v, c₁, hr, -, hi, hv, hrest, -⟩ | ⟨h1, h2, h0, hr⟩ |
      ⟨h1, h2, hn, h0, c₁, hr, -⟩ <;>
    rcases read_cases hd n with ⟨h0', hr'⟩ | ⟨h1', h2', hn', v', d₁, hr', -, hi', hv', hrest', -⟩ | ⟨h1', h2', h0', hr'⟩ |
      ⟨h1', h2', hn', h0', d₁, hr', -⟩ <;>
    rw [hr, hr'] <;> (try rw [h] at hn) <;> (try rw [h] at h0) <;> (try simp) <;> (try omega)
  · refine ⟨BitVec.eq_of_toNat_eq (by rw [hv, hv', h]), hi, hi', by rw [hrest, hrest', h], ?_⟩
    rw [hrest, List.length_drop, h]
    omega
  all_goals simp_all
  all_goals omega

theorem rest_vbrLoop (pf : Profile) {w : Nat} (hw : 1 ≤ w) (fuel fuel' : Nat) (r : U64) (shift : Nat) {c d : Cursor} (hc : Inv c) (hd : Inv d)
    (h : c.rest = d.rest) (hf : c.rest.length < fuel) (hf' : c.rest.length < fuel') :
    (readVbrLoop pf w fuel r shift c).1 = (readVbrLoop pf w fuel' r shift d).1 ∧
      (∀ v, (readVbrLoop pf w fuel r shift c).1 = .ok v →
        (readVbrLoop pf w fuel r shift c).2.rest = (readVbrLoop pf w fuel' r shift d).2.rest) := by
  induction fuel generalizing fuel' r shift c d with
  | zero => omega
  | succ fuel ih =>
    obtain ⟨fuel', rfl⟩ : ∃ k, fuel' = k + 1 := ⟨fuel' - 1, by omega⟩
    obtain ⟨he, hok⟩ := rest_read hc hd h w
    simp only [readVbrLoop]
    cases hr : read w c with
    | mk o c₁ =>
      cases hr' : read w d with
      | mk o' d₁ =>
        rw [hr, hr'] at he hok
        simp only at he hok
        subst he
        cases o with
        | ok v =>
          obtain ⟨hi, hi', hrest, hlen⟩ := hok v rfl
          simp only
          split
          · simp
          · split
            · exact ih _ _ _ hi hi' hrest (by omega) (by omega)
            · simp [hrest]
        | err e => simp
        | panic p => simp
        | diverge => simp

theorem rest_readVbr (pf : Profile) (w : Nat) {c d : Cursor} (hc : Inv c) (hd : Inv d) (h : c.rest = d.rest) :
    (readVbr pf w c).1 = (readVbr pf w d).1 ∧
      (∀ v, (readVbr pf w c).1 = .ok v → (readVbr pf w c).2.rest = (readVbr pf w d).2.rest) := by
  unfold readVbr
  by_cases hw : 2 ≤ w ∧ w ≤ 32
  · rw [if_neg (by simp [hw]), if_neg (by simp [hw])]
    have h1 := rest_length hc
    have h2 := rest_length hd
    have h3 := congrArg List.length h
    exact rest_vbrLoop pf (by omega) _ _ _ _ hc hd h (by simp only [bitLen]; omega) (by simp only [bitLen]; omega)
  · rw [if_pos hw, if_pos hw]
    simp

/-- Among the cursors that read pieces from the first byte on there is one with the same remaining bits. -/
theorem twin {c : Cursor} (h : Inv c) : ∃ n d, PieceInv 0 n d ∧ d.rest = c.rest := by
  have hb : c.bits = bitsOf (c.inner.take c.byteLen) := rfl
  have hl : (c.inner.take c.byteLen).length = c.byteLen := by
    rw [List.length_take]; have := h.len_le; omega
  have key : ∀ k, k ≤ c.byteLen * 8 →
      ∃ d, PieceInv 0 (c.byteLen * 8) d ∧ d.bits = c.bits ∧ d.tellBit = k := by
    intro k
    induction k with
    | zero =>
      intro _
      refine ⟨Cursor.new (c.inner.take c.byteLen), ⟨inv_new _, by simp [Cursor.new, hl], by simp, by simp [Cursor.new, tellBit], ?_⟩, ?_, ?_⟩
      · simp [Cursor.new]
      · show bitsOf ((c.inner.take c.byteLen).take _) = _
        rw [hb]
        congr 1
        exact List.take_of_length_le (Nat.le_refl _)
      · simp [Cursor.new, tellBit]
    | succ k ih =>
      intro hk
      obtain ⟨d, hp, hbits, ht⟩ := ih (by omega)
      have hrl := rest_length hp.toInv
      have hlen := hp.len
      obtain ⟨v, d', hr, hsb, -, -, -, ht', -⟩ := read_ok hp.toInv (n := 1) (by omega) (by omega) (by omega)
      refine ⟨d', piece_read hp hr, ?_, by omega⟩
      rw [← hbits]
      unfold bits
      rw [hsb.1, hsb.2]
  obtain ⟨d, hp, hbits, ht⟩ := key c.tellBit (tellBit_le h)
  exact ⟨_, d, hp, by unfold rest; rw [hbits, ht]⟩

/-! ## C12 -/

/-- C12, exactly: on every cursor and for every width, `read_vbr` returns a value exactly if the width is in `2..=32` and the
remaining bits begin with a VBR integer of that width. The value is the one the integer stands for (`Spec.IsVbr`: the data of the
chunks modulo `2^64`, unless a chunk is shifted by 64 bits or more, where a release build shifts modulo 64), and exactly the bits of
the integer are consumed. -/
theorem C12_vbr_exact {pf pf' : Profile} {c : Cursor} (h : Reachable pf' c) (w : Nat) (v : U64) (n : Nat) :
    ((Cursor.readVbr pf w c).1 = .ok v ∧ (Cursor.readVbr pf w c).2.tellBit = c.tellBit + n) ↔
      (2 ≤ w ∧ w ≤ 32) ∧ ∃ b tail, (bitsOf (c.inner.take c.byteLen)).drop c.tellBit = b ++ tail ∧ b.length = n ∧ IsVbr pf w v b := by
  have hi := h.inv
  obtain ⟨k, d, hp, hrest⟩ := twin hi
  obtain ⟨hout, hsame⟩ := rest_readVbr pf w hi hp.toInv hrest.symm
  have hex := exact_readVbr (gr := pieceGrid 0 k) pf w
  have hg := good_readVbr (A := fun _ => True) pf w (fun _ => trivial) c hi
  have htell : (Cursor.readVbr pf w c).2.tellBit + (Cursor.readVbr pf w c).2.rest.length = c.tellBit + c.rest.length := by
    have h1 := rest_length hg.inv
    have h2 := rest_length hi
    have h3 := tellBit_le hg.inv
    have h4 := tellBit_le hi
    have h5 := hg.same.2
    rw [h5] at h1 h3
    omega
  change _ ↔ _ ∧ ∃ b tail, c.rest = b ++ tail ∧ _
  constructor
  · rintro ⟨ho, hn⟩
    have hrd := hsame v ho
    rw [hout] at ho
    obtain ⟨b, ⟨h1, h2, hv⟩, hb, -⟩ := hex.sound (c := d) (v := v) (c' := (Cursor.readVbr pf w d).2) hp (Prod.ext ho rfl)
    refine ⟨⟨h1, h2⟩, b, _, hrest.symm.trans hb, ?_, hv⟩
    have := congrArg List.length (hrest.symm.trans hb)
    rw [List.length_append, ← hrd] at this
    omega
  · rintro ⟨⟨h1, h2⟩, b, tail, hb, rfl, hv⟩
    obtain ⟨d', hd, hm⟩ := hex.complete (c := d) hp ⟨h1, h2, hv⟩ (hrest.trans hb)
    have ho : (Cursor.readVbr pf w c).1 = .ok v := by rw [hout, hd]
    refine ⟨ho, ?_⟩
    have hrd := hsame v ho
    rw [hd, hm.rest] at hrd
    have := congrArg List.length hb
    rw [List.length_append, ← hrd] at this
    omega

/-- C12, exactly, the failures: which error `read_vbr` returns and when it panics is determined by the remaining bits
(`Spec.NoVbr`: the width is not allowed; or a chunk is missing or cut off, after any number of chunks that announce another one; or,
in a debug build, a chunk is shifted by 64 bits or more). -/
theorem C12_vbr_fails {pf pf' : Profile} {c : Cursor} (h : Reachable pf' c) (w : Nat) :
    (∀ e, (Cursor.readVbr pf w c).1 = .err e ↔
      NoVbr pf w ((bitsOf (c.inner.take c.byteLen)).drop c.tellBit) (.error (.cursor e))) ∧
    (∀ s, (Cursor.readVbr pf w c).1 = .panic s ↔ NoVbr pf w ((bitsOf (c.inner.take c.byteLen)).drop c.tellBit) (.panic s)) := by
  have hi := h.inv
  obtain ⟨k, d, hp, hrest⟩ := twin hi
  obtain ⟨hout, -⟩ := rest_readVbr pf w hi hp.toInv hrest.symm
  have hf := fails_readVbr (gr := pieceGrid 0 k) pf w d hp
  have hcur : (cur (Cursor.readVbr pf w) d).1 = ((Cursor.readVbr pf w d).1).mapErr BErr.cursor := by
    unfold cur StM.mapErr
    cases Cursor.readVbr pf w d with
    | mk o d' => cases o <;> rfl
  rw [hcur, ← hout] at hf
  simp only at hf
  change (∀ e, _ ↔ NoVbr pf w c.rest _) ∧ (∀ s, _ ↔ NoVbr pf w c.rest _)
  constructor
  · intro e
    rw [← hrest, ← hf]
    cases (Cursor.readVbr pf w c).1 <;> simp [Out.mapErr, Out.Failing]
  · intro s
    rw [← hrest, ← hf]
    cases (Cursor.readVbr pf w c).1 <;> simp [Out.mapErr, Out.Failing]

/-- The two cases on concrete bits: an integer of two chunks with a superfluous one, and one that is cut off. -/
example : IsVbr .debug 4 9 (rawVbr 4 [1, 1, 0]) ∧ NoVbr .release 4 (begun 4 [1, 2] ++ [true]) (.error (.cursor .short)) ∧
    NoVbr .debug 4 (begun 4 [1, 2]) (.error (.cursor .eof)) :=
  ⟨⟨[1, 1, 0], by simp, by decide, rfl, by decide⟩,
    .cut (by omega) (by omega) (by decide) (by simp) rfl (.cut (by omega) (by omega) (by simp) (by simp)),
    .cut (by omega) (by omega) (by decide) (by simp) (List.append_nil _).symm (.missing (by omega) (by omega) rfl)⟩

/-- And, in a debug build, a chunk that is too far to the left, whatever it says and whatever follows. -/
example (b : List Bool) : NoVbr .debug 32 (begun 32 [5, 6, 7] ++ (bitsOfNat 32 8 ++ b)) (.panic .vbrShift) :=
  .overlong (by omega) (by omega) (by decide) rfl (by decide) (by decide) (by simp) rfl

/-! ## C13 -/

/-- C13, exactly: `read_svbr` does what `read_vbr` does, and turns an even value `2k` into `k` and an odd value `2k + 1` into `-k`. -/
theorem C13_svbr_exact (pf : Profile) (c : Cursor) (w : Nat) :
    (Cursor.readSvbr pf w c).2 = (Cursor.readVbr pf w c).2 ∧
    (∀ i, (Cursor.readSvbr pf w c).1 = .ok i ↔
      ∃ v, (Cursor.readVbr pf w c).1 = .ok v ∧ i = if v.toNat % 2 = 1 then -((v.toNat / 2 : Nat) : Int) else (v.toNat / 2 : Nat)) ∧
    (∀ e, (Cursor.readSvbr pf w c).1 = .err e ↔ (Cursor.readVbr pf w c).1 = .err e) ∧
    (∀ s, (Cursor.readSvbr pf w c).1 = .panic s ↔ (Cursor.readVbr pf w c).1 = .panic s) := by
  unfold Cursor.readSvbr
  cases Cursor.readVbr pf w c with
  | mk o c' =>
    cases o with
    | ok v =>
      have hne : ¬ ((v >>> 1).toInt = -2^63) := by
        rw [toInt_ushiftRight_one]; omega
      have hsgn : ((v &&& 1) ≠ 0) ↔ v.toNat % 2 = 1 := by
        rw [ne_eq, ← BitVec.toNat_inj, BitVec.toNat_and]
        simp only [BitVec.ofNat_eq_ofNat, BitVec.toNat_ofNat]
        rw [show (1 % 2 ^ 64 : Nat) = 2 ^ 1 - 1 by decide, Nat.and_two_pow_sub_one_eq_mod]
        omega
      by_cases hs : v.toNat % 2 = 1
      · simp only [if_pos (hsgn.2 hs)]
        rw [if_neg hne, toInt_ushiftRight_one]
        simp [hs, @eq_comm Int]
      · simp only [if_neg (fun hc => hs (hsgn.1 hc))]
        rw [toInt_ushiftRight_one]
        simp only [Out.ok.injEq, exists_eq_left', if_neg hs]
        simp [@eq_comm Int]
    | err e => simp
    | panic p => simp
    | diverge => simp

end Verif.Props
