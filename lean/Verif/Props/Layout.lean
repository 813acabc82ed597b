import Verif.Props.DataLayout
import Verif.Mapper.LayoutSpec

/-!
# Which texts are datalayouts: C59
-/

namespace Verif.Props
open Verif.DataLayout Verif.Spec

/-! ## Numbers -/

private theorem digit_iff (c : Char) : ('0' ≤ c ∧ c ≤ '9') ↔ (48 ≤ c.toNat ∧ c.toNat ≤ 57) := by
  rw [Char.le_def, Char.le_def, UInt32.le_iff_toNat_le, UInt32.le_iff_toNat_le]
  exact Iff.rfl

private theorem parseDigits_iff (max : Nat) (ds : Str) (acc n : Nat) (hacc : acc ≤ max) :
    parseDigits max acc ds = .ok n ↔
      (∀ c ∈ ds, '0' ≤ c ∧ c ≤ '9') ∧ Nat.ofDigitChars 10 ds acc = n ∧ n ≤ max := by
  induction ds generalizing acc with
  | nil =>
    rw [parseDigits, Nat.ofDigitChars_nil]
    constructor
    · intro h
      obtain rfl := Out.ok.inj h
      exact ⟨by simp, rfl, hacc⟩
    · rintro ⟨-, rfl, -⟩
      rfl
  | cons c cs ih =>
    rw [parseDigits, Nat.ofDigitChars_cons]
    have h0 : '0'.toNat = 48 := rfl
    have he : acc * 10 + (c.toNat - 48) = 10 * acc + (c.toNat - '0'.toNat) := by rw [h0]; omega
    by_cases hd : 48 ≤ c.toNat ∧ c.toNat ≤ 57
    · rw [digit?, if_pos hd]
      dsimp only
      rw [he]
      by_cases hm : 10 * acc + (c.toNat - '0'.toNat) ≤ max
      · rw [if_pos hm, ih _ hm]
        simp only [List.mem_cons, forall_eq_or_imp, (digit_iff c).2 hd, true_and, and_self]
      · rw [if_neg hm]
        constructor
        · intro h
          cases h
        · rintro ⟨-, rfl, h⟩
          exact absurd (Nat.le_trans (ofDigitChars_mono _ _) h) hm
    · rw [digit?, if_neg hd]
      constructor
      · intro h
        cases h
      · rintro ⟨h, -⟩
        exact absurd ((digit_iff c).1 (h c (by simp))) hd

private theorem parseDigits_err (max : Nat) (ds : Str) (acc : Nat) (e : IntErr) (h : parseDigits max acc ds = .err e) :
    (e = .invalidDigit ∧ ¬ ∀ c ∈ ds, '0' ≤ c ∧ c ≤ '9') ∨
      (e = .posOverflow ∧ ∃ pre post, ds = pre ++ post ∧ pre ≠ [] ∧ (∀ c ∈ pre, '0' ≤ c ∧ c ≤ '9') ∧
        max < Nat.ofDigitChars 10 pre acc) := by
  induction ds generalizing acc with
  | nil => cases h
  | cons c cs ih =>
    rw [parseDigits] at h
    have h0 : '0'.toNat = 48 := rfl
    have he : acc * 10 + (c.toNat - 48) = 10 * acc + (c.toNat - '0'.toNat) := by rw [h0]; omega
    by_cases hd : 48 ≤ c.toNat ∧ c.toNat ≤ 57
    · rw [digit?, if_pos hd] at h
      dsimp only at h
      rw [he] at h
      by_cases hm : 10 * acc + (c.toNat - '0'.toNat) ≤ max
      · rw [if_pos hm] at h
        rcases ih _ h with ⟨h1, h2⟩ | ⟨h1, pre, post, rfl, h3, h4, h5⟩
        · exact .inl ⟨h1, fun h => h2 fun c hc => h c (List.mem_cons_of_mem _ hc)⟩
        · refine .inr ⟨h1, c :: pre, post, rfl, by simp, ?_, by rwa [Nat.ofDigitChars_cons]⟩
          simpa only [List.mem_cons, forall_eq_or_imp, (digit_iff c).2 hd, true_and, and_self] using h4
      · rw [if_neg hm] at h
        cases h
        refine .inr ⟨rfl, [c], cs, rfl, by simp, by simpa using (digit_iff c).2 hd, ?_⟩
        rw [Nat.ofDigitChars_cons, Nat.ofDigitChars_nil]
        omega
    · rw [digit?, if_neg hd] at h
      cases h
      exact .inl ⟨rfl, fun h => hd ((digit_iff c).1 (h c (by simp)))⟩

private theorem plus_not_digit : ¬ ('0' ≤ '+' ∧ '+' ≤ '9') := by decide
private theorem minus_not_digit : ¬ ('0' ≤ '-' ∧ '-' ≤ '9') := by decide

theorem parseUInt_iff (max : Nat) (s : Str) (n : Nat) : parseUInt max s = .ok n ↔ Numeral s n ∧ n ≤ max := by
  unfold parseUInt
  match s with
  | [] =>
    constructor
    · intro h
      cases h
    · rintro ⟨⟨ds, h | h, h1, -⟩, -⟩
      · exact absurd h.symm h1
      · cases h
  | c :: cs =>
    dsimp only
    by_cases h1 : (c = '+' ∨ c = '-') ∧ cs = []
    · rw [if_pos h1]
      constructor
      · intro h
        cases h
      · rintro ⟨⟨ds, h | h, h2, h3, -⟩, -⟩
        · subst h
          have := h3 c (by simp)
          rcases h1.1 with rfl | rfl
          · exact absurd this plus_not_digit
          · exact absurd this minus_not_digit
        · cases h
          exact absurd h1.2 h2
    · rw [if_neg h1]
      by_cases hp : c = '+'
      · subst hp
        have hne : cs ≠ [] := fun h => h1 ⟨.inl rfl, h⟩
        rw [if_pos rfl, parseDigits_iff _ _ _ _ (Nat.zero_le _)]
        constructor
        · rintro ⟨h2, h3, h4⟩
          exact ⟨⟨cs, .inr rfl, hne, h2, h3⟩, h4⟩
        · rintro ⟨⟨ds, h | h, h2, h3, h4⟩, h5⟩
          · subst h
            exact absurd (h3 '+' (by simp)) plus_not_digit
          · cases h
            exact ⟨h3, h4, h5⟩
      · rw [if_neg hp, parseDigits_iff _ _ _ _ (Nat.zero_le _)]
        constructor
        · rintro ⟨h2, h3, h4⟩
          exact ⟨⟨c :: cs, .inl rfl, by simp, h2, h3⟩, h4⟩
        · rintro ⟨⟨ds, h | h, h2, h3, h4⟩, h5⟩
          · subst h
            exact ⟨h3, h4, h5⟩
          · cases h
            exact absurd rfl hp

theorem numeral_unique {s : Str} {n m : Nat} (h : Numeral s n) (h' : Numeral s m) : n = m := by
  have h1 := (parseUInt_iff (max n m) s n).2 ⟨h, Nat.le_max_left _ _⟩
  rw [(parseUInt_iff (max n m) s m).2 ⟨h', Nat.le_max_right _ _⟩] at h1
  exact (Out.ok.inj h1).symm

private theorem parseDigits_over (max : Nat) (pre post : Str) (acc : Nat) (hd : ∀ c ∈ pre, '0' ≤ c ∧ c ≤ '9') (hacc : acc ≤ max)
    (h : max < Nat.ofDigitChars 10 pre acc) : parseDigits max acc (pre ++ post) = .err .posOverflow := by
  induction pre generalizing acc with
  | nil =>
    rw [Nat.ofDigitChars_nil] at h
    omega
  | cons c cs ih =>
    rw [Nat.ofDigitChars_cons] at h
    have h0 : '0'.toNat = 48 := rfl
    have he : acc * 10 + (c.toNat - 48) = 10 * acc + (c.toNat - '0'.toNat) := by rw [h0]; omega
    rw [List.cons_append, parseDigits, digit?, if_pos ((digit_iff c).1 (hd c (by simp)))]
    dsimp only
    rw [he]
    split
    · rename_i hm
      exact ih _ (fun c hc => hd c (by simp [hc])) hm h
    · rfl

private theorem parseUInt_over (max : Nat) {pre : Str} (post : Str) {n : Nat} (h : Numeral pre n) (hn : max < n) :
    parseUInt max (pre ++ post) = .err .posOverflow := by
  obtain ⟨ds, hs, h1, h2, rfl⟩ := h
  match ds, h1 with
  | d :: ds, _ =>
    have hd := h2 d (by simp)
    have hp : d ≠ '+' := fun h => plus_not_digit (h ▸ hd)
    have hm : d ≠ '-' := fun h => minus_not_digit (h ▸ hd)
    have key := parseDigits_over max (d :: ds) post 0 h2 (Nat.zero_le _) hn
    rcases hs with rfl | rfl
    · unfold parseUInt
      rw [List.cons_append] at key ⊢
      dsimp only
      rw [if_neg (by simp [hp, hm]), if_neg hp]
      exact key
    · unfold parseUInt
      rw [List.cons_append]
      dsimp only
      rw [if_neg (by simp), if_pos rfl]
      exact key

theorem parseUInt_err (max : Nat) (s : Str) (e : IntErr) : parseUInt max s = .err e ↔ NumberFault max s e := by
  have key : ∀ e, parseUInt max s = .err e → (∀ n, ¬ Numeral s n) ∨ e ≠ .invalidDigit → NumberFault max s e := by
    intro e h
    have hpre : e = .invalidDigit → ∀ pre post n, s = pre ++ post → Numeral pre n → n ≤ max := by
      rintro rfl pre post n rfl hn
      rcases Nat.lt_or_ge max n with hlt | hge
      · rw [parseUInt_over max post hn hlt] at h
        cases h
      · exact hge
    intro hdig
    unfold parseUInt at h
    match s with
    | [] =>
      cases h
      exact .empty
    | c :: cs =>
      dsimp only at h
      have hno : e = .invalidDigit → NumberFault max (c :: cs) e := by
        rintro rfl
        exact .digit (by simp) (hdig.resolve_right (by simp)) (hpre rfl)
      by_cases h1 : (c = '+' ∨ c = '-') ∧ cs = []
      · rw [if_pos h1] at h
        cases h
        exact hno rfl
      · rw [if_neg h1] at h
        by_cases hp : c = '+'
        · subst hp
          rw [if_pos rfl] at h
          rcases parseDigits_err _ _ _ _ h with ⟨rfl, h2⟩ | ⟨rfl, pre, post, rfl, h3, h4, h5⟩
          · exact hno rfl
          · exact .overflow (pre := '+' :: pre) ⟨pre, .inr rfl, h3, h4, rfl⟩ h5
        · rw [if_neg hp] at h
          rcases parseDigits_err _ _ _ _ h with ⟨rfl, h2⟩ | ⟨rfl, pre, post, hs, h3, h4, h5⟩
          · exact hno rfl
          · rw [hs]
            exact .overflow ⟨pre, .inl rfl, h3, h4, rfl⟩ h5
  have hfwd : ∀ e, parseUInt max s = .err e → NumberFault max s e := by
    intro e h
    by_cases he : e = .invalidDigit
    · subst he
      refine key _ h (.inl fun n hn => ?_)
      rcases Nat.lt_or_ge max n with hlt | hge
      · have := parseUInt_over max [] hn hlt
        rw [List.append_nil, h] at this
        cases this
      · rw [(parseUInt_iff max s n).2 ⟨hn, hge⟩] at h
        cases h
    · exact key _ h (.inr he)
  refine ⟨hfwd e, fun hf => ?_⟩
  cases hf with
  | empty => rfl
  | overflow h1 h2 => exact parseUInt_over max _ h1 h2
  | digit h1 h2 h3 =>
    match h : parseUInt max s with
    | .ok n => exact absurd ((parseUInt_iff _ _ _).1 h).1 (h2 n)
    | .err e =>
      cases hfwd e h with
      | empty => exact absurd rfl h1
      | overflow h4 h5 => exact absurd (h3 _ _ _ rfl h4) (by omega)
      | digit => rfl
    | .panic _ | .diverge =>
      have := parseUInt_returns max s
      rw [h] at this
      exact this.elim

private theorem parse_iff {w : Nat} (s : Str) (v : BitVec w) :
    (parseUInt (2 ^ w - 1) s >>= fun n => pure (BitVec.ofNat w n) : Out IntErr (BitVec w)) = .ok v ↔ NumberText s v := by
  constructor
  · intro h
    obtain ⟨n, h1, h2⟩ := Out.bind_eq_ok.1 h
    obtain ⟨h1, h3⟩ := (parseUInt_iff _ _ _).1 h1
    have h2 : BitVec.ofNat w n = v := Out.ok.inj h2
    have : 0 < 2 ^ w := Nat.two_pow_pos w
    rw [← h2]
    unfold NumberText
    rwa [BitVec.toNat_ofNat, Nat.mod_eq_of_lt (by omega)]
  · intro h
    have := v.isLt
    rw [(parseUInt_iff _ s v.toNat).2 ⟨h, by omega⟩]
    show Out.ok _ = _
    rw [BitVec.ofNat_toNat, BitVec.setWidth_eq]

theorem parseU32_iff (s : Str) (v : U32) : parseU32 s = .ok v ↔ NumberText s v := parse_iff s v
theorem parseU64_iff (s : Str) (v : U64) : parseU64 s = .ok v ↔ NumberText s v := parse_iff s v

private theorem parse_err {w : Nat} (s : Str) (e : IntErr) :
    (parseUInt (2 ^ w - 1) s >>= fun n => pure (BitVec.ofNat w n) : Out IntErr (BitVec w)) = .err e ↔
      NumberFault (2 ^ w - 1) s e := by
  rw [bind_eq_err, parseUInt_err]
  refine ⟨fun h => h.elim id ?_, .inl⟩
  rintro ⟨_, -, h⟩
  cases h

theorem parseU32_err (s : Str) (e : IntErr) : parseU32 s = .err e ↔ NumberFault (2 ^ 32 - 1) s e := parse_err s e
theorem parseU64_err (s : Str) (e : IntErr) : parseU64 s = .err e ↔ NumberFault (2 ^ 64 - 1) s e := parse_err s e

/-! ## Pieces -/

theorem pieces_iff (sep : Char) (s : Str) (ps : List Str) : Pieces sep s ps ↔ split sep s = ps := by
  constructor
  · rintro ⟨h1, h2, rfl⟩
    exact split_intercalate sep ps h1 h2
  · rintro rfl
    exact ⟨split_ne_nil _ _, fun p hp => (split_mem _ _ p hp).1, intercalate_split _ _⟩

/-! ## Alignments, address spaces and widths -/

private theorem align_iff (v : U64) (a : Align) :
    Align.fromBitAlign v = .ok a ↔ v.toNat = 8 * 2 ^ a.shift.toNat := (C33_from_bit_align v).1 a

private theorem alignText_iff (s : Str) (a : Align) :
    AlignText s a ↔ ∃ v : U64, NumberText s v ∧ Align.fromBitAlign v = .ok a := by
  constructor
  · rintro ⟨h1, h2⟩
    have hlt : 8 * 2 ^ a.shift.toNat < 2 ^ 64 := by
      have : 2 ^ a.shift.toNat ≤ 2 ^ 60 := Nat.pow_le_pow_right (by decide) h2
      omega
    refine ⟨BitVec.ofNat 64 (8 * 2 ^ a.shift.toNat), ?_, ?_⟩
    · unfold NumberText
      rwa [BitVec.toNat_ofNat, Nat.mod_eq_of_lt hlt]
    · rw [align_iff, BitVec.toNat_ofNat, Nat.mod_eq_of_lt hlt]
  · rintro ⟨v, h1, h2⟩
    rw [align_iff] at h2
    unfold NumberText at h1
    rw [h2] at h1
    refine ⟨h1, ?_⟩
    have := v.isLt
    rcases Nat.lt_or_ge a.shift.toNat 61 with h | h
    · omega
    · have : 2 ^ 61 ≤ 2 ^ a.shift.toNat := Nat.pow_le_pow_right (by decide) h
      omega

private theorem align_err {s : Str} {v : U64} {e : AlignError} (hs : NumberText s v)
    (h : Align.fromBitAlign v = .err e) : AlignFault s e := by
  obtain ⟨h1, h2, h3⟩ := C33_from_bit_align v
  by_cases h8 : 8 ∣ v.toNat
  · have hno : ∀ k, v.toNat ≠ 2 ^ k := by
      intro k hk
      have hk3 : 3 ≤ k := by
        rcases Nat.lt_or_ge k 3 with hlt | hge
        · have : k = 0 ∨ k = 1 ∨ k = 2 := by omega
          rcases this with rfl | rfl | rfl <;> omega
        · exact hge
      have hk64 : k < 64 := by
        have := v.isLt
        rw [hk] at this
        exact (Nat.pow_lt_pow_iff_right (by decide)).1 this
      rw [(h1 ⟨BitVec.ofNat 8 (k - 3)⟩).2] at h
      · cases h
      · show v.toNat = 8 * 2 ^ (BitVec.ofNat 8 (k - 3)).toNat
        rw [BitVec.toNat_ofNat, Nat.mod_eq_of_lt (by omega), hk]
        have : k = 3 + (k - 3) := by omega
        rw [this, Nat.pow_add]
        simp
    obtain ⟨w, hw, hw'⟩ := h3 h8 hno
    rw [hw'] at h
    cases h
    refine .notPower ?_ ?_ ?_
    · rw [Nat.mul_comm, hw]
      exact hs
    · rw [Nat.mul_comm, hw]
      exact v.isLt
    · intro k hk
      refine hno (3 + k) ?_
      rw [← hw, hk, Nat.pow_add, Nat.mul_comm]
  · rw [h2 h8] at h
    cases h
    exact .notBytes hs (by omega)

private theorem alignFault_iff (s : Str) (e : AlignError) :
    AlignFault s e ↔ ∃ v : U64, NumberText s v ∧ Align.fromBitAlign v = .err e := by
  constructor
  · intro h
    cases h with
    | @notBytes v h1 h2 =>
      exact ⟨v, h1, (C33_from_bit_align v).2.1 (by omega)⟩
    | @notPower w h1 h2 h3 =>
      have hv : (BitVec.ofNat 64 (8 * w.toNat)).toNat = 8 * w.toNat := by
        rw [BitVec.toNat_ofNat, Nat.mod_eq_of_lt h2]
      refine ⟨BitVec.ofNat 64 (8 * w.toNat), ?_, ?_⟩
      · unfold NumberText
        rwa [hv]
      · obtain ⟨w', hw, hw'⟩ := (C33_from_bit_align (BitVec.ofNat 64 (8 * w.toNat))).2.2 (by rw [hv]; omega) (by
          rw [hv]
          intro k hk
          have hk3 : 3 ≤ k := by
            rcases Nat.lt_or_ge k 3 with hlt | hge
            · have : k = 0 ∨ k = 1 ∨ k = 2 := by omega
              rcases this with rfl | rfl | rfl <;> omega
            · exact hge
          have : k = 3 + (k - 3) := by omega
          rw [this, Nat.pow_add] at hk
          exact h3 (k - 3) (by omega))
        rw [hw']
        have : w' = w := by
          apply BitVec.eq_of_toNat_eq
          rw [hv] at hw
          omega
        rw [this]
  · rintro ⟨v, h1, h2⟩
    exact align_err h1 h2

private theorem space_iff (s : Str) (a : AddressSpace) :
    SpaceText s a ↔ ∃ v : U32, NumberText s v ∧ AddressSpace.tryFromU32 v = .ok a := by
  constructor
  · rintro ⟨h1, h2⟩
    refine ⟨a.val, h1, ?_⟩
    unfold AddressSpace.tryFromU32
    rw [if_pos (by omega)]
  · rintro ⟨v, h1, h2⟩
    unfold AddressSpace.tryFromU32 at h2
    split at h2
    · cases h2
      exact ⟨h1, by dsimp only; omega⟩
    · cases h2

private theorem space_err {s : Str} {v : U32} {e : AddressSpaceError} (hs : NumberText s v)
    (h : AddressSpace.tryFromU32 v = .err e) : SpaceFault s e := by
  unfold AddressSpace.tryFromU32 at h
  split at h
  · cases h
  · cases h
    have hv : (v.setWidth 64).toNat = v.toNat := by
      rw [BitVec.toNat_setWidth]
      exact Nat.mod_eq_of_lt (by have := v.isLt; omega)
    refine .tooBig ?_ ?_ ?_
    · rw [hv]
      exact hs
    · rw [hv]
      omega
    · rw [hv]
      exact v.isLt

private theorem spaceFault_iff (s : Str) (e : AddressSpaceError) :
    SpaceFault s e ↔ ∃ v : U32, NumberText s v ∧ AddressSpace.tryFromU32 v = .err e := by
  constructor
  · intro h
    cases h with
    | @tooBig v h1 h2 h3 =>
      refine ⟨BitVec.ofNat 32 v.toNat, ?_, ?_⟩
      · unfold NumberText
        rwa [BitVec.toNat_ofNat, Nat.mod_eq_of_lt h3]
      · unfold AddressSpace.tryFromU32
        rw [BitVec.toNat_ofNat, Nat.mod_eq_of_lt h3, if_neg (by omega)]
        have : (BitVec.ofNat 32 v.toNat).setWidth 64 = v := by
          apply BitVec.eq_of_toNat_eq
          rw [BitVec.toNat_setWidth, BitVec.toNat_ofNat, Nat.mod_eq_of_lt h3, Nat.mod_eq_of_lt v.isLt]
        rw [this]
  · rintro ⟨v, h1, h2⟩
    exact space_err h1 h2

private theorem width_iff (s : Str) (w : AlignedTypeWidth) :
    WidthText s w ↔ ∃ v : U32, NumberText s v ∧ AlignedTypeWidth.tryFrom v = .ok w := by
  constructor
  · rintro ⟨h1, h2, h3⟩
    refine ⟨w.val, h1, ?_⟩
    unfold AlignedTypeWidth.tryFrom
    rw [if_pos ⟨by rw [gt_iff_lt, BitVec.lt_def]; simpa using h2, by omega⟩]
  · rintro ⟨v, h1, h2⟩
    unfold AlignedTypeWidth.tryFrom at h2
    split at h2
    · rename_i h
      cases h2
      refine ⟨h1, ?_, by dsimp only; omega⟩
      have := h.1
      rw [gt_iff_lt, BitVec.lt_def] at this
      simpa using this
    · cases h2

private theorem width_err {v : U32} {e : AlignedTypeWidthError} :
    AlignedTypeWidth.tryFrom v = .err e ↔ e = .tooBig v ∧ (v.toNat = 0 ∨ 2 ^ 23 ≤ v.toNat) := by
  unfold AlignedTypeWidth.tryFrom
  split
  · rename_i hn
    rw [gt_iff_lt, BitVec.lt_def] at hn
    simp at hn
    constructor
    · intro h
      cases h
    · rintro ⟨-, h⟩
      omega
  · rename_i hn
    rw [gt_iff_lt, BitVec.lt_def] at hn
    simp at hn
    constructor
    · intro h
      cases h
      exact ⟨rfl, by omega⟩
    · rintro ⟨rfl, -⟩
      rfl

/-! ## Combinations -/

private theorem parseBitAlign_iff (s : Str) (a : Align) : parseBitAlign s = .ok a ↔ AlignText s a := by
  rw [alignText_iff]
  unfold parseBitAlign
  simp only [Out.bind_eq_ok, Out.mapErr_eq_ok, parseU64_iff]

private theorem parseBitAlign_err (s : Str) (e : DataLayoutError) : parseBitAlign s = .err e ↔
    (∃ i, e = .badInt i ∧ NumberFault (2 ^ 64 - 1) s i) ∨ ∃ i, e = .badAlign i ∧ AlignFault s i := by
  unfold parseBitAlign
  simp only [bind_eq_err, mapErr_eq_err, Out.mapErr_eq_ok, parseU64_err, parseU64_iff, alignFault_iff]
  grind

private theorem parseAS_iff (s : Str) (a : AddressSpace) : parseAS s = .ok a ↔ SpaceText s a := by
  rw [space_iff]
  unfold parseAS
  simp only [Out.bind_eq_ok, Out.mapErr_eq_ok, parseU32_iff]

private theorem parseAS_err (s : Str) (e : DataLayoutError) : parseAS s = .err e ↔
    (∃ i, e = .badInt i ∧ NumberFault (2 ^ 32 - 1) s i) ∨ ∃ i, e = .badAddressSpace i ∧ SpaceFault s i := by
  unfold parseAS
  simp only [bind_eq_err, mapErr_eq_err, Out.mapErr_eq_ok, parseU32_err, parseU32_iff, spaceFault_iff]
  grind

private theorem parseAbi_iff (s : Str) (a : Align) : parseAbi s = .ok a ↔ AlignText s a := by
  rw [alignText_iff]
  unfold parseAbi
  simp only [Out.bind_eq_ok, Out.mapErr_eq_ok, parseU64_iff]

private theorem parseAbi_err (s : Str) (e : AlignSpecError) : parseAbi s = .err e ↔
    (∃ i, e = .parse i.text ∧ NumberFault (2 ^ 64 - 1) s i) ∨ ∃ i, e = .parseAlign i ∧ AlignFault s i := by
  unfold parseAbi
  simp only [bind_eq_err, mapErr_eq_err, Out.mapErr_eq_ok, parseU64_err, parseU64_iff, alignFault_iff]
  grind

private theorem parsePref_iff (abi : Align) (s : Option Str) (a : Align) :
    parsePref abi s = .ok a ↔ Given AlignText abi s a := by
  cases s with
  | none =>
    constructor
    · intro h
      exact (Out.ok.inj h).symm
    · intro h
      have h : a = abi := h
      rw [h]
      rfl
  | some s =>
    show (_ >>= _) = _ ↔ AlignText s a
    rw [alignText_iff]
    simp only [Out.bind_eq_ok, Out.mapErr_eq_ok, parseU64_iff]

private theorem parsePref_err (abi : Align) (o : Option Str) (e : AlignSpecError) : parsePref abi o = .err e ↔
    ∃ s, o = some s ∧
      ((∃ i, e = .badInt i ∧ NumberFault (2 ^ 64 - 1) s i) ∨ ∃ i, e = .parseAlign i ∧ AlignFault s i) := by
  cases o with
  | none =>
    constructor
    · intro h
      cases h
    · rintro ⟨_, h, -⟩
      cases h
  | some s =>
    unfold parsePref
    simp only [bind_eq_err, mapErr_eq_err, Out.mapErr_eq_ok, parseU64_err, parseU64_iff, alignFault_iff]
    grind

/-! ## Specs of types -/

private theorem typeNew_iff (t : AlignedType) (a p : Align) (s : TypeAlignSpec) :
    TypeAlignSpec.new t a p = .ok s ↔ s = ⟨t, a, p⟩ ∧ a.shift ≤ p.shift ∧ p.shift.toNat ≤ 15 := by
  unfold TypeAlignSpec.new
  have h15 : (TypeAlignSpec.maxAlign.shift).toNat = 15 := rfl
  by_cases h : p.shift < a.shift
  · rw [if_pos h]
    constructor
    · intro h
      cases h
    · rintro ⟨-, h1, -⟩
      exact absurd h1 (BitVec.not_le.2 h)
  · rw [if_neg h]
    have h' := BitVec.not_lt.1 h
    by_cases hm : a.shift ≤ TypeAlignSpec.maxAlign.shift ∧ p.shift ≤ TypeAlignSpec.maxAlign.shift
    · rw [if_pos hm]
      constructor
      · intro he
        exact ⟨(Out.ok.inj he).symm, h', by rw [← h15]; exact BitVec.le_def.1 hm.2⟩
      · rintro ⟨rfl, -, -⟩
        rfl
    · rw [if_neg hm]
      constructor
      · intro he
        cases he
      · rintro ⟨-, -, h1⟩
        refine absurd ⟨?_, ?_⟩ hm
        · exact BitVec.le_trans h' (BitVec.le_def.2 h1)
        · exact BitVec.le_def.2 h1

private theorem typeNew_err (t : AlignedType) (a p : Align) (e : AlignSpecError) : TypeAlignSpec.new t a p = .err e ↔
    (e = .alignPref p a ∧ p.shift < a.shift) ∨
      (e = .abiAlignTooLarge a ∧ a.shift ≤ p.shift ∧ 15 < p.shift.toNat) := by
  have hno := typeNew_iff t a p ⟨t, a, p⟩
  unfold TypeAlignSpec.new at hno ⊢
  split
  · rename_i hlt
    constructor
    · intro h
      cases h
      exact .inl ⟨rfl, hlt⟩
    · rintro (⟨rfl, -⟩ | ⟨-, h, -⟩)
      · rfl
      · exact absurd h (BitVec.not_le.2 hlt)
  · rename_i hlt
    rw [if_neg hlt] at hno
    split
    · rename_i hm
      rw [if_pos hm] at hno
      obtain ⟨-, h1, h2⟩ := hno.1 rfl
      constructor
      · intro h
        cases h
      · rintro (⟨-, h⟩ | ⟨-, -, h⟩)
        · exact absurd h hlt
        · omega
    · rename_i hm
      rw [if_neg hm] at hno
      constructor
      · intro h
        cases h
        refine .inr ⟨rfl, BitVec.not_lt.1 hlt, ?_⟩
        rcases Nat.lt_or_ge 15 p.shift.toNat with h | h
        · exact h
        · exact nomatch hno.2 ⟨rfl, BitVec.not_lt.1 hlt, h⟩
      · rintro (⟨-, h⟩ | ⟨rfl, -⟩)
        · exact absurd h hlt
        · rfl

private theorem tail_iff (abi : Str) (more : List Str) (t : AlignedType) (s : TypeAlignSpec) :
    (do
      let a ← parseAbi abi
      let p ← parsePref a more[0]?
      TypeAlignSpec.new t a p : Out AlignSpecError TypeAlignSpec) = .ok s ↔
      t = s.alignedType ∧ AlignText abi s.abi ∧ Given AlignText s.abi more.head? s.pref ∧
        s.abi.shift ≤ s.pref.shift ∧ s.pref.shift.toNat ≤ 15 := by
  rw [← List.head?_eq_getElem?]
  simp only [Out.bind_eq_ok, parseAbi_iff, parsePref_iff, typeNew_iff]
  constructor
  · rintro ⟨a, h1, p, h2, rfl, h3, h4⟩
    exact ⟨rfl, h1, h2, h3, h4⟩
  · rintro ⟨rfl, h1, h2, h3, h4⟩
    exact ⟨_, h1, _, h2, rfl, h3, h4⟩

private def tail (abi : Str) (pref : Option Str) (t : AlignedType) : Out AlignSpecError TypeAlignSpec := do
  let a ← parseAbi abi
  let p ← parsePref a pref
  TypeAlignSpec.new t a p

private theorem tail_err {text : Str} {kind : Option (Char × Str)} {abi : Str} {pref : Option Str} {t : AlignedType}
    {e : AlignSpecError} (hp : TypeParts text kind abi pref) (hk : KindText kind t) (h : tail abi pref t = .err e) :
    TypeFault text e := by
  rcases bind_eq_err.1 h with h | ⟨a, ha, h⟩
  · rcases (parseAbi_err _ _).1 h with ⟨i, rfl, hi⟩ | ⟨i, rfl, hi⟩
    · exact .abiNumber hp hk hi
    · exact .abi hp hk hi
  · have ha := (parseAbi_iff _ _).1 ha
    rcases bind_eq_err.1 h with h | ⟨p, hpp, h⟩
    · obtain ⟨s, rfl, ⟨i, rfl, hi⟩ | ⟨i, rfl, hi⟩⟩ := (parsePref_err _ _ _).1 h
      · exact .prefNumber hp hk ha hi
      · exact .pref hp hk ha hi
    · have hpp := (parsePref_iff _ _ _).1 hpp
      rcases (typeNew_err _ _ _ _).1 h with ⟨rfl, hlt⟩ | ⟨rfl, h1, h2⟩
      · cases pref with
        | none =>
          have hpp : p = a := hpp
          rw [hpp] at hlt
          exact absurd hlt (BitVec.lt_irrefl _)
        | some q => exact .prefBelowAbi hp hk ha hpp hlt
      · exact .tooLarge hp hk ha hpp h1 h2

/-- If the kind of a type is fine, the alignments decide. -/
private theorem fromStr_tail {text : Str} {kind : Option (Char × Str)} {abi : Str} {pref : Option Str} {t : AlignedType}
    (hp : TypeParts text kind abi pref) (hk : KindText kind t) : TypeAlignSpec.fromStr text = tail abi pref t := by
  cases hp with
  | @aggregate t abi more hp =>
    cases hk
    rw [pieces_iff] at hp
    unfold TypeAlignSpec.fromStr TypeAlignSpec.parseAggregate
    dsimp only
    rw [sliceFrom1_ascii _ _ (by decide), Out.ok_bind, if_pos rfl]
    dsimp only
    rw [if_pos rfl, hp]
    dsimp only
    rw [← List.head?_eq_getElem?]
    rfl
  | @sized c t width abi more hc hp =>
    rw [pieces_iff] at hp
    have ha : c.toNat < 128 := by rcases hc with rfl | rfl | rfl <;> decide
    have hca : c ≠ 'a' := by rcases hc with rfl | rfl | rfl <;> decide
    unfold TypeAlignSpec.fromStr TypeAlignSpec.parseOther
    dsimp only
    rw [sliceFrom1_ascii _ _ (utf8Size_ascii c ha), Out.ok_bind, if_neg hca, hp]
    dsimp only
    rw [← List.head?_eq_getElem?]
    have key : ∀ w, WidthText width w → ∃ v, (parseU32 width).mapErr (fun e => AlignSpecError.parse e.text) = .ok v ∧
        (AlignedTypeWidth.tryFrom v).mapErr AlignSpecError.badTypeWidth = .ok w := by
      intro w hw
      obtain ⟨v, h1, h2⟩ := (width_iff _ _).1 hw
      exact ⟨v, Out.mapErr_eq_ok.2 ((parseU32_iff _ _).2 h1), Out.mapErr_eq_ok.2 h2⟩
    cases hk with
    | integer hw => obtain ⟨v, h1, h2⟩ := key _ hw; rw [h1, Out.ok_bind, h2, Out.ok_bind]; rfl
    | vector hw => obtain ⟨v, h1, h2⟩ := key _ hw; rw [h1, Out.ok_bind, h2, Out.ok_bind]; rfl
    | float hw => obtain ⟨v, h1, h2⟩ := key _ hw; rw [h1, Out.ok_bind, h2, Out.ok_bind]; rfl

private theorem typeFromStr_iff (text : Str) (s : TypeAlignSpec) (hc : ∀ c ∈ text.head?, c.toNat < 128) :
    TypeAlignSpec.fromStr text = .ok s ↔ TypeText text s := by
  match text with
  | [] =>
    constructor
    · intro h
      cases h
    · rintro ⟨_, _, _, h, -⟩
      cases h
  | c :: t =>
    unfold TypeAlignSpec.fromStr
    dsimp only
    rw [sliceFrom1_ascii _ _ (utf8Size_ascii c (hc c rfl)), Out.ok_bind]
    by_cases ha : c = 'a'
    · subst ha
      rw [if_pos rfl]
      unfold TypeAlignSpec.parseAggregate
      match t with
      | [] =>
        constructor
        · intro h
          cases h
        · rintro ⟨_, _, _, h, -⟩
          cases h with
          | sized h => exact absurd h (by decide)
      | c' :: t =>
        dsimp only
        by_cases hcol : c' = ':'
        · subst hcol
          rw [if_pos rfl]
          match hsp : split ':' t with
          | [] => exact absurd hsp (split_ne_nil _ _)
          | p0 :: ps =>
            dsimp only
            rw [tail_iff]
            constructor
            · rintro ⟨h1, h2⟩
              refine ⟨none, p0, ps.head?, .aggregate ((pieces_iff _ _ _).2 hsp), ?_, h2⟩
              rw [← h1]
              exact .aggregate
            · rintro ⟨kind, abi, pref, h, hk, h2⟩
              cases h with
              | sized h => exact absurd h (by decide)
              | aggregate h =>
                rw [pieces_iff, hsp] at h
                cases h
                cases hs : s.alignedType with
                | aggregate => exact ⟨rfl, h2⟩
                | _ => rw [hs] at hk; cases hk
        · rw [if_neg hcol]
          constructor
          · intro h
            cases h
          · rintro ⟨_, _, _, h, -⟩
            cases h with
            | sized h => exact absurd h (by decide)
            | aggregate h => exact absurd rfl hcol
    · rw [if_neg ha]
      unfold TypeAlignSpec.parseOther
      match hsp : split ':' t with
      | [] => exact absurd hsp (split_ne_nil _ _)
      | [p] =>
        dsimp only
        constructor
        · intro h
          cases h
        · rintro ⟨_, _, _, h, -⟩
          cases h with
          | aggregate h => exact absurd rfl ha
          | sized _ h =>
            rw [pieces_iff, hsp] at h
            cases h
      | p0 :: p1 :: ps =>
        dsimp only
        constructor
        · intro h
          obtain ⟨v, hv, h⟩ := Out.bind_eq_ok.1 h
          obtain ⟨w, hw, h⟩ := Out.bind_eq_ok.1 h
          have hw : WidthText p0 w := (width_iff _ _).2 ⟨v, (parseU32_iff _ _).1 (Out.mapErr_eq_ok.1 hv),
            Out.mapErr_eq_ok.1 hw⟩
          have hpc := (pieces_iff _ _ _).2 hsp
          have key : ∀ ty, KindText (some (c, p0)) ty → (c = 'i' ∨ c = 'v' ∨ c = 'f') →
              (do
                let a ← parseAbi p1
                let p ← parsePref a ps[0]?
                TypeAlignSpec.new ty a p : Out AlignSpecError TypeAlignSpec) = .ok s → TypeText (c :: t) s := by
            intro ty hty hc h
            obtain ⟨h1, h2⟩ := (tail_iff _ _ _ _).1 h
            exact ⟨_, _, _, .sized hc hpc, h1 ▸ hty, h2⟩
          by_cases hi : c = 'i'
          · subst hi
            exact key _ (.integer hw) (by decide) h
          · by_cases hv : c = 'v'
            · subst hv
              exact key _ (.vector hw) (by decide) h
            · by_cases hf : c = 'f'
              · subst hf
                exact key _ (.float hw) (by decide) h
              · obtain ⟨_, _, h⟩ := Out.bind_eq_ok.1 h
                obtain ⟨_, _, h⟩ := Out.bind_eq_ok.1 h
                rw [if_neg hi, if_neg hv, if_neg hf] at h
                cases h
        · rintro ⟨kind, abi, pref, h, hk, h2⟩
          cases h with
          | aggregate h => exact absurd rfl ha
          | sized hc h =>
            rw [pieces_iff, hsp] at h
            cases h
            have key : ∀ (ty : AlignedTypeWidth → AlignedType) w, WidthText p0 w → s.alignedType = ty w →
                (do
                  let bs ← (parseU32 p0).mapErr fun e => AlignSpecError.parse e.text
                  let bitsize ← (AlignedTypeWidth.tryFrom bs).mapErr .badTypeWidth
                  let a ← parseAbi p1
                  let p ← parsePref a ps[0]?
                  TypeAlignSpec.new (ty bitsize) a p : Out AlignSpecError TypeAlignSpec) = .ok s := by
              intro ty w hw hty
              obtain ⟨v, hv, hw⟩ := (width_iff _ _).1 hw
              rw [(parseU32_iff _ _).2 hv]
              show ((AlignedTypeWidth.tryFrom v).mapErr _ >>= _) = _
              rw [hw]
              exact (tail_iff _ _ _ _).2 ⟨hty.symm, h2⟩
            generalize hs : s.alignedType = ty at hk
            cases hk with
            | integer hw => exact key _ _ hw hs
            | vector hw => exact key _ _ hw hs
            | float hw => exact key _ _ hw hs

private theorem onePart_message (c : Char) (p : Str) :
    "wrong number of alignment parameters for spec '".toList ++ c :: "': expected at least 2, got ".toList ++
      decimal [p].length = "wrong number of alignment parameters for spec '".toList ++ [c] ++
      "': expected at least 2, got 1".toList := by
  have h : "': expected at least 2, got 1".toList = "': expected at least 2, got ".toList ++ decimal 1 := by decide +kernel
  rw [h]
  simp

private theorem typeFromStr_err (c : Char) (t : Str) (e : AlignSpecError) (hc : c = 'i' ∨ c = 'v' ∨ c = 'f' ∨ c = 'a')
    (h : TypeAlignSpec.fromStr (c :: t) = .err e) : TypeFault (c :: t) e := by
  have ha : c.toNat < 128 := by rcases hc with rfl | rfl | rfl | rfl <;> decide
  unfold TypeAlignSpec.fromStr at h
  dsimp only at h
  rw [sliceFrom1_ascii _ _ (utf8Size_ascii c ha), Out.ok_bind] at h
  by_cases ha : c = 'a'
  · subst ha
    rw [if_pos rfl] at h
    unfold TypeAlignSpec.parseAggregate at h
    match t with
    | [] =>
      cases h
      exact .nothingAggregate
    | c' :: t =>
      dsimp only at h
      by_cases hcol : c' = ':'
      · subst hcol
        rw [if_pos rfl] at h
        match hsp : split ':' t with
        | [] => exact absurd hsp (split_ne_nil _ _)
        | p0 :: ps =>
          rw [hsp] at h
          dsimp only at h
          rw [← List.head?_eq_getElem?] at h
          exact tail_err (.aggregate ((pieces_iff _ _ _).2 hsp)) .aggregate h
      · rw [if_neg hcol] at h
        cases h
        exact .noColon hcol
  · rw [if_neg ha] at h
    have hc : c = 'i' ∨ c = 'v' ∨ c = 'f' := by
      rcases hc with h | h | h | h
      · exact .inl h
      · exact .inr (.inl h)
      · exact .inr (.inr h)
      · exact absurd h ha
    unfold TypeAlignSpec.parseOther at h
    match hsp : split ':' t with
    | [] => exact absurd hsp (split_ne_nil _ _)
    | [p] =>
      rw [hsp] at h
      cases h
      obtain ⟨_, h2, h3⟩ := (pieces_iff _ _ _).2 hsp
      rw [onePart_message]
      refine .onePart hc ?_
      rw [← h3]
      simpa using h2
    | p0 :: p1 :: ps =>
      rw [hsp] at h
      dsimp only at h
      have hp : TypeParts (c :: t) (some (c, p0)) p1 ps.head? := .sized hc ((pieces_iff _ _ _).2 hsp)
      rcases bind_eq_err.1 h with h | ⟨v, hv, h⟩
      · obtain ⟨i, h1, rfl⟩ := mapErr_eq_err.1 h
        exact .widthNumber hp ((parseU32_err _ _).1 h1)
      · have hv := (parseU32_iff _ _).1 (Out.mapErr_eq_ok.1 hv)
        rcases bind_eq_err.1 h with h | ⟨w, hw, h⟩
        · obtain ⟨i, h1, rfl⟩ := mapErr_eq_err.1 h
          obtain ⟨rfl, h2⟩ := width_err.1 h1
          exact .width hp hv h2
        · have hw := (width_iff _ _).2 ⟨v, hv, Out.mapErr_eq_ok.1 hw⟩
          rw [← List.head?_eq_getElem?] at h
          rcases hc with rfl | rfl | rfl
          · exact tail_err hp (.integer hw) h
          · exact tail_err hp (.vector hw) h
          · exact tail_err hp (.float hw) h

private theorem typeFromStr_fault (text : Str) (e : AlignSpecError) (h : TypeFault text e) :
    TypeAlignSpec.fromStr text = .err e := by
  have hwidth : ∀ {c width abi pref}, TypeParts text (some (c, width)) abi pref →
      ((do
        let v ← (parseU32 width).mapErr fun e => AlignSpecError.parse e.text
        (AlignedTypeWidth.tryFrom v).mapErr .badTypeWidth : Out AlignSpecError AlignedTypeWidth) = .err e) →
      TypeAlignSpec.fromStr text = .err e := by
    intro c width abi pref hp hw
    cases hp with
    | @sized c t width abi more hc hp =>
      rw [pieces_iff] at hp
      have ha : c.toNat < 128 := by rcases hc with rfl | rfl | rfl <;> decide
      have hca : c ≠ 'a' := by rcases hc with rfl | rfl | rfl <;> decide
      unfold TypeAlignSpec.fromStr TypeAlignSpec.parseOther
      dsimp only
      rw [sliceFrom1_ascii _ _ (utf8Size_ascii c ha), Out.ok_bind, if_neg hca, hp]
      dsimp only
      rw [bind_eq_err] at hw ⊢
      rcases hw with h | ⟨v, h1, h2⟩
      · exact .inl h
      · exact .inr ⟨v, h1, bind_eq_err.2 (.inl h2)⟩
  cases h with
  | nothingAggregate => rfl
  | @noColon c t h =>
    unfold TypeAlignSpec.fromStr TypeAlignSpec.parseAggregate
    dsimp only
    rw [sliceFrom1_ascii _ _ (by decide), Out.ok_bind, if_pos rfl]
    dsimp only
    rw [if_neg h]
  | @onePart c t hc h =>
    have ha : c.toNat < 128 := by rcases hc with rfl | rfl | rfl <;> decide
    have hca : c ≠ 'a' := by rcases hc with rfl | rfl | rfl <;> decide
    unfold TypeAlignSpec.fromStr TypeAlignSpec.parseOther
    dsimp only
    rw [sliceFrom1_ascii _ _ (utf8Size_ascii c ha), Out.ok_bind, if_neg hca,
      (pieces_iff ':' t [t]).1 ⟨by simp, by simpa using h, by simp⟩]
    exact congrArg (fun m => Out.err (AlignSpecError.parse m)) (onePart_message c t)
  | widthNumber hp h =>
    exact hwidth hp (bind_eq_err.2 (.inl (mapErr_eq_err.2 ⟨_, (parseU32_err _ _).2 h, rfl⟩)))
  | width hp h1 h2 =>
    exact hwidth hp (bind_eq_err.2 (.inr ⟨_, Out.mapErr_eq_ok.2 ((parseU32_iff _ _).2 h1),
      mapErr_eq_err.2 ⟨_, width_err.2 ⟨rfl, h2⟩, rfl⟩⟩))
  | abiNumber hp hk h =>
    rw [fromStr_tail hp hk]
    exact bind_eq_err.2 (.inl ((parseAbi_err _ _).2 (.inl ⟨_, rfl, h⟩)))
  | abi hp hk h =>
    rw [fromStr_tail hp hk]
    exact bind_eq_err.2 (.inl ((parseAbi_err _ _).2 (.inr ⟨_, rfl, h⟩)))
  | prefNumber hp hk ha h =>
    rw [fromStr_tail hp hk]
    exact bind_eq_err.2 (.inr ⟨_, (parseAbi_iff _ _).2 ha,
      bind_eq_err.2 (.inl ((parsePref_err _ _ _).2 ⟨_, rfl, .inl ⟨_, rfl, h⟩⟩))⟩)
  | pref hp hk ha h =>
    rw [fromStr_tail hp hk]
    exact bind_eq_err.2 (.inr ⟨_, (parseAbi_iff _ _).2 ha,
      bind_eq_err.2 (.inl ((parsePref_err _ _ _).2 ⟨_, rfl, .inr ⟨_, rfl, h⟩⟩))⟩)
  | prefBelowAbi hp hk ha hpp h =>
    rw [fromStr_tail hp hk]
    exact bind_eq_err.2 (.inr ⟨_, (parseAbi_iff _ _).2 ha, bind_eq_err.2 (.inr ⟨_, (parsePref_iff _ _ _).2 hpp,
      (typeNew_err _ _ _ _).2 (.inl ⟨rfl, h⟩)⟩)⟩)
  | tooLarge hp hk ha hpp h1 h2 =>
    rw [fromStr_tail hp hk]
    exact bind_eq_err.2 (.inr ⟨_, (parseAbi_iff _ _).2 ha, bind_eq_err.2 (.inr ⟨_, (parsePref_iff _ _ _).2 hpp,
      (typeNew_err _ _ _ _).2 (.inr ⟨rfl, h1, h2⟩)⟩)⟩)

/-! ## Specs of pointers -/

private theorem parseSpace_iff (s : Str) (a : AddressSpace) :
    PointerAlignSpec.parseAddressSpace s = .ok a ↔ SpaceOrNothing s a := by
  match s with
  | [] =>
    constructor
    · intro h
      exact .inl ⟨rfl, (Out.ok.inj h).symm⟩
    · rintro (⟨-, rfl⟩ | ⟨h, -⟩)
      · rfl
      · exact absurd rfl h
  | c :: t =>
    unfold PointerAlignSpec.parseAddressSpace
    simp only [Out.bind_eq_ok, Out.mapErr_eq_ok, parseU32_iff]
    rw [← space_iff]
    constructor
    · intro h
      exact .inr ⟨by simp, h⟩
    · rintro (⟨h, -⟩ | ⟨-, h⟩)
      · cases h
      · exact h

private theorem parseIndex_iff (size : U64) (s : Option Str) (v : U64) :
    PointerAlignSpec.parseIndex size s = .ok v ↔ Given NumberText size s v := by
  cases s with
  | none =>
    constructor
    · intro h
      exact (Out.ok.inj h).symm
    · intro h
      have h : v = size := h
      rw [h]
      rfl
  | some s =>
    unfold PointerAlignSpec.parseIndex
    rw [Out.mapErr_eq_ok, parseU64_iff]
    exact Iff.rfl

private theorem pointerFromStr_iff (t : Str) (s : PointerAlignSpec) :
    PointerAlignSpec.fromStr ('p' :: t) = .ok s ↔ PointerText ('p' :: t) s := by
  unfold PointerAlignSpec.fromStr
  dsimp only
  rw [sliceFrom1_ascii _ _ (utf8Size_ascii 'p' (by decide)), Out.ok_bind]
  match hsp : split ':' t with
  | [] => exact absurd hsp (split_ne_nil _ _)
  | [_] | [_, _] =>
    constructor
    · intro h
      cases h
    · rintro ⟨_, _, _, _, _, h, h1, -⟩
      cases h
      rw [pieces_iff, hsp] at h1
      cases h1
  | p0 :: p1 :: p2 :: ps =>
    dsimp only
    simp only [Out.bind_eq_ok, Out.mapErr_eq_ok, parseSpace_iff, parseU64_iff, parseAbi_iff, parsePref_iff,
      parseIndex_iff]
    constructor
    · rintro ⟨a, h1, n, h2, abi, h3, pref, h4, idx, h5, h6⟩
      cases h6
      exact ⟨t, p0, p1, p2, ps, rfl, (pieces_iff _ _ _).2 hsp, h1, h2, h3, h4, h5⟩
    · rintro ⟨t', _, _, _, _, h, h1, h2⟩
      cases h
      rw [pieces_iff, hsp] at h1
      cases h1
      obtain ⟨h2, h3, h4, h5, h6⟩ := h2
      exact ⟨_, h2, _, h3, _, h4, _, h5, _, h6, rfl⟩

private theorem pointerFromStr_err (t : Str) (e : AlignSpecError) (h : PointerAlignSpec.fromStr ('p' :: t) = .err e) :
    PointerFault ('p' :: t) e := by
  unfold PointerAlignSpec.fromStr at h
  dsimp only at h
  rw [sliceFrom1_ascii _ _ (utf8Size_ascii 'p' (by decide)), Out.ok_bind] at h
  match hsp : split ':' t with
  | [] => exact absurd hsp (split_ne_nil _ _)
  | [_] | [_, _] =>
    rw [hsp] at h
    cases h
    exact .fewParts ((pieces_iff _ _ _).2 hsp) (by simp)
  | p0 :: p1 :: p2 :: ps =>
    rw [hsp] at h
    dsimp only at h
    have hp := (pieces_iff _ _ _).2 hsp
    rcases bind_eq_err.1 h with h | ⟨a, ha, h⟩
    · match p0 with
      | [] => cases h
      | c :: u =>
        unfold PointerAlignSpec.parseAddressSpace at h
        rcases bind_eq_err.1 h with h | ⟨v, hv, h⟩
        · obtain ⟨i, h1, rfl⟩ := mapErr_eq_err.1 h
          exact .spaceNumber hp (by simp) ((parseU32_err _ _).1 h1)
        · obtain ⟨i, h1, rfl⟩ := mapErr_eq_err.1 h
          exact .space hp (space_err ((parseU32_iff _ _).1 (Out.mapErr_eq_ok.1 hv)) h1)
    · have ha := (parseSpace_iff _ _).1 ha
      rcases bind_eq_err.1 h with h | ⟨n, hn, h⟩
      · obtain ⟨i, h1, rfl⟩ := mapErr_eq_err.1 h
        exact .size hp ha ((parseU64_err _ _).1 h1)
      · have hn := (parseU64_iff _ _).1 (Out.mapErr_eq_ok.1 hn)
        rcases bind_eq_err.1 h with h | ⟨abi, habi, h⟩
        · rcases (parseAbi_err _ _).1 h with ⟨i, rfl, hi⟩ | ⟨i, rfl, hi⟩
          · exact .abiNumber hp ha hn hi
          · exact .abi hp ha hn hi
        · have habi := (parseAbi_iff _ _).1 habi
          rcases bind_eq_err.1 h with h | ⟨pref, hpref, h⟩
          · obtain ⟨s, hs, hf⟩ := (parsePref_err _ _ _).1 h
            match ps with
            | [] => cases hs
            | q :: qs =>
              cases hs
              rcases hf with ⟨i, rfl, hi⟩ | ⟨i, rfl, hi⟩
              · exact .prefNumber hp ha hn habi hi
              · exact .pref hp ha hn habi hi
          · rcases bind_eq_err.1 h with h | ⟨idx, _, h⟩
            · match ps with
              | [] | [_] => cases h
              | q :: r :: qs =>
                obtain ⟨i, h1, rfl⟩ := mapErr_eq_err.1 h
                exact .index hp ha hn habi ((parsePref_iff _ _ _).1 hpref) ((parseU64_err _ _).1 h1)
            · cases h

private theorem pointerFromStr_fault (text : Str) (e : AlignSpecError) (h : PointerFault text e) :
    PointerAlignSpec.fromStr text = .err e := by
  have hparts : ∀ {t p0 p1 p2 ps}, Pieces ':' t (p0 :: p1 :: p2 :: ps) →
      PointerAlignSpec.fromStr ('p' :: t) = (do
        let addressSpace ← PointerAlignSpec.parseAddressSpace p0
        let pointerSize ← (parseU64 p1).mapErr .badInt
        let abi ← parseAbi p2
        let pref ← parsePref abi ps[0]?
        let indexSize ← PointerAlignSpec.parseIndex pointerSize ps[1]?
        pure { addressSpace, abi, pref, pointerSize, indexSize }) := by
    intro t p0 p1 p2 ps hp
    rw [pieces_iff] at hp
    unfold PointerAlignSpec.fromStr
    dsimp only
    rw [sliceFrom1_ascii _ _ (by decide), Out.ok_bind, hp]
  have hspace : ∀ {c : Char} {u : Str}, PointerAlignSpec.parseAddressSpace (c :: u) = (do
      let n ← (parseU32 (c :: u)).mapErr .badInt
      (AddressSpace.tryFromU32 n).mapErr .badAddressSpace) := rfl
  cases h with
  | @fewParts t ps hp h =>
    rw [pieces_iff] at hp
    unfold PointerAlignSpec.fromStr
    dsimp only
    rw [sliceFrom1_ascii _ _ (by decide), Out.ok_bind, hp]
    match ps, h with
    | [], _ | [_], _ | [_, _], _ => rfl
    | _ :: _ :: _ :: _, h => simp at h; omega
  | @spaceNumber t space _ _ _ _ hp hne h =>
    rw [hparts hp]
    match space, hne with
    | c :: u, _ =>
      rw [hspace]
      exact bind_eq_err.2 (.inl (bind_eq_err.2 (.inl (mapErr_eq_err.2 ⟨_, (parseU32_err _ _).2 h, rfl⟩))))
  | @space t space _ _ _ _ hp h =>
    rw [hparts hp]
    obtain ⟨v, h1, h2⟩ := (spaceFault_iff _ _).1 h
    match space with
    | [] =>
      have := (parseU32_iff _ _).2 h1
      cases this
    | c :: u =>
      rw [hspace]
      exact bind_eq_err.2 (.inl (bind_eq_err.2 (.inr ⟨v, Out.mapErr_eq_ok.2 ((parseU32_iff _ _).2 h1),
        mapErr_eq_err.2 ⟨_, h2, rfl⟩⟩)))
  | size hp hs h =>
    rw [hparts hp, (parseSpace_iff _ _).2 hs, Out.ok_bind]
    exact bind_eq_err.2 (.inl (mapErr_eq_err.2 ⟨_, (parseU64_err _ _).2 h, rfl⟩))
  | abiNumber hp hs hn h =>
    rw [hparts hp, (parseSpace_iff _ _).2 hs, Out.ok_bind, (parseU64_iff _ _).2 hn, Out.mapErr_ok, Out.ok_bind]
    exact bind_eq_err.2 (.inl ((parseAbi_err _ _).2 (.inl ⟨_, rfl, h⟩)))
  | abi hp hs hn h =>
    rw [hparts hp, (parseSpace_iff _ _).2 hs, Out.ok_bind, (parseU64_iff _ _).2 hn, Out.mapErr_ok, Out.ok_bind]
    exact bind_eq_err.2 (.inl ((parseAbi_err _ _).2 (.inr ⟨_, rfl, h⟩)))
  | prefNumber hp hs hn ha h =>
    rw [hparts hp, (parseSpace_iff _ _).2 hs, Out.ok_bind, (parseU64_iff _ _).2 hn, Out.mapErr_ok, Out.ok_bind,
      (parseAbi_iff _ _).2 ha, Out.ok_bind]
    exact bind_eq_err.2 (.inl ((parsePref_err _ _ _).2 ⟨_, rfl, .inl ⟨_, rfl, h⟩⟩))
  | pref hp hs hn ha h =>
    rw [hparts hp, (parseSpace_iff _ _).2 hs, Out.ok_bind, (parseU64_iff _ _).2 hn, Out.mapErr_ok, Out.ok_bind,
      (parseAbi_iff _ _).2 ha, Out.ok_bind]
    exact bind_eq_err.2 (.inl ((parsePref_err _ _ _).2 ⟨_, rfl, .inr ⟨_, rfl, h⟩⟩))
  | @index t space size abi pref _ _ _ _ a p _ hp hs hn ha hpp h =>
    rw [hparts hp, (parseSpace_iff _ _).2 hs, Out.ok_bind, (parseU64_iff _ _).2 hn, Out.mapErr_ok, Out.ok_bind,
      (parseAbi_iff _ _).2 ha, Out.ok_bind]
    refine bind_eq_err.2 (.inr ⟨p, (parsePref_iff _ _ _).2 (show Given AlignText a (some pref) p from hpp), ?_⟩)
    exact bind_eq_err.2 (.inl (mapErr_eq_err.2 ⟨_, (parseU64_err _ _).2 h, rfl⟩))

/-! ## Tables -/

private theorem putType_iff (l : TypeAlignSpecs) (s : TypeAlignSpec) (l' : TypeAlignSpecs)
    (hl : l.Pairwise fun a b => TypeBefore a.alignedType b.alignedType) :
    PutType l s l' ↔ TypeAlignSpecs.update l s = l' := by
  obtain ⟨pre, post, old, h1, h2, h3, h4, h5⟩ := update_cases l s hl
  have hold : ∀ x ∈ old, x.alignedType = s.alignedType := by
    rcases h3 with rfl | ⟨o, rfl, ho⟩
    · simp
    · simpa using ho
  constructor
  · rintro ⟨pre', old', post', h1', rfl, h4', h3', h5'⟩
    rw [h2]
    have hpre : ∀ (pre pre' : TypeAlignSpecs) (r r' : TypeAlignSpecs), pre ++ r = pre' ++ r' →
        (∀ x ∈ pre, TypeBefore x.alignedType s.alignedType) → (∀ x ∈ pre', TypeBefore x.alignedType s.alignedType) →
        (∀ x ∈ r, ¬ TypeBefore x.alignedType s.alignedType) → (∀ x ∈ r', ¬ TypeBefore x.alignedType s.alignedType) →
        pre = pre' ∧ r = r' := by
      intro pre
      induction pre with
      | nil =>
        intro pre' r r' h _ h1 h2 _
        match pre' with
        | [] => exact ⟨rfl, h⟩
        | x :: xs =>
          have h : r = x :: (xs ++ r') := h
          exact absurd (h1 x (by simp)) (h2 x (by rw [h]; simp))
      | cons x xs ih =>
        intro pre' r r' h h0 h1 h2 h3
        match pre' with
        | [] =>
          have h : x :: (xs ++ r) = r' := h
          exact absurd (h0 x (by simp)) (h3 x (by rw [← h]; simp))
        | y :: ys =>
          obtain ⟨rfl, h'⟩ := List.cons.inj h
          obtain ⟨rfl, rfl⟩ := ih ys r r' h' (fun x hx => h0 x (by simp [hx])) (fun x hx => h1 x (by simp [hx])) h2 h3
          exact ⟨rfl, rfl⟩
    have hpost : ∀ (o o' p p' : TypeAlignSpecs), o ++ p = o' ++ p' → (∀ x ∈ o, x.alignedType = s.alignedType) →
        (∀ x ∈ o', x.alignedType = s.alignedType) → (∀ x ∈ p, TypeBefore s.alignedType x.alignedType) →
        (∀ x ∈ p', TypeBefore s.alignedType x.alignedType) → p = p' := by
      intro o
      induction o with
      | nil =>
        intro o' p p' h _ h1 h2 _
        match o' with
        | [] => exact h
        | x :: xs =>
          have h : p = x :: (xs ++ p') := h
          have := h2 x (by rw [h]; simp)
          rw [h1 x (by simp)] at this
          exact absurd this (typeBefore_irrefl _)
      | cons x xs ih =>
        intro o' p p' h h0 h1 h2 h3
        match o' with
        | [] =>
          have h : x :: (xs ++ p) = p' := h
          have := h3 x (by rw [← h]; simp)
          rw [h0 x (by simp)] at this
          exact absurd this (typeBefore_irrefl _)
        | y :: ys =>
          obtain ⟨rfl, h'⟩ := List.cons.inj h
          exact ih ys p p' h' (fun x hx => h0 x (by simp [hx])) (fun x hx => h1 x (by simp [hx])) h2 h3
    have hno : ∀ (o p : TypeAlignSpecs), (∀ x ∈ o, x.alignedType = s.alignedType) →
        (∀ x ∈ p, TypeBefore s.alignedType x.alignedType) →
        ∀ x ∈ o ++ p, ¬ TypeBefore x.alignedType s.alignedType := by
      intro o p ho hp x hx hb
      rcases List.mem_append.1 hx with hx | hx
      · rw [ho x hx] at hb
        exact typeBefore_irrefl _ hb
      · exact typeBefore_irrefl _ (typeBefore_trans hb (hp x hx))
    rw [h1, List.append_assoc, List.append_assoc] at h1'
    obtain ⟨rfl, h6⟩ := hpre _ _ _ _ h1' h4 h4' (hno _ _ hold h5) (hno _ _ h3' h5')
    rw [hpost _ _ _ _ h6 hold h3' h5 h5']
  · rintro rfl
    exact ⟨pre, old, post, h1, h2, h4, hold, h5⟩

private theorem putPointer_iff (l : PointerAlignSpecs) (s : PointerAlignSpec) (l' : PointerAlignSpecs)
    (hl : l.Pairwise fun a b => a.addressSpace.val ≤ b.addressSpace.val) :
    PutPointer l s l' ↔ PointerAlignSpecs.update l s = l' := by
  have hput : PutPointer l s (PointerAlignSpecs.update l s) := by
    obtain ⟨pre, post, old, h1, h2, h3, h4, h5⟩ := pupdate_cases l s hl
    rcases h3 with ⟨rfl, h3⟩ | rfl
    · refine ⟨pre, post, by simpa using h1, h4, h5, .inr ⟨?_, h2⟩⟩
      intro hlast
      obtain ⟨pre', hpre'⟩ := List.getLast?_eq_some_iff.1 hlast
      exact h3 pre' s hpre' rfl
    · refine ⟨pre ++ [s], post, h1, ?_, h5, .inl ⟨by simp, ?_⟩⟩
      · intro x hx
        rcases List.mem_append.1 hx with hx | hx
        · exact h4 x hx
        · rw [List.mem_singleton.1 hx]
          exact BitVec.le_refl _
      · rw [h2, h1]
        simp
  constructor
  · rintro ⟨pre', post', h1', h4', h5', h6'⟩
    obtain ⟨pre, post, h1, h4, h5, h6⟩ := hput
    have hpre : ∀ (pre pre' : PointerAlignSpecs) (r r' : PointerAlignSpecs), pre ++ r = pre' ++ r' →
        (∀ x ∈ pre, x.addressSpace.val ≤ s.addressSpace.val) → (∀ x ∈ pre', x.addressSpace.val ≤ s.addressSpace.val) →
        (∀ x ∈ r, s.addressSpace.val < x.addressSpace.val) → (∀ x ∈ r', s.addressSpace.val < x.addressSpace.val) →
        pre = pre' ∧ r = r' := by
      intro pre
      induction pre with
      | nil =>
        intro pre' r r' h _ h1 h2 _
        match pre' with
        | [] => exact ⟨rfl, h⟩
        | x :: xs =>
          have h : r = x :: (xs ++ r') := h
          exact absurd (h1 x (by simp)) (BitVec.not_le.2 (h2 x (by rw [h]; simp)))
      | cons x xs ih =>
        intro pre' r r' h h0 h1 h2 h3
        match pre' with
        | [] =>
          have h : x :: (xs ++ r) = r' := h
          exact absurd (h0 x (by simp)) (BitVec.not_le.2 (h3 x (by rw [← h]; simp)))
        | y :: ys =>
          obtain ⟨rfl, h'⟩ := List.cons.inj h
          obtain ⟨rfl, rfl⟩ := ih ys r r' h' (fun x hx => h0 x (by simp [hx])) (fun x hx => h1 x (by simp [hx])) h2 h3
          exact ⟨rfl, rfl⟩
    obtain ⟨rfl, rfl⟩ := hpre _ _ _ _ (h1.symm.trans h1') h4 h4' h5 h5'
    rcases h6 with ⟨h7, h8⟩ | ⟨h7, h8⟩ <;> rcases h6' with ⟨h7', h8'⟩ | ⟨h7', h8'⟩
    · rw [h8, h8']
    · exact absurd h7 h7'
    · exact absurd h7' h7
    · rw [h8, h8']
  · rintro rfl
    exact hput

/-! ## Single specs -/

private theorem collect_iff {β ε : Type} (f : Str → Out ε β) (P : Str → β → Prop) (hf : ∀ s b, f s = .ok b ↔ P s b)
    (l : List Str) (bs : List β) : collect f l = .ok bs ↔ AllSay P l bs := by
  induction l generalizing bs with
  | nil =>
    constructor
    · intro h
      cases h
      exact .nil
    · rintro ⟨⟩
      rfl
  | cons s l ih =>
    rw [collect]
    simp only [Out.bind_eq_ok, hf, ih]
    constructor
    · rintro ⟨b, h1, bs', h2, h3⟩
      cases h3
      exact .cons h1 h2
    · intro h
      cases h with
      | cons h1 h2 => exact ⟨_, h1, _, h2, rfl⟩

private theorem collect_err {β ε : Type} (f : Str → Out ε β) (P : Str → β → Prop) (hf : ∀ s b, f s = .ok b ↔ P s b)
    (l : List Str) (e : ε) :
    collect f l = .err e ↔ ∃ good p rest bs, l = good ++ p :: rest ∧ AllSay P good bs ∧ f p = .err e := by
  induction l with
  | nil =>
    constructor
    · intro h
      cases h
    · rintro ⟨good, p, rest, bs, h, -⟩
      cases good <;> cases h
  | cons s l ih =>
    rw [collect]
    constructor
    · intro h
      rcases bind_eq_err.1 h with h | ⟨b, hb, h⟩
      · exact ⟨[], s, l, [], rfl, .nil, h⟩
      · rcases bind_eq_err.1 h with h | ⟨bs, _, h⟩
        · obtain ⟨good, p, rest, bs, rfl, h1, h2⟩ := ih.1 h
          exact ⟨s :: good, p, rest, b :: bs, rfl, .cons ((hf _ _).1 hb) h1, h2⟩
        · cases h
    · rintro ⟨good, p, rest, bs, h, h1, h2⟩
      cases h1 with
      | nil =>
        cases h
        exact bind_eq_err.2 (.inl h2)
      | cons h3 h4 =>
        cases h
        exact bind_eq_err.2 (.inr ⟨_, (hf _ _).2 h3, bind_eq_err.2 (.inl (ih.2 ⟨_, _, _, _, rfl, h4, h2⟩))⟩)

private theorem manglingKind_iff (c : Char) (m : Mangling) : manglingKind c = .ok m ↔ ManglingLetter c m := by
  constructor
  · intro h
    unfold manglingKind at h
    repeat' split at h
    all_goals first
      | (subst_vars; cases h; constructor)
      | cases h
  · rintro ⟨⟩ <;> rfl

private theorem manglingKind_err (c : Char) (e : DataLayoutError) (h : manglingKind c = .err e) :
    e = .badSpecParse ("unknown mangling kind in spec: ".toList ++ [c]) := by
  unfold manglingKind at h
  repeat' split at h
  all_goals cases h
  rfl

private theorem manglingKind_fault (c : Char) (h : ∀ m, ¬ ManglingLetter c m) :
    manglingKind c = .err (.badSpecParse ("unknown mangling kind in spec: ".toList ++ [c])) := by
  cases hm : manglingKind c with
  | ok m => exact absurd ((manglingKind_iff _ _).1 hm) (h m)
  | err e => rw [manglingKind_err _ _ hm]
  | panic _ | diverge =>
    unfold manglingKind at hm
    repeat' split at hm
    all_goals cases hm

private theorem nonIntegral_iff (s : Str) (a : AddressSpace) :
    parseNonIntegral s = .ok a ↔ SpaceText s a ∧ a.val ≠ 0 := by
  unfold parseNonIntegral
  simp only [Out.bind_eq_ok, parseAS_iff]
  constructor
  · rintro ⟨b, h1, h2⟩
    split at h2
    · cases h2
    · rename_i hne
      cases h2
      refine ⟨h1, fun h => hne ?_⟩
      cases a
      cases h
      rfl
  · rintro ⟨h1, h2⟩
    refine ⟨a, h1, ?_⟩
    rw [if_neg]
    · rfl
    · rintro rfl
      exact h2 rfl

private theorem nonIntegral_err (s : Str) (e : DataLayoutError) : parseNonIntegral s = .err e ↔ NonIntegralFault s e := by
  unfold parseNonIntegral
  rw [bind_eq_err, parseAS_err]
  constructor
  · rintro ((⟨i, rfl, h⟩ | ⟨i, rfl, h⟩) | ⟨a, ha, h⟩)
    · exact .number h
    · exact .space h
    · split at h
      · rename_i h0
        cases h
        subst h0
        exact .zero ((parseAS_iff _ _).1 ha).1
      · cases h
  · intro h
    cases h with
    | number h => exact .inl (.inl ⟨_, rfl, h⟩)
    | space h => exact .inl (.inr ⟨_, rfl, h⟩)
    | zero h => exact .inr ⟨⟨0⟩, (parseAS_iff _ _).2 ⟨h, by decide⟩, rfl⟩

private theorem parseWidth_iff (s : Str) (v : U32) : parseWidth s = .ok v ↔ NumberText s v := by
  unfold parseWidth
  rw [Out.mapErr_eq_ok, parseU32_iff]

private def Sorted (d : DataLayout) : Prop :=
  (d.typeAlignments.Pairwise fun a b => TypeBefore a.alignedType b.alignedType) ∧
    d.pointerAlignments.Pairwise fun a b => a.addressSpace.val ≤ b.addressSpace.val

private theorem sorted_default : Sorted .default := by
  constructor
  · exact (C34_sorted_map [] TypeAlignSpecs.default rfl).1
  · exact (C35_sorted_last_partial [] PointerAlignSpecs.default rfl).1

private theorem says_letter {c : Char} {t : Str} {d d' : DataLayout} (h : SpecSays (c :: t) d d') :
    c ∈ "eESPGApivfaFmn".toList := by
  cases h with
  | pointer h => obtain ⟨_, _, _, _, _, h, -⟩ := h; cases h; decide
  | type h =>
    obtain ⟨_, _, _, h, -⟩ := h
    cases h with
    | aggregate => decide
    | sized h => rcases h with rfl | rfl | rfl <;> decide
  | _ => decide

private theorem not_type {c : Char} {t : Str} {s : TypeAlignSpec} (h : TypeText (c :: t) s) :
    c = 'i' ∨ c = 'v' ∨ c = 'f' ∨ c = 'a' := by
  obtain ⟨_, _, _, h, -⟩ := h
  cases h with
  | aggregate => exact .inr (.inr (.inr rfl))
  | sized h =>
    rcases h with h | h | h
    · exact .inl h
    · exact .inr (.inl h)
    · exact .inr (.inr (.inl h))

private theorem not_pointer {c : Char} {t : Str} {s : PointerAlignSpec} (h : PointerText (c :: t) s) : c = 'p' := by
  obtain ⟨_, _, _, _, _, h, -⟩ := h
  exact (List.cons.inj h).1

/-- A spec that is about one field: it is accepted if and only if what follows the letter says what the field
becomes. -/
private theorem field_iff {α : Type} {x : Out DataLayoutError α} {P : α → Prop} (hx : ∀ a, x = .ok a ↔ P a)
    (upd : α → DataLayout) (d' : DataLayout) :
    (x >>= fun a => pure (upd a) : Out DataLayoutError DataLayout) = .ok d' ↔ ∃ a, P a ∧ upd a = d' := by
  simp only [Out.bind_eq_ok, hx]
  constructor
  · rintro ⟨a, h1, h2⟩
    exact ⟨a, h1, Out.ok.inj h2⟩
  · rintro ⟨a, h1, rfl⟩
    exact ⟨a, h1, rfl⟩

private theorem applySpec_iff (s : Str) (d d' : DataLayout) (hs : ∀ c ∈ s, c.toNat < 128) (hd : Sorted d) :
    applySpec d s = .ok d' ↔ SpecSays s d d' := by
  match s with
  | [] =>
    constructor
    · intro h
      cases h
    · intro h
      cases h with
      | pointer h => obtain ⟨_, _, _, _, _, h, -⟩ := h; cases h
      | type h => obtain ⟨_, _, _, h, -⟩ := h; cases h
  | c :: t =>
    unfold applySpec
    dsimp only
    rw [sliceFrom1_ascii _ _ (utf8Size_ascii c (hs c (by simp))), Out.ok_bind]
    by_cases h1 : c = 'e'
    · subst h1
      rw [if_pos rfl]
      constructor
      · intro h
        cases h
        exact .little
      · intro h
        cases h with
        | little => rfl
        | pointer h => exact absurd (not_pointer h) (by decide)
        | type h => exact absurd (not_type h) (by decide)
    rw [if_neg h1]
    by_cases h2 : c = 'E'
    · subst h2
      rw [if_pos rfl]
      constructor
      · intro h
        cases h
        exact .big
      · intro h
        cases h with
        | big => rfl
        | pointer h => exact absurd (not_pointer h) (by decide)
        | type h => exact absurd (not_type h) (by decide)
    rw [if_neg h2]
    by_cases h3 : c = 'S'
    · subst h3
      rw [if_pos rfl, field_iff (parseBitAlign_iff t)]
      constructor
      · rintro ⟨a, h, rfl⟩
        exact .stack h
      · intro h
        cases h with
        | stack h => exact ⟨_, h, rfl⟩
        | pointer h => exact absurd (not_pointer h) (by decide)
        | type h => exact absurd (not_type h) (by decide)
    rw [if_neg h3]
    by_cases h4 : c = 'P'
    · subst h4
      rw [if_pos rfl, field_iff (parseAS_iff t)]
      constructor
      · rintro ⟨a, h, rfl⟩
        exact .program h
      · intro h
        cases h with
        | program h => exact ⟨_, h, rfl⟩
        | pointer h => exact absurd (not_pointer h) (by decide)
        | type h => exact absurd (not_type h) (by decide)
    rw [if_neg h4]
    by_cases h5 : c = 'G'
    · subst h5
      rw [if_pos rfl, field_iff (parseAS_iff t)]
      constructor
      · rintro ⟨a, h, rfl⟩
        exact .globals h
      · intro h
        cases h with
        | globals h => exact ⟨_, h, rfl⟩
        | pointer h => exact absurd (not_pointer h) (by decide)
        | type h => exact absurd (not_type h) (by decide)
    rw [if_neg h5]
    by_cases h6 : c = 'A'
    · subst h6
      rw [if_pos rfl, field_iff (parseAS_iff t)]
      constructor
      · rintro ⟨a, h, rfl⟩
        exact .alloca h
      · intro h
        cases h with
        | alloca h => exact ⟨_, h, rfl⟩
        | pointer h => exact absurd (not_pointer h) (by decide)
        | type h => exact absurd (not_type h) (by decide)
    rw [if_neg h6]
    by_cases h7 : c = 'p'
    · subst h7
      rw [if_pos rfl, field_iff (P := PointerText ('p' :: t))
        (fun a => by rw [Out.mapErr_eq_ok, pointerFromStr_iff])]
      constructor
      · rintro ⟨a, h, rfl⟩
        exact .pointer h ((putPointer_iff _ _ _ hd.2).2 rfl)
      · intro h
        cases h with
        | pointer h hp => exact ⟨_, h, by rw [(putPointer_iff _ _ _ hd.2).1 hp]⟩
        | type h => exact absurd (not_type h) (by decide)
    rw [if_neg h7]
    by_cases h8 : c = 'i' ∨ c = 'v' ∨ c = 'f' ∨ c = 'a'
    · have hc : ∀ x ∈ (c :: t).head?, x.toNat < 128 := by
        intro x hx
        cases hx
        exact hs c (by simp)
      rw [if_pos h8, field_iff (P := TypeText (c :: t)) (fun a => by rw [Out.mapErr_eq_ok, typeFromStr_iff _ _ hc])]
      constructor
      · rintro ⟨a, h, rfl⟩
        exact .type h ((putType_iff _ _ _ hd.1).2 rfl)
      · intro h
        cases h with
        | type h hp => exact ⟨_, h, by rw [(putType_iff _ _ _ hd.1).1 hp]⟩
        | pointer h => exact absurd (not_pointer h) h7
        | _ => exact absurd h8 (by decide)
    rw [if_neg h8]
    by_cases h9 : c = 'F'
    · subst h9
      rw [if_pos rfl]
      unfold specF
      match t with
      | [] =>
        constructor
        · intro h
          cases h
        · intro h
          cases h with
          | pointer h => exact absurd (not_pointer h) (by decide)
          | type h => exact absurd (not_type h) (by decide)
      | k :: t =>
        dsimp only
        rw [sliceFrom1_ascii _ _ (utf8Size_ascii k (hs k (by simp))), Out.ok_bind]
        simp only [Out.bind_eq_ok, parseBitAlign_iff]
        constructor
        · rintro ⟨a, ha, h⟩
          split at h
          · subst_vars
            cases h
            exact .functionIndependent ha
          · split at h
            · subst_vars
              cases h
              exact .functionMultiple ha
            · cases h
        · intro h
          cases h with
          | functionIndependent h => exact ⟨_, h, rfl⟩
          | functionMultiple h => exact ⟨_, h, rfl⟩
          | pointer h => exact absurd (not_pointer h) (by decide)
          | type h => exact absurd (not_type h) (by decide)
    rw [if_neg h9]
    by_cases h10 : c = 'm'
    · subst h10
      rw [if_pos rfl]
      constructor
      · intro h
        unfold specM at h
        match t with
        | [] => cases h
        | sep :: rest =>
          dsimp only at h
          split at h
          · subst_vars
            match rest with
            | [] => cases h
            | k :: rest =>
              obtain ⟨m, h1, h2⟩ := Out.bind_eq_ok.1 h
              cases h2
              exact .mangling ((manglingKind_iff _ _).1 h1)
          · cases h
      · intro h
        cases h with
        | mangling h =>
          show (manglingKind _ >>= _) = _
          rw [(manglingKind_iff _ _).2 h]
          rfl
        | pointer h => exact absurd (not_pointer h) (by decide)
        | type h => exact absurd (not_type h) (by decide)
    rw [if_neg h10]
    by_cases h11 : c = 'n'
    · subst h11
      rw [if_pos rfl]
      unfold specN
      match t with
      | [] =>
        constructor
        · intro h
          cases h
        · intro h
          cases h with
          | pointer h => exact absurd (not_pointer h) (by decide)
          | type h => exact absurd (not_type h) (by decide)
          | nativeWidths _ hp hall =>
            rw [pieces_iff] at hp
            rw [← hp] at hall
            cases hall with
            | cons h _ =>
              obtain ⟨ds, h | h, h0, -⟩ := h
              · exact absurd h.symm h0
              · cases h
      | k :: t =>
        dsimp only
        by_cases hk : k = 'i'
        · subst hk
          rw [if_pos rfl]
          match t with
          | [] =>
            constructor
            · intro h
              cases h
            · intro h
              cases h with
              | pointer h => exact absurd (not_pointer h) (by decide)
              | type h => exact absurd (not_type h) (by decide)
              | nativeWidths h => exact absurd rfl h
          | x :: t =>
            dsimp only
            rw [sliceFrom1_ascii _ _ (utf8Size_ascii x (hs x (by simp))), Out.ok_bind,
              field_iff (collect_iff _ _ nonIntegral_iff _)]
            constructor
            · rintro ⟨a, h, rfl⟩
              exact .nonIntegral ((pieces_iff _ _ _).2 rfl) h
            · intro h
              cases h with
              | pointer h => exact absurd (not_pointer h) (by decide)
              | type h => exact absurd (not_type h) (by decide)
              | nativeWidths h => exact absurd rfl h
              | nonIntegral hp h =>
                rw [pieces_iff] at hp
                subst hp
                exact ⟨_, h, rfl⟩
        · rw [if_neg hk, field_iff (collect_iff parseWidth NumberText
            (fun s b => by unfold parseWidth; rw [Out.mapErr_eq_ok, parseU32_iff]) _)]
          constructor
          · rintro ⟨a, h, rfl⟩
            exact .nativeWidths (by simpa using hk) ((pieces_iff _ _ _).2 rfl) h
          · intro h
            cases h with
            | pointer h => exact absurd (not_pointer h) (by decide)
            | type h => exact absurd (not_type h) (by decide)
            | nonIntegral => exact absurd rfl hk
            | nativeWidths _ hp h =>
              rw [pieces_iff] at hp
              subst hp
              exact ⟨_, h, rfl⟩
    rw [if_neg h11]
    constructor
    · intro h
      cases h
    · intro h
      have := says_letter h
      have he : "eESPGApivfaFmn".toList =
        ['e', 'E', 'S', 'P', 'G', 'A', 'p', 'i', 'v', 'f', 'a', 'F', 'm', 'n'] := by decide
      rw [he] at this
      simp only [List.mem_cons, List.not_mem_nil, or_false, h1, h2, h3, h4, h5, h6, h7, h9, h10, h11, false_or] at this
      rcases this with h | h | h | h
      · exact absurd (.inl h) h8
      · exact absurd (.inr (.inl h)) h8
      · exact absurd (.inr (.inr (.inl h))) h8
      · exact absurd (.inr (.inr (.inr h))) h8

private theorem applySpec_sorted (s : Str) (d d' : DataLayout) (hd : Sorted d) (h : SpecSays s d d') : Sorted d' := by
  cases h with
  | pointer _ h =>
    refine ⟨hd.1, ?_⟩
    rw [← (putPointer_iff _ _ _ hd.2).1 h]
    exact pupdate_sorted _ _ hd.2
  | type _ h =>
    refine ⟨?_, hd.2⟩
    rw [← (putType_iff _ _ _ hd.1).1 h]
    exact update_sorted _ _ hd.1
  | _ => exact hd

private theorem applySpecs_iff (l : List Str) (d d' : DataLayout) (hl : ∀ s ∈ l, ∀ c ∈ s, c.toNat < 128)
    (hd : Sorted d) : applySpecs d l = .ok d' ↔ SpecsSay l d d' := by
  induction l generalizing d with
  | nil =>
    constructor
    · intro h
      cases h
      exact .nil
    · rintro ⟨⟩
      rfl
  | cons s l ih =>
    rw [applySpecs]
    simp only [Out.bind_eq_ok, applySpec_iff s d _ (hl s (by simp)) hd]
    constructor
    · rintro ⟨d1, h1, h2⟩
      exact .cons h1 ((ih d1 (fun s hs => hl s (by simp [hs])) (applySpec_sorted _ _ _ hd h1)).1 h2)
    · intro h
      cases h with
      | cons h1 h2 =>
        exact ⟨_, h1, (ih _ (fun s hs => hl s (by simp [hs])) (applySpec_sorted _ _ _ hd h1)).2 h2⟩

/-! ## C59 -/

/-- Parsing accepts exactly the texts of the grammar, with the meaning the grammar gives them. -/
theorem C59_accepts (text : Str) (d : DataLayout) : DataLayout.fromStr text = .ok d ↔ LayoutSays text d := by
  unfold DataLayout.fromStr
  have hasc : isAscii text = true ↔ ∀ c ∈ text, c.toNat < 128 := by simp [isAscii]
  by_cases ha : ∀ c ∈ text, c.toNat < 128
  · rw [if_pos (hasc.2 ha), applySpecs_iff _ _ _ (fun p hp c hc => ha c ((split_mem _ _ p hp).2 c hc)) sorted_default]
    constructor
    · intro h
      exact ⟨ha, _, (pieces_iff _ _ _).2 rfl, h⟩
    · rintro ⟨-, ps, h1, h2⟩
      rw [pieces_iff] at h1
      rw [h1]
      exact h2
  · rw [if_neg (fun h => ha (hasc.1 h))]
    constructor
    · intro h
      cases h
    · intro h
      exact absurd h.1 ha

/-- The specs of a real layout, with their oddities: a plus sign, leading zeros, an ignored tail and part. -/
example : LayoutSays "e-m:o-p270:+32:0032-i64:64:64:ignored-n8:16-ni:7".toList
    { DataLayout.default with
      endianness := .little
      mangling := some .macho
      pointerAlignments := [.default, ⟨⟨270⟩, .align32, .align32, 32, 32⟩]
      nativeIntegerWidths := [8, 16]
      nonIntegralAddressSpaces := [⟨7⟩] } :=
  (C59_accepts _ _).1 (by decide +kernel)

/-- The empty text is not a datalayout: it consists of one empty spec. -/
example (d : DataLayout) : ¬ LayoutSays [] d := by
  rw [← C59_accepts]
  intro h
  cases h

private theorem applySpec_err (s : Str) (d : DataLayout) (e : DataLayoutError) (hs : ∀ c ∈ s, c.toNat < 128)
    (h : applySpec d s = .err e) : SpecFault s e := by
  match s with
  | [] =>
    cases h
    exact .empty
  | c :: t =>
    unfold applySpec at h
    dsimp only at h
    rw [sliceFrom1_ascii _ _ (utf8Size_ascii c (hs c (by simp))), Out.ok_bind] at h
    have hspace : ∀ (upd : AddressSpace → DataLayout), c = 'P' ∨ c = 'G' ∨ c = 'A' →
        (parseAS t >>= fun a => pure (upd a) : Out DataLayoutError DataLayout) = .err e → SpecFault (c :: t) e := by
      intro upd hc h
      rcases bind_eq_err.1 h with h | ⟨_, _, h⟩
      · rcases (parseAS_err _ _).1 h with ⟨i, rfl, hi⟩ | ⟨i, rfl, hi⟩
        · exact .spaceNumber hc hi
        · exact .space hc hi
      · cases h
    by_cases h1 : c = 'e'
    · rw [if_pos h1] at h
      cases h
    rw [if_neg h1] at h
    by_cases h2 : c = 'E'
    · rw [if_pos h2] at h
      cases h
    rw [if_neg h2] at h
    by_cases h3 : c = 'S'
    · rw [if_pos h3] at h
      subst h3
      rcases bind_eq_err.1 h with h | ⟨_, _, h⟩
      · rcases (parseBitAlign_err _ _).1 h with ⟨i, rfl, hi⟩ | ⟨i, rfl, hi⟩
        · exact .stackNumber hi
        · exact .stack hi
      · cases h
    rw [if_neg h3] at h
    by_cases h4 : c = 'P'
    · rw [if_pos h4] at h
      exact hspace _ (.inl h4) h
    rw [if_neg h4] at h
    by_cases h5 : c = 'G'
    · rw [if_pos h5] at h
      exact hspace _ (.inr (.inl h5)) h
    rw [if_neg h5] at h
    by_cases h6 : c = 'A'
    · rw [if_pos h6] at h
      exact hspace _ (.inr (.inr h6)) h
    rw [if_neg h6] at h
    by_cases h7 : c = 'p'
    · rw [if_pos h7] at h
      subst h7
      rcases bind_eq_err.1 h with h | ⟨_, _, h⟩
      · obtain ⟨i, h8, rfl⟩ := mapErr_eq_err.1 h
        exact .pointer (pointerFromStr_err _ _ h8)
      · cases h
    rw [if_neg h7] at h
    by_cases h8 : c = 'i' ∨ c = 'v' ∨ c = 'f' ∨ c = 'a'
    · rw [if_pos h8] at h
      rcases bind_eq_err.1 h with h | ⟨_, _, h⟩
      · obtain ⟨i, h9, rfl⟩ := mapErr_eq_err.1 h
        exact .type (typeFromStr_err _ _ _ h8 h9)
      · cases h
    rw [if_neg h8] at h
    by_cases h9 : c = 'F'
    · rw [if_pos h9] at h
      subst h9
      unfold specF at h
      match t with
      | [] =>
        cases h
        exact .nothingFunction
      | k :: t =>
        dsimp only at h
        rw [sliceFrom1_ascii _ _ (utf8Size_ascii k (hs k (by simp))), Out.ok_bind] at h
        rcases bind_eq_err.1 h with h | ⟨_, ha, h⟩
        · rcases (parseBitAlign_err _ _).1 h with ⟨i, rfl, hi⟩ | ⟨i, rfl, hi⟩
          · exact .functionNumber hi
          · exact .function hi
        · split at h
          · cases h
          · rename_i hi
            split at h
            · cases h
            · rename_i hn
              cases h
              exact .functionKind hi hn ((parseBitAlign_iff _ _).1 ha)
    rw [if_neg h9] at h
    by_cases h10 : c = 'm'
    · rw [if_pos h10] at h
      subst h10
      unfold specM at h
      match t with
      | [] =>
        cases h
        exact .nothingMangling
      | sep :: rest =>
        dsimp only at h
        split at h
        · subst_vars
          match rest with
          | [] =>
            cases h
            exact .noMangling
          | k :: rest =>
            rcases bind_eq_err.1 h with h | ⟨_, _, h⟩
            · obtain rfl := manglingKind_err _ _ h
              refine .mangling ?_
              intro m hm
              rw [(manglingKind_iff _ _).2 hm] at h
              cases h
            · cases h
        · rename_i hsep
          cases h
          exact .manglingSeparator hsep
    rw [if_neg h10] at h
    by_cases h11 : c = 'n'
    · rw [if_pos h11] at h
      subst h11
      unfold specN at h
      match t with
      | [] =>
        cases h
        exact .nothingNative
      | k :: t =>
        dsimp only at h
        by_cases hk : k = 'i'
        · subst hk
          rw [if_pos rfl] at h
          match t with
          | [] =>
            cases h
            exact .nothingNonIntegral
          | x :: t =>
            dsimp only at h
            rw [sliceFrom1_ascii _ _ (utf8Size_ascii x (hs x (by simp))), Out.ok_bind] at h
            rcases bind_eq_err.1 h with h | ⟨_, _, h⟩
            · obtain ⟨good, p, rest, as, hp, h1, h⟩ := (collect_err _ _ nonIntegral_iff _ _).1 h
              exact .nonIntegral ((pieces_iff _ _ _).2 hp) h1 ((nonIntegral_err _ _).1 h)
            · cases h
        · rw [if_neg hk] at h
          rcases bind_eq_err.1 h with h | ⟨_, _, h⟩
          · obtain ⟨good, p, rest, ws, hp, h1, h⟩ := (collect_err _ _ parseWidth_iff _ _).1 h
            obtain ⟨i, h12, rfl⟩ := mapErr_eq_err.1 h
            exact .nativeWidth (by simp) (by simpa using hk) ((pieces_iff _ _ _).2 hp) h1 ((parseU32_err _ _).1 h12)
          · cases h
    rw [if_neg h11] at h
    cases h
    refine .unknown ?_
    have he : "eESPGApivfaFmn".toList =
      ['e', 'E', 'S', 'P', 'G', 'A', 'p', 'i', 'v', 'f', 'a', 'F', 'm', 'n'] := by decide
    rw [he]
    simp only [not_or] at h8
    simp [h1, h2, h3, h4, h5, h6, h7, h8, h9, h10, h11]

private theorem applySpec_fault (s : Str) (d : DataLayout) (e : DataLayoutError) (hs : ∀ c ∈ s, c.toNat < 128)
    (h : SpecFault s e) : applySpec d s = .err e := by
  cases h with
  | empty => rfl
  | unknown h =>
    rename_i c t
    have he : "eESPGApivfaFmn".toList =
      ['e', 'E', 'S', 'P', 'G', 'A', 'p', 'i', 'v', 'f', 'a', 'F', 'm', 'n'] := by decide
    rw [he] at h
    simp only [List.mem_cons, List.not_mem_nil, or_false, not_or] at h
    unfold applySpec
    dsimp only
    rw [sliceFrom1_ascii _ _ (utf8Size_ascii c (hs c (by simp))), Out.ok_bind]
    simp only [h, or_self, if_false]
  | stackNumber h =>
    exact bind_eq_err.2 (.inr ⟨_, rfl, bind_eq_err.2 (.inl ((parseBitAlign_err _ _).2 (.inl ⟨_, rfl, h⟩)))⟩)
  | stack h =>
    exact bind_eq_err.2 (.inr ⟨_, rfl, bind_eq_err.2 (.inl ((parseBitAlign_err _ _).2 (.inr ⟨_, rfl, h⟩)))⟩)
  | spaceNumber hc h =>
    rcases hc with rfl | rfl | rfl <;> exact bind_eq_err.2 (.inr ⟨_, rfl, bind_eq_err.2 (.inl ((parseAS_err _ _).2 (.inl ⟨_, rfl, h⟩)))⟩)
  | space hc h =>
    rcases hc with rfl | rfl | rfl <;> exact bind_eq_err.2 (.inr ⟨_, rfl, bind_eq_err.2 (.inl ((parseAS_err _ _).2 (.inr ⟨_, rfl, h⟩)))⟩)
  | pointer h =>
    have h1 := pointerFromStr_fault _ _ h
    have : ∃ t, s = 'p' :: t := by cases h <;> exact ⟨_, rfl⟩
    obtain ⟨t, rfl⟩ := this
    exact bind_eq_err.2 (.inr ⟨_, rfl, bind_eq_err.2 (.inl (mapErr_eq_err.2 ⟨_, h1, rfl⟩))⟩)
  | type h =>
    have h1 := typeFromStr_fault _ _ h
    have hparts : ∀ {kind abi pref}, TypeParts s kind abi pref → ∃ c t, s = c :: t ∧ (c = 'i' ∨ c = 'v' ∨ c = 'f' ∨ c = 'a') := by
      intro kind abi pref hp
      cases hp with
      | aggregate => exact ⟨_, _, rfl, by decide⟩
      | sized hc => exact ⟨_, _, rfl, by rcases hc with rfl | rfl | rfl <;> decide⟩
    have : ∃ c t, s = c :: t ∧ (c = 'i' ∨ c = 'v' ∨ c = 'f' ∨ c = 'a') := by
      cases h with
      | nothingAggregate => exact ⟨_, _, rfl, by decide⟩
      | noColon => exact ⟨_, _, rfl, by decide⟩
      | onePart hc => exact ⟨_, _, rfl, by rcases hc with rfl | rfl | rfl <;> decide⟩
      | widthNumber hp | width hp | abiNumber hp | abi hp | prefNumber hp | pref hp | prefBelowAbi hp | tooLarge hp =>
        exact hparts hp
    obtain ⟨c, t, rfl, hc⟩ := this
    rcases hc with rfl | rfl | rfl | rfl <;> exact bind_eq_err.2 (.inr ⟨_, rfl, bind_eq_err.2 (.inl (mapErr_eq_err.2 ⟨_, h1, rfl⟩))⟩)
  | nothingFunction => rfl
  | functionNumber h =>
    rename_i c t i
    show specF d (c :: t) = _
    unfold specF
    dsimp only
    rw [sliceFrom1_ascii _ _ (utf8Size_ascii c (hs c (by simp))), Out.ok_bind]
    exact bind_eq_err.2 (.inl ((parseBitAlign_err _ _).2 (.inl ⟨_, rfl, h⟩)))
  | function h =>
    rename_i c t i
    show specF d (c :: t) = _
    unfold specF
    dsimp only
    rw [sliceFrom1_ascii _ _ (utf8Size_ascii c (hs c (by simp))), Out.ok_bind]
    exact bind_eq_err.2 (.inl ((parseBitAlign_err _ _).2 (.inr ⟨_, rfl, h⟩)))
  | functionKind h1 h2 h =>
    rename_i c t a
    show specF d (c :: t) = _
    unfold specF
    dsimp only
    rw [sliceFrom1_ascii _ _ (utf8Size_ascii c (hs c (by simp))), Out.ok_bind, (parseBitAlign_iff _ _).2 h, Out.ok_bind,
      if_neg h1, if_neg h2]
  | nothingMangling => rfl
  | manglingSeparator h =>
    rename_i c t
    show specM d (c :: t) = _
    unfold specM
    dsimp only
    rw [if_neg h]
  | noMangling => rfl
  | mangling h =>
    rename_i c t
    show specM d (':' :: c :: t) = _
    unfold specM
    dsimp only
    rw [if_pos rfl]
    exact bind_eq_err.2 (.inl (manglingKind_fault c h))
  | nothingNative => rfl
  | nothingNonIntegral => rfl
  | nativeWidth h1 h2 hp hg h =>
    rename_i t p good rest ws i
    show specN d t = _
    match t, h1 with
    | c :: t, _ =>
      unfold specN
      dsimp only
      rw [if_neg (by simpa using h2), (pieces_iff _ _ _).1 hp]
      exact bind_eq_err.2 (.inl ((collect_err _ _ parseWidth_iff _ _).2
        ⟨_, _, _, _, rfl, hg, mapErr_eq_err.2 ⟨_, (parseU32_err _ _).2 h, rfl⟩⟩))
  | nonIntegral hp hg h =>
    rename_i c t p good rest as
    show specN d ('i' :: c :: t) = _
    unfold specN
    dsimp only
    rw [if_pos rfl]
    rw [sliceFrom1_ascii _ _ (utf8Size_ascii c (hs c (by simp))), Out.ok_bind, (pieces_iff _ _ _).1 hp]
    exact bind_eq_err.2 (.inl ((collect_err _ _ nonIntegral_iff _ _).2 ⟨_, _, _, _, rfl, hg, (nonIntegral_err _ _).2 h⟩))

private theorem applySpecs_err (l : List Str) (d : DataLayout) (e : DataLayoutError)
    (hl : ∀ s ∈ l, ∀ c ∈ s, c.toNat < 128) (hd : Sorted d) : applySpecs d l = .err e ↔
    ∃ good bad rest d', l = good ++ bad :: rest ∧ SpecsSay good d d' ∧ SpecFault bad e := by
  induction l generalizing d with
  | nil =>
    constructor
    · intro h
      cases h
    · rintro ⟨good, bad, rest, d', h, -⟩
      cases good <;> cases h
  | cons s l ih =>
    rw [applySpecs, bind_eq_err]
    constructor
    · rintro (h | ⟨d1, h1, h⟩)
      · exact ⟨[], s, l, d, rfl, .nil, applySpec_err s d e (hl s (by simp)) h⟩
      · have h1 := (applySpec_iff s d d1 (hl s (by simp)) hd).1 h1
        obtain ⟨good, bad, rest, d', rfl, h2, h3⟩ :=
          (ih d1 (fun s hs => hl s (by simp [hs])) (applySpec_sorted _ _ _ hd h1)).1 h
        exact ⟨s :: good, bad, rest, d', rfl, .cons h1 h2, h3⟩
    · rintro ⟨good, bad, rest, d', h, h2, h3⟩
      cases h2 with
      | nil =>
        cases h
        exact .inl (applySpec_fault _ _ _ (hl _ (by simp)) h3)
      | cons h1 h2 =>
        cases h
        exact .inr ⟨_, (applySpec_iff _ _ _ (hl _ (by simp)) hd).2 h1,
          (ih _ (fun s hs => hl s (by simp at hs; simp [hs])) (applySpec_sorted _ _ _ hd h1)).2 ⟨_, _, _, _, rfl, h2, h3⟩⟩

/-- Parsing rejects exactly the faulty texts, with the error that names the first fault. -/
theorem C59_rejects (text : Str) (e : DataLayoutError) : DataLayout.fromStr text = .err e ↔ LayoutFault text e := by
  unfold DataLayout.fromStr
  have hasc : isAscii text = true ↔ ∀ c ∈ text, c.toNat < 128 := by simp [isAscii]
  by_cases ha : ∀ c ∈ text, c.toNat < 128
  · rw [if_pos (hasc.2 ha), applySpecs_err _ _ _ (fun p hp c hc => ha c ((split_mem _ _ p hp).2 c hc)) sorted_default]
    constructor
    · rintro ⟨good, bad, rest, d, h1, h2, h3⟩
      exact .spec ha ((pieces_iff _ _ _).2 h1) h2 h3
    · intro h
      cases h with
      | encoding hc h => exact absurd (ha _ hc) (by omega)
      | spec _ hp h2 h3 => exact ⟨_, _, _, _, (pieces_iff _ _ _).1 hp, h2, h3⟩
  · rw [if_neg (fun h => ha (hasc.1 h))]
    constructor
    · intro h
      cases h
      simp only [Classical.not_forall] at ha
      obtain ⟨c, hc, hlt⟩ := ha
      exact .encoding hc (by omega)
    · intro h
      cases h with
      | encoding => rfl
      | spec h => exact absurd h ha

/-- Every text is either a datalayout by the grammar or is rejected with an error that names its fault; the grammar gives
a text at most one meaning. -/
theorem C59_decides (text : Str) :
    (∃ d, LayoutSays text d ∧ DataLayout.fromStr text = .ok d ∧ ∀ d', LayoutSays text d' → d' = d) ∨
      ∃ e, LayoutFault text e ∧ DataLayout.fromStr text = .err e ∧ ∀ d, ¬ LayoutSays text d := by
  match h : DataLayout.fromStr text with
  | .ok d =>
    refine .inl ⟨d, (C59_accepts _ _).1 h, rfl, fun d' h' => ?_⟩
    rw [(C59_accepts _ _).2 h'] at h
    exact Out.ok.inj h
  | .err e =>
    refine .inr ⟨e, (C59_rejects _ _).1 h, rfl, fun d h' => ?_⟩
    rw [(C59_accepts _ _).2 h'] at h
    cases h
  | .panic s => have := C37_returns text; rw [h] at this; cases this
  | .diverge => have := C37_returns text; rw [h] at this; cases this

/-- An overflowing width in the middle of a text. -/
example : LayoutFault "e-i99999999999:64-m:e".toList 
    (.badAlignSpec (.parse "number too large to fit in target type".toList)) :=
  (C59_rejects _ _).1 (by decide +kernel)
/-- Of two faults the first counts: a number that is too large before its end and has a letter further on is too large. -/
example : LayoutFault "S99999999999999999999x".toList (.badInt .posOverflow) ∧
    ¬ LayoutFault "S99999999999999999999x".toList (.badInt .invalidDigit) ∧
    LayoutFault "S9x99999999999999999999".toList (.badInt .invalidDigit) := by
  rw [← C59_rejects, ← C59_rejects, ← C59_rejects]
  decide +kernel
/-- The letter after `F` is looked at after the alignment. -/
example : LayoutFault "Fx9".toList (.badAlign (.notByteMultiple 9)) ∧ 
    LayoutFault "Fx8".toList (.badSpecParse "unknown function pointer alignment specifier: x".toList) := by
  rw [← C59_rejects, ← C59_rejects]
  decide +kernel
/-- The preferred alignment may not be below the required one, except for pointers. -/
example : LayoutFault "v64:64:32".toList (.badAlignSpec (.alignPref .align32 .align64)) :=
  (C59_rejects _ _).1 (by decide +kernel)
example : LayoutSays "p:64:64:32".toList
    { DataLayout.default with pointerAlignments := [.default, ⟨⟨0⟩, .align64, .align32, 64, 64⟩] } :=
  (C59_accepts _ _).1 (by decide +kernel)

end Verif.Props
