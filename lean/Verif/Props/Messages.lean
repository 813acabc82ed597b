import Verif.Props.Align
import Verif.Props.Unroll
import Verif.Props.Globals
import Verif.Props.Dump
import Verif.Props.AttributeErrors
import Verif.Props.ModuleErrors
import Verif.Mapper.MessageSpec

/-! # C72: what the messages of errors say -/

namespace Verif.Props

open Spec

/-! ## Finding the comparison in a message -/

private theorem digit_iff (c : Char) : ('0' ≤ c ∧ c ≤ '9') ↔ isDigit c := by
  rw [Char.le_def, Char.le_def, UInt32.le_iff_toNat_le, UInt32.le_iff_toNat_le]
  exact Iff.rfl

/-- What comes before and after the only occurrence of a character is determined. -/
private theorem around_unique {c : Char} {x y x' y' : Str} (hx : c ∉ x) (hy : c ∉ y) (h : x ++ c :: y = x' ++ c :: y') :
    x = x' ∧ y = y' := by
  induction x generalizing x' with
  | nil =>
    cases x' with
    | nil => simpa using h
    | cons d x' =>
      simp only [List.nil_append, List.cons_append, List.cons.injEq] at h
      exact absurd (by rw [h.2]; simp) hy
  | cons d x ih =>
    cases x' with
    | nil =>
      simp only [List.nil_append, List.cons_append, List.cons.injEq] at h
      exact absurd (by simp [h.1]) hx
    | cons e x' =>
      simp only [List.cons_append, List.cons.injEq] at h
      obtain ⟨h1, h2⟩ := ih (fun hc => hx (by simp [hc])) h.2
      exact ⟨by rw [h.1, h1], h2⟩

/-- A number at the beginning of a text is determined. -/
private theorem front_unique {a b : Nat} {r s : Str} (hr : ∀ c ∈ r.head?, ¬ isDigit c) (hs : ∀ c ∈ s.head?, ¬ isDigit c)
    (h : decimal a ++ r = decimal b ++ s) : a = b := by
  have h' : decimal a ++ r ++ ['.'] = decimal b ++ s ++ ['.'] := by rw [h]
  rw [List.append_assoc, List.append_assoc] at h'
  have hne : ∀ t : Str, (∀ c ∈ t.head?, ¬ isDigit c) → ∃ c u, t ++ ['.'] = c :: u ∧ ¬ isDigit c := by
    intro t ht
    cases t with
    | nil => exact ⟨'.', [], rfl, by decide⟩
    | cons c u => exact ⟨c, u ++ ['.'], rfl, ht c rfl⟩
  obtain ⟨c, u, h1, h2⟩ := hne r hr
  obtain ⟨d, v, h3, h4⟩ := hne s hs
  rw [h1, h3] at h'
  exact (decimal_span h2 h4 h').1

/-- A number at the end of a text is determined. -/
private theorem back_unique {a b : Nat} {r s : Str} (hr : ∀ c ∈ r.getLast?, ¬ isDigit c)
    (hs : ∀ c ∈ s.getLast?, ¬ isDigit c) (h : r ++ decimal a = s ++ decimal b) : a = b := by
  have h' : (decimal a).reverse ++ (r.reverse ++ ['.']) = (decimal b).reverse ++ (s.reverse ++ ['.']) := by
    rw [← List.append_assoc, ← List.append_assoc, ← List.reverse_append, ← List.reverse_append, h]
  have hne : ∀ t : Str, (∀ c ∈ t.getLast?, ¬ isDigit c) → ∃ c u, t.reverse ++ ['.'] = c :: u ∧ ¬ isDigit c := by
    intro t ht
    cases hr : t.reverse with
    | nil => exact ⟨'.', [], rfl, by decide⟩
    | cons c u =>
      refine ⟨c, u ++ ['.'], rfl, ht c ?_⟩
      rw [List.getLast?_eq_head?_reverse, hr]
      rfl
  obtain ⟨c, u, h1, h2⟩ := hne r hr
  obtain ⟨d, v, h3, h4⟩ := hne s hs
  rw [h1, h3] at h'
  have := (span_unique (p := isDigit) (fun x hx => decimal_digit (List.mem_reverse.1 hx))
    (fun x hx => decimal_digit (List.mem_reverse.1 hx)) h2 h4 h').1
  exact decimal_inj (List.reverse_inj.1 this)

/-- The sign of a comparison, and what follows it. -/
private def sign : Comparison → Char
  | .less => '<'
  | .greater | .atLeast => '>'
private def rest : Comparison → Str
  | .less | .greater => [' ']
  | .atLeast => ['=', ' ']

private theorem text_eq (op : Comparison) : op.text = ' ' :: sign op :: rest op := by cases op <;> decide

private theorem sign_not_mem (op op' : Comparison) (n : Nat) : sign op ∉ decimal n ∧ sign op ∉ rest op' :=
  ⟨decimal_not_mem _ _ (by cases op <;> decide), by cases op <;> cases op' <;> decide⟩

/-- A text without signs claims nothing. -/
private theorem honest_of_none {m : Str} (h1 : '<' ∉ m) (h2 : '>' ∉ m) : Honest m := by
  rintro a op b ⟨pre, post, rfl, -⟩
  have : sign op ∈ op.text := by rw [text_eq]; simp
  have : sign op ∈ pre ++ decimal a ++ op.text ++ decimal b ++ post := by simp [this]
  cases op
  · exact absurd this h1
  · exact absurd this h2
  · exact absurd this h2

/-- A text with one sign claims one comparison. -/
private theorem claims_unique {P Q : Str} {n k a b : Nat} {op op' : Comparison} (hP : '<' ∉ P ∧ '>' ∉ P) (hQ : '<' ∉ Q ∧ '>' ∉ Q)
    (hP' : ∀ c ∈ P.getLast?, ¬ isDigit c) (hQ' : ∀ c ∈ Q.head?, ¬ isDigit c)
    (h : Claims (P ++ decimal n ++ op.text ++ decimal k ++ Q) a op' b) : a = n ∧ op' = op ∧ b = k := by
  obtain ⟨pre, post, h, hpre, hpost⟩ := h
  have hpre : ∀ c ∈ pre.getLast?, ¬ isDigit c := fun c hc hd => hpre c hc ((digit_iff c).2 hd)
  have hpost : ∀ c ∈ post.head?, ¬ isDigit c := fun c hc hd => hpost c hc ((digit_iff c).2 hd)
  have hs : ∀ o : Comparison, sign o ∉ P ∧ sign o ∉ Q := by
    intro o
    cases o
    · exact ⟨hP.1, hQ.1⟩
    · exact ⟨hP.2, hQ.2⟩
    · exact ⟨hP.2, hQ.2⟩
  have hd : ∀ (o : Comparison) (i : Nat), sign o ∉ decimal i := fun o i => (sign_not_mem o o i).1
  have hr : ∀ o o' : Comparison, sign o ∉ rest o' := fun o o' => (sign_not_mem o o' 0).2
  have hsp : ∀ o : Comparison, sign o ≠ ' ' := by intro o; cases o <;> decide
  rw [text_eq, text_eq] at h
  have hsign : sign op' = sign op := by
    have h1 : sign op' ∈ pre ++ decimal a ++ ' ' :: sign op' :: rest op' ++ decimal b ++ post := by simp
    rw [← h] at h1
    simp only [List.mem_append, List.mem_cons, (hs op').1, (hs op').2, hd, hr, hsp, false_or, or_false] at h1
    exact h1
  have e1 : P ++ decimal n ++ ' ' :: sign op :: rest op ++ decimal k ++ Q =
      (P ++ decimal n ++ [' ']) ++ sign op :: (rest op ++ decimal k ++ Q) := by simp
  have e2 : pre ++ decimal a ++ ' ' :: sign op' :: rest op' ++ decimal b ++ post =
      (pre ++ decimal a ++ [' ']) ++ sign op' :: (rest op' ++ decimal b ++ post) := by simp
  rw [e1, e2, hsign] at h
  obtain ⟨h1, h2⟩ := around_unique (c := sign op)
    (by simp only [List.mem_append, List.mem_cons, List.not_mem_nil, (hs op).1, hd, hsp, or_self, not_false_eq_true])
    (by simp only [List.mem_append, (hs op).2, hd, hr, or_self, not_false_eq_true]) h
  have hop : op' = op := by
    cases op <;> cases op' <;> first | rfl | (exact absurd hsign (by decide)) | skip
    all_goals
      simp only [rest, List.cons_append, List.nil_append, List.cons.injEq] at h2
      exact absurd h2.1 (by decide)
  subst hop
  refine ⟨(back_unique hP' hpre (List.append_cancel_right h1)).symm, rfl, ?_⟩
  rw [List.append_assoc, List.append_assoc] at h2
  exact (front_unique hQ' hpost (List.append_cancel_left h2)).symm

/-- A text with one comparison is honest exactly if it holds. -/
private theorem honest_iff {P Q : Str} {n k : Nat} {op : Comparison} (hP : '<' ∉ P ∧ '>' ∉ P) (hQ : '<' ∉ Q ∧ '>' ∉ Q)
    (hP' : ∀ c ∈ P.getLast?, ¬ isDigit c) (hQ' : ∀ c ∈ Q.head?, ¬ isDigit c) :
    Honest (P ++ decimal n ++ op.text ++ decimal k ++ Q) ↔ op.Holds n k := by
  constructor
  · intro h
    exact h n op k ⟨P, Q, rfl, fun c hc hd => hP' c hc ((digit_iff c).1 hd), fun c hc hd => hQ' c hc ((digit_iff c).1 hd)⟩
  · intro h a op' b hc
    obtain ⟨rfl, rfl, rfl⟩ := claims_unique hP hQ hP' hQ' hc
    exact h


private theorem honest_limit {P : Str} {n k : Nat} {op : Comparison} {R Q : Str} (hR : R = op.text ++ decimal k ++ Q)
    (hP : ('<' ∉ P ∧ '>' ∉ P) ∧ ∀ c ∈ P.getLast?, ¬ isDigit c) (hQ : ('<' ∉ Q ∧ '>' ∉ Q) ∧ ∀ c ∈ Q.head?, ¬ isDigit c) :
    Honest (P ++ decimal n ++ R) ↔ op.Holds n k := by
  subst hR
  have := honest_iff (n := n) (k := k) (op := op) hP.1 hQ.1 hP.2 hQ.2
  simpa only [List.append_assoc] using this

private theorem honest_quote {P : Str} {n : Nat} (h1 : '<' ∉ P) (h2 : '>' ∉ P) : Honest (P ++ decimal n) := by
  refine honest_of_none ?_ ?_
  · simp only [List.mem_append, h1, false_or]
    exact decimal_not_mem _ _ (by decide)
  · simp only [List.mem_append, h2, false_or]
    exact decimal_not_mem _ _ (by decide)

private theorem refused_err {ε α : Type} {text : ε → Option Str} {e : ε} {m : Str} :
    Refused text (.err e : Out ε α) m ↔ text e = some m := by
  constructor
  · rintro ⟨e', h, ht⟩
    cases h
    exact ht
  · exact fun h => ⟨e, rfl, h⟩

private theorem not_refused_ok {ε α : Type} {text : ε → Option Str} {a : α} {m : Str} :
    ¬ Refused text (.ok a : Out ε α) m := by
  rintro ⟨e', h, -⟩
  cases h

private theorem refused_of {ε α : Type} {text : ε → Option Str} {call : Out ε α} {e : ε} {m m' : Str} {C : Prop}
    (h : call = .err e) (hC : C) (ht : text e = some m') : Refused text call m ↔ C ∧ m = m' := by
  subst h
  rw [refused_err, ht]
  exact ⟨fun h => ⟨hC, (Option.some.inj h).symm⟩, fun h => by rw [h.2]⟩

private theorem refused_total {ε α : Type} {text : ε → Str} {call : Out ε α} {e : ε} {m m' : Str} {C : Prop}
    (h : call = .err e) (hC : C) (ht : text e = m') : Refused (fun x => some (text x)) call m ↔ C ∧ m = m' :=
  refused_of h hC (congrArg some ht)

private theorem limit_text {A x B C D R : Str} (h : R = B ++ C ++ D) : A ++ x ++ B ++ C ++ D = A ++ x ++ R := by
  subst h
  simp only [List.append_assoc]

/-! ## Alignments -/

/-- A shift above 63 is refused, and quoted. -/
theorem C72_shift (s : U8) (m : Str) :
    Refused (some ·.text) (Align.fromShift s) m ↔
      63 < s.toNat ∧ m = "supplied shift is too large (".toList ++ decimal s.toNat ++ " > 63)".toList := by
  by_cases h : s.toNat ≤ 63
  · obtain ⟨a, h1, -⟩ := (C33_from_shift s).1 h
    rw [h1]
    exact iff_of_false not_refused_ok (by omega)
  · refine refused_total ((C33_from_shift s).2 (by omega)) (by omega) ?_
    have hl : " > 63)".toList = " > ".toList ++ decimal Align.maxShift.toNat ++ ")".toList := by decide +kernel
    exact limit_text hl

theorem C72_shift_honest (s : U8) (m : Str) (h : Refused (some ·.text) (Align.fromShift s) m) : Honest m := by
  obtain ⟨h', rfl⟩ := (C72_shift s m).1 h
  exact (honest_limit (op := .greater) (k := 63) (Q := ")".toList) (by decide +kernel) (by decide +kernel)
    (by decide +kernel)).2 h'

example : Refused (some ·.text) (Align.fromShift 64) "supplied shift is too large (64 > 63)".toList :=
  (C72_shift _ _).2 (by decide +kernel)

/-- A number of bytes that is no power of two is refused, and quoted. -/
theorem C72_byte_align (v : U64) (m : Str) :
    Refused (some ·.text) (Align.fromByteAlign v) m ↔
      (∀ k, v.toNat ≠ 2 ^ k) ∧ m = "supplied value is not a power of two: ".toList ++ decimal v.toNat := by
  by_cases h : ∀ k, v.toNat ≠ 2 ^ k
  · exact refused_total ((C33_from_byte_align v).2 h) h rfl
  · refine iff_of_false ?_ (fun hc => h hc.1)
    obtain ⟨k, hk⟩ := Classical.not_forall.1 h
    have hk := Classical.not_not.1 hk
    have hk64 : k < 64 := (Nat.pow_lt_pow_iff_right (by decide : 1 < 2)).1 (hk ▸ v.isLt)
    rw [((C33_from_byte_align v).1 ⟨BitVec.ofNat 8 k⟩).2 (by
      rw [BitVec.toNat_ofNat, Nat.mod_eq_of_lt (by omega), hk])]
    exact not_refused_ok

example : Refused (some ·.text) (Align.fromByteAlign 24) "supplied value is not a power of two: 24".toList :=
  (C72_byte_align _ _).2 ⟨fun k hk => by
    have hk : 24 = 2 ^ k := hk
    have : k < 5 := (Nat.pow_lt_pow_iff_right (by decide : 1 < 2)).1 (by omega)
    have : k = 0 ∨ k = 1 ∨ k = 2 ∨ k = 3 ∨ k = 4 := by omega
    rcases this with rfl | rfl | rfl | rfl | rfl <;> simp at hk, by decide +kernel⟩

/-- A number of bits is refused if it is no multiple of 8, and quoted, or no power of two; the number quoted then is an eighth of
it. -/
theorem C72_bit_align_partial (v : U64) (m : Str) :
    Refused (some ·.text) (Align.fromBitAlign v) m ↔
      (¬ 8 ∣ v.toNat ∧ m = "supplied value is not a multiple of 8: ".toList ++ decimal v.toNat) ∨
      (8 ∣ v.toNat ∧ (∀ k, v.toNat ≠ 2 ^ k) ∧ m = "supplied value is not a power of two: ".toList ++ decimal (v.toNat / 8)) := by
  obtain ⟨h1, h2, h3⟩ := C33_from_bit_align v
  by_cases hd : 8 ∣ v.toNat
  · by_cases hp : ∀ k, v.toNat ≠ 2 ^ k
    · obtain ⟨w, hw, h3⟩ := h3 hd hp
      have : v.toNat / 8 = w.toNat := by omega
      refine (refused_total h3 (And.intro hd hp) (congrArg (fun n => _ ++ decimal n) this.symm)).trans ?_
      constructor
      · exact fun h => .inr ⟨h.1.1, h.1.2, h.2⟩
      · rintro (h | h)
        · exact absurd hd h.1
        · exact ⟨⟨h.1, h.2.1⟩, h.2.2⟩
    · refine iff_of_false ?_ (fun hc => hc.elim (fun hc => hc.1 hd) fun hc => hp hc.2.1)
      obtain ⟨k, hk⟩ := Classical.not_forall.1 hp
      have hk := Classical.not_not.1 hk
      have hk64 : k < 64 := (Nat.pow_lt_pow_iff_right (by decide : 1 < 2)).1 (hk ▸ v.isLt)
      have hk3 : 3 ≤ k := by
        rw [hk] at hd
        have := Nat.le_of_dvd (Nat.two_pow_pos k) hd
        exact (Nat.pow_le_pow_iff_right (by decide : 1 < 2)).1 this
      rw [(h1 ⟨BitVec.ofNat 8 (k - 3)⟩).2 (by
        rw [BitVec.toNat_ofNat, Nat.mod_eq_of_lt (by omega), hk]
        have : k = 3 + (k - 3) := by omega
        rw [this, Nat.pow_add]
        simp)]
      exact not_refused_ok
  · refine (refused_total (h2 hd) hd rfl).trans ⟨.inl, ?_⟩
    rintro (h | h)
    · exact h
    · exact absurd h.1 hd

/-- C72 is false: "supplied value is not a power of two: 3", says `from_bit_align(24)`. -/
theorem C72_bit_align_misquotes :
    Refused (some ·.text) (Align.fromBitAlign 24) "supplied value is not a power of two: 3".toList :=
  ⟨.notPowerOfTwo 3, by decide +kernel, by decide +kernel⟩

/-- The byte of an optional alignment is one more than its shift, and the shift is quoted. -/
theorem C72_maybe_align (v : U8) (m : Str) :
    Refused (some ·.text) (MaybeAlign.tryFrom v) m ↔
      64 < v.toNat ∧ m = "supplied shift is too large (".toList ++ decimal (v.toNat - 1) ++ " > 63)".toList := by
  by_cases h : 64 < v.toNat
  · refine refused_total ((C33_maybe_align v).2.2 h) h ?_
    have h1 : (v - 1).toNat = v.toNat - 1 := by
      rw [BitVec.toNat_sub]
      have := v.isLt
      simp
      omega
    have hl : " > 63)".toList = " > ".toList ++ decimal Align.maxShift.toNat ++ ")".toList := by decide +kernel
    rw [← h1]
    exact limit_text hl
  · refine iff_of_false ?_ (fun hc => h hc.1)
    by_cases h0 : v = 0
    · rw [(C33_maybe_align v).1 h0]
      exact not_refused_ok
    · obtain ⟨a, ha, -⟩ := (C33_maybe_align v).2.1 (by
        rcases Nat.eq_zero_or_pos v.toNat with hz | hz
        · exact absurd (BitVec.eq_of_toNat_eq hz) h0
        · exact hz) (by omega)
      rw [ha]
      exact not_refused_ok

example : Refused (some ·.text) (MaybeAlign.tryFrom 255) "supplied shift is too large (254 > 63)".toList :=
  (C72_maybe_align _ _).2 (by decide +kernel)

/-! ## Widths and address spaces -/

/-- Width 0 is refused as too large. -/
theorem C72_width (v : U32) (m : Str) :
    Refused (some ·.text) (AlignedTypeWidth.tryFrom v) m ↔
      (v.toNat = 0 ∨ 2 ^ 23 ≤ v.toNat) ∧
        m = "bit width for type is too large (".toList ++ decimal v.toNat ++ " > 8388607 bits)".toList := by
  unfold AlignedTypeWidth.tryFrom
  have h0 : v > 0 ↔ 0 < v.toNat := BitVec.lt_def
  by_cases h : v > 0 ∧ v.toNat ≤ 2 ^ 23 - 1
  · rw [if_pos h]
    exact iff_of_false not_refused_ok (by rw [h0] at h; omega)
  · refine refused_total (if_neg h) (by rw [h0] at h; omega) ?_
    have hl : " > 8388607 bits)".toList = " > ".toList ++ decimal (2 ^ 23 - 1) ++ " bits)".toList := by decide +kernel
    exact limit_text hl

/-- C72, as far as it holds for widths: what is said of a width is true unless the width is 0. -/
theorem C72_width_honest_partial (v : U32) (m : Str) (h : Refused (some ·.text) (AlignedTypeWidth.tryFrom v) m) :
    Honest m ↔ v.toNat ≠ 0 := by
  obtain ⟨h, rfl⟩ := (C72_width v m).1 h
  rw [honest_limit (op := .greater) (k := 8388607) (Q := " bits)".toList) (by decide +kernel) (by decide +kernel)
    (by decide +kernel)]
  show 8388607 < v.toNat ↔ _
  omega

/-- C72 is false: "bit width for type is too large (0 > 8388607 bits)". -/
theorem C72_width_zero :
    Refused (some ·.text) (AlignedTypeWidth.tryFrom 0) "bit width for type is too large (0 > 8388607 bits)".toList ∧
      ¬ Honest "bit width for type is too large (0 > 8388607 bits)".toList := by
  have h := (C72_width 0 "bit width for type is too large (0 > 8388607 bits)".toList).2 (by decide +kernel)
  exact ⟨h, fun hh => (C72_width_honest_partial _ _ h).1 hh rfl⟩

/-- An address space of 2^23 or more is refused, and quoted. -/
theorem C72_address_space (v : U64) (m : Str) :
    (Refused (some ·.text) (AddressSpace.tryFromU64 v) m ↔
      2 ^ 23 ≤ v.toNat ∧
        m = "address space identifier is too large (".toList ++ decimal v.toNat ++ " > 8388607)".toList) ∧
    ∀ w : U32, Refused (some ·.text) (AddressSpace.tryFromU32 w) m ↔
      2 ^ 23 ≤ w.toNat ∧
        m = "address space identifier is too large (".toList ++ decimal w.toNat ++ " > 8388607)".toList := by
  have hl : " > 8388607)".toList = " > ".toList ++ decimal (2 ^ 23 - 1) ++ ")".toList := by decide +kernel
  constructor
  · unfold AddressSpace.tryFromU64
    by_cases h : v.toNat ≤ 2 ^ 23 - 1
    · rw [if_pos h]
      exact iff_of_false not_refused_ok (by omega)
    · refine refused_total (if_neg h) (by omega) ?_
      exact limit_text hl
  · intro w
    unfold AddressSpace.tryFromU32
    by_cases h : w.toNat ≤ 2 ^ 23 - 1
    · rw [if_pos h]
      exact iff_of_false not_refused_ok (by omega)
    · have hw : (w.setWidth 64).toNat = w.toNat := by
        rw [BitVec.toNat_setWidth, Nat.mod_eq_of_lt]
        have := w.isLt
        omega
      refine refused_total (if_neg h) (by omega) ?_
      rw [← hw]
      exact limit_text hl

theorem C72_address_space_honest (v : U64) (w : U32) (m : Str)
    (h : Refused (some ·.text) (AddressSpace.tryFromU64 v) m ∨ Refused (some ·.text) (AddressSpace.tryFromU32 w) m) :
    Honest m := by
  rcases h with h | h
  · obtain ⟨h, rfl⟩ := (C72_address_space v m).1.1 h
    rw [honest_limit (op := .greater) (k := 8388607) (Q := ")".toList) (by decide +kernel) (by decide +kernel)
      (by decide +kernel)]
    show 8388607 < v.toNat
    omega
  · obtain ⟨h, rfl⟩ := ((C72_address_space 0 m).2 w).1 h
    rw [honest_limit (op := .greater) (k := 8388607) (Q := ")".toList) (by decide +kernel) (by decide +kernel)
      (by decide +kernel)]
    show 8388607 < w.toNat
    omega

example : Refused (some ·.text) (AddressSpace.tryFromU32 8388608)
    "address space identifier is too large (8388608 > 8388607)".toList :=
  ((C72_address_space 0 _).2 _).2 (by decide +kernel)

/-! ## Alignment specifications -/

/-- A preferred alignment below the ABI alignment is refused with both, in bytes; otherwise one of more than 2^15 bytes is refused,
with the ABI alignment. -/
theorem C72_type_new (t : AlignedType) (abi pref : Align) (ha : MadeAlign abi) (hp : MadeAlign pref) (m : Str) :
    Refused (some ·.text) (TypeAlignSpec.new t abi pref) m ↔
      (pref.shift.toNat < abi.shift.toNat ∧
        m = "impossible preferred alignment: ".toList ++ decimal (2 ^ pref.shift.toNat) ++ " must be >= ".toList ++
          decimal (2 ^ abi.shift.toNat)) ∨
      (abi.shift.toNat ≤ pref.shift.toNat ∧ 15 < pref.shift.toNat ∧
        m = "impossible ABI alignment for type: ".toList ++ decimal (2 ^ abi.shift.toNat) ++ " > 32768".toList) := by
  have ea := (C33_byte_align abi ha).1
  have ep := (C33_byte_align pref hp).1
  have hl : " > 32768".toList = " > ".toList ++ TypeAlignSpec.maxAlign.text := by decide +kernel
  unfold TypeAlignSpec.new
  have h1 : pref.less abi ↔ pref.shift.toNat < abi.shift.toNat := BitVec.lt_def
  have h2 : abi.atMost TypeAlignSpec.maxAlign ↔ abi.shift.toNat ≤ 15 := BitVec.le_def
  have h3 : pref.atMost TypeAlignSpec.maxAlign ↔ pref.shift.toNat ≤ 15 := BitVec.le_def
  by_cases c1 : pref.less abi
  · refine (refused_total (if_pos c1) (h1.1 c1) ?_).trans ⟨Or.inl, ?_⟩
    · rw [← ea, ← ep]
      rfl
    · rintro (h | h)
      · exact h
      · exact absurd (h1.1 c1) (by omega)
  · rw [if_neg c1]
    by_cases c2 : abi.atMost TypeAlignSpec.maxAlign ∧ pref.atMost TypeAlignSpec.maxAlign
    · rw [if_pos c2]
      refine iff_of_false not_refused_ok ?_
      have := h3.1 c2.2
      have := mt h1.2 c1
      omega
    · have c1 := mt h1.2 c1
      have c3 : abi.shift.toNat ≤ pref.shift.toNat ∧ 15 < pref.shift.toNat := by
        refine ⟨by omega, ?_⟩
        rcases Nat.lt_or_ge 15 pref.shift.toNat with h | h
        · exact h
        · exact absurd ⟨h2.2 (by omega), h3.2 h⟩ c2
      refine (refused_total (m' := "impossible ABI alignment for type: ".toList ++ decimal (2 ^ abi.shift.toNat) ++
        " > 32768".toList) (if_neg c2) c3 ?_).trans ?_
      · rw [← ea]
        exact (List.append_nil _).symm.trans (limit_text (hl.trans (List.append_nil _).symm))
      · constructor
        · exact fun h => .inr ⟨h.1.1, h.1.2, h.2⟩
        · rintro (h | h)
          · exact absurd h.1 c1
          · exact ⟨⟨h.1, h.2.1⟩, h.2.2⟩

/-- C72, as far as it holds for type specifications: the message is true unless only the preferred alignment is too large. -/
theorem C72_type_new_honest_partial (t : AlignedType) (abi pref : Align) (ha : MadeAlign abi) (hp : MadeAlign pref) (m : Str)
    (h : Refused (some ·.text) (TypeAlignSpec.new t abi pref) m) :
    Honest m ↔ ¬ (abi.shift.toNat ≤ 15 ∧ 15 < pref.shift.toNat) := by
  rcases (C72_type_new t abi pref ha hp m).1 h with ⟨h1, rfl⟩ | ⟨h1, h2, rfl⟩
  · refine iff_of_true ?_ (by omega)
    rintro a op b ⟨pre, post, hm, h1, h2⟩
    exfalso
    have ht : " must be >= ".toList = " must be ".toList ++ '>' :: "= ".toList := by decide
    have hd : ∀ n, '>' ∉ decimal n := fun n => decimal_not_mem _ _ (by decide)
    have hsign : sign op = '>' := by
      have hmem : sign op ∈ pre ++ decimal a ++ op.text ++ decimal b ++ post := by rw [text_eq]; simp
      rw [← hm] at hmem
      cases op
      · exfalso
        have hd : ∀ n, '<' ∉ decimal n := fun n => decimal_not_mem _ _ (by decide)
        simp only [List.mem_append, sign, hd, or_false] at hmem
        revert hmem
        decide +kernel
      · rfl
      · rfl
    rw [ht, text_eq, hsign] at hm
    have e1 : ∀ A B : Str, "impossible preferred alignment: ".toList ++ A ++ (" must be ".toList ++ '>' :: "= ".toList) ++ B =
        ("impossible preferred alignment: ".toList ++ A ++ " must be".toList ++ [' ']) ++ '>' :: ("= ".toList ++ B) := by
      intro A B
      have : " must be ".toList = " must be".toList ++ [' '] := by decide
      rw [this]
      simp only [List.append_assoc, List.cons_append, List.nil_append]
    have e2 : pre ++ decimal a ++ ' ' :: '>' :: rest op ++ decimal b ++ post =
        (pre ++ decimal a ++ [' ']) ++ '>' :: (rest op ++ decimal b ++ post) := by simp
    rw [e1, e2] at hm
    obtain ⟨h3, -⟩ := around_unique (c := '>')
      (by simp only [List.mem_append, hd, or_false]; decide +kernel)
      (by simp only [List.mem_append, hd, or_false]; decide +kernel) hm
    have h3 := List.append_cancel_right h3
    have h4 := congrArg List.getLast? h3
    have hne := decimal_ne_nil a
    have h5 : ∃ c, (pre ++ decimal a).getLast? = some c ∧ isDigit c := by
      refine ⟨(decimal a).getLast hne, ?_, decimal_digit (List.getLast_mem hne)⟩
      rw [List.getLast?_append, List.getLast?_eq_some_getLast hne, Option.some_or]
    obtain ⟨c, h5, h6⟩ := h5
    have : " must be".toList.getLast? = some 'e' := by decide
    rw [h5, List.getLast?_append, this, Option.some_or] at h4
    cases h4
    exact absurd h6 (by decide)
  · rw [honest_limit (op := .greater) (k := 32768) (Q := []) (by decide +kernel) (by decide +kernel) (by decide +kernel)]
    show 2 ^ 15 < _ ↔ _
    rw [Nat.pow_lt_pow_iff_right (by decide)]
    omega

/-- C72 is false: "impossible ABI alignment for type: 8 > 32768". -/
theorem C72_type_new_preferred :
    Refused (some ·.text) (TypeAlignSpec.new .aggregate .align64 ⟨16⟩) "impossible ABI alignment for type: 8 > 32768".toList ∧
      ¬ Honest "impossible ABI alignment for type: 8 > 32768".toList := by
  have ha : MadeAlign .align64 := .const _ (by decide)
  have hp : MadeAlign ⟨16⟩ := .shift 16 _ (by decide)
  have h := (C72_type_new .aggregate .align64 ⟨16⟩ ha hp "impossible ABI alignment for type: 8 > 32768".toList).2
    (.inr (by decide +kernel))
  exact ⟨h, fun hh => (C72_type_new_honest_partial _ _ _ ha hp _ h).1 hh (by decide)⟩

/-- A pointer specification is only refused for a preferred alignment below the ABI alignment. -/
theorem C72_pointer_new (a : AddressSpace) (abi pref : Align) (size index : U64) (ha : MadeAlign abi) (hp : MadeAlign pref)
    (m : Str) :
    Refused (some ·.text) (PointerAlignSpec.new a abi pref size index) m ↔
      pref.shift.toNat < abi.shift.toNat ∧
        m = "impossible preferred alignment: ".toList ++ decimal (2 ^ pref.shift.toNat) ++ " must be >= ".toList ++
          decimal (2 ^ abi.shift.toNat) := by
  have ea := (C33_byte_align abi ha).1
  have ep := (C33_byte_align pref hp).1
  unfold PointerAlignSpec.new
  have h1 : pref.less abi ↔ pref.shift.toNat < abi.shift.toNat := BitVec.lt_def
  by_cases c1 : pref.less abi
  · refine refused_total (if_pos c1) (h1.1 c1) ?_
    rw [← ea, ← ep]
    rfl
  · rw [if_neg c1]
    exact iff_of_false not_refused_ok fun hc => c1 (h1.2 hc.1)

example : Refused (some ·.text) (PointerAlignSpec.new .default .align32 .align16 64 64)
    "impossible preferred alignment: 2 must be >= 4".toList :=
  (C72_pointer_new _ _ _ _ _ (.const _ (by decide)) (.const _ (by decide)) _).2 (by decide +kernel)

/-! ## Strings and blobs of records -/

/-- An index at or behind the last field is refused, with the number of fields. -/
theorem C72_string_index (pf : Profile) (r : BRecord) (idx : U64) (hne : r.fields ≠ [])
    (h : r.fields.length < idx.toNat + 2) :
    Refused RecordStringError.text (r.tryString pf idx) ("impossible string index: ".toList ++ decimal idx.toNat ++
      " >= ".toList ++ decimal r.fields.length ++ " (field count)".toList) ∧
    Refused (some ·.text) (r.tryBlob pf idx) ("impossible blob index: ".toList ++ decimal idx.toNat ++
      " >= ".toList ++ decimal r.fields.length ++ " (field count)".toList) := by
  obtain ⟨h1, h2⟩ := (C31_errors pf r idx hne).1 h
  exact ⟨⟨_, h1, rfl⟩, ⟨_, h2, rfl⟩⟩

/-- C72, as far as it holds for strings and blobs: the message about the index is true unless the index is that of the last
field. -/
theorem C72_string_honest_partial (pf : Profile) (r : BRecord) (idx : U64) (hne : r.fields ≠ []) (m : Str)
    (h : Refused RecordStringError.text (r.tryString pf idx) m ∨ Refused (some ·.text) (r.tryBlob pf idx) m) :
    Honest m ↔ idx.toNat + 1 ≠ r.fields.length := by
  have huniq : ∀ {ε α : Type} {text : ε → Option Str} {o : Out ε α} {m m' : Str}, Refused text o m → Refused text o m' →
      m = m' := by
    rintro ε α text o m m' ⟨e, h1, h2⟩ ⟨e', h3, h4⟩
    rw [h1] at h3
    cases h3
    exact Option.some.inj (h2.symm.trans h4)
  by_cases hi : r.fields.length < idx.toNat + 2
  · obtain ⟨h1, h2⟩ := C72_string_index pf r idx hne hi
    have key : ∀ P : Str, (('<' ∉ P ∧ '>' ∉ P) ∧ ∀ c ∈ P.getLast?, ¬ isDigit c) →
        (Honest (P ++ decimal idx.toNat ++ " >= ".toList ++ decimal r.fields.length ++ " (field count)".toList) ↔
          idx.toNat + 1 ≠ r.fields.length) := by
      intro P hP
      have := honest_iff (n := idx.toNat) (k := r.fields.length) (op := .atLeast) (P := P) (Q := " (field count)".toList)
        hP.1 (by decide +kernel) hP.2 (by decide +kernel)
      rw [show (" >= ".toList : Str) = Comparison.atLeast.text from rfl, this]
      show _ ≤ _ ↔ _
      omega
    rcases h with h | h
    · rw [huniq h h1]
      exact key _ (by decide +kernel)
    · rw [huniq h h2]
      exact key _ (by decide +kernel)
  · refine iff_of_true ?_ (by omega)
    rcases h with ⟨e, h, ht⟩ | ⟨e, h, ht⟩
    · rw [tryString_eq pf r idx hne, if_pos (by omega), bind_eq_err, ofOption_eq_err] at h
      rcases h with ⟨-, rfl⟩ | ⟨raw, -, h⟩
      · cases ht
        exact honest_of_none (by decide +kernel) (by decide +kernel)
      · rw [ofOption_eq_err] at h
        obtain ⟨-, rfl⟩ := h
        cases ht
    · rw [tryBlob_eq pf r idx hne, if_pos (by omega), ofOption_eq_err] at h
      obtain ⟨-, rfl⟩ := h
      cases ht
      exact honest_of_none (by decide +kernel) (by decide +kernel)

/-- C72 is false: "impossible string index: 0 >= 1 (field count)", says a record with one field. -/
theorem C72_string_last (pf : Profile) (r : BRecord) (h : r.fields.length = 1) :
    Refused RecordStringError.text (r.tryString pf 0) "impossible string index: 0 >= 1 (field count)".toList ∧
      ¬ Honest "impossible string index: 0 >= 1 (field count)".toList := by
  have hne : r.fields ≠ [] := by intro hc; rw [hc] at h; cases h
  have h1 : Refused RecordStringError.text (r.tryString pf 0) "impossible string index: 0 >= 1 (field count)".toList := by
    have h2 := (C72_string_index pf r 0 hne (by rw [h]; decide)).1
    rw [h] at h2
    have h3 : "impossible string index: 0 >= 1 (field count)".toList = "impossible string index: ".toList ++
        decimal (0 : U64).toNat ++ " >= ".toList ++ decimal 1 ++ " (field count)".toList := by decide +kernel
    exact h3 ▸ h2
  exact ⟨h1, fun hh => (C72_string_honest_partial pf r 0 hne _ (.inl h1)).1 hh h.symm⟩

/-! ## Records of functions, aliases and COMDATs -/

/-- What is said of the length of a function record is true. -/
theorem C72_function_honest (pf : Profile) (r : BRecord) (ctx : MapCtx) (ht : ctx.strtab.bytes.length < 2 ^ 64) (m : Str)
    (h : Refused (some ·.text) (FunctionRecord.tryMap pf r ctx) m) : Honest m := by
  obtain ⟨e, h, hm⟩ := h
  have hmean := C49_function_errors pf r ctx ht e h
  cases hm
  cases e
  case tooShort n =>
    refine (honest_limit (op := .less) (k := 10) (Q := " fields".toList) (by decide +kernel) (by decide +kernel)
      (by decide +kernel)).2 hmean.2
  case typeId => exact honest_quote (by decide +kernel) (by decide +kernel)
  case «attribute» => exact honest_quote (by decide +kernel) (by decide +kernel)
  case «section» => exact honest_quote (by decide +kernel) (by decide +kernel)
  case gc => exact honest_quote (by decide +kernel) (by decide +kernel)
  case v1Unsupported => exact honest_of_none (m := "unsupported function record format (v1)".toList) (by decide +kernel) (by decide +kernel)
  case strtab => exact honest_of_none (m := "error while accessing string table".toList) (by decide +kernel) (by decide +kernel)
  case callingConvention => exact honest_of_none (m := "unknown calling convention".toList) (by decide +kernel) (by decide +kernel)
  case type => exact honest_of_none (m := "non-function type for function".toList) (by decide +kernel) (by decide +kernel)
  case alignment => exact honest_of_none (m := "invalid alignment".toList) (by decide +kernel) (by decide +kernel)
  case visibility => exact honest_of_none (m := "invalid visibility".toList) (by decide +kernel) (by decide +kernel)
  case dllStorageClass => exact honest_of_none (m := "invalid storage class".toList) (by decide +kernel) (by decide +kernel)

/-- A function record with fewer than 10 fields is refused with the number of them. -/
theorem C72_function_short (pf : Profile) (r : BRecord) (ctx : MapCtx) (hv : 2 ≤ ctx.version.toNat) (h : r.fields.length < 10) :
    Refused (some ·.text) (FunctionRecord.tryMap pf r ctx)
      ("function record too short: ".toList ++ decimal r.fields.length ++ " < 10 fields".toList) := by
  refine ⟨.tooShort r.fields.length, ?_, rfl⟩
  have hu : ctx.useStrtab = true := (useStrtab_iff ctx).2 hv
  unfold FunctionRecord.tryMap
  rw [hu, if_neg (by simp), if_pos h]

example (pf : Profile) : Refused (some ·.text) (FunctionRecord.tryMap pf ⟨none, 8, [0, 4, 1]⟩ exampleCtx)
    "function record too short: 3 < 10 fields".toList := by
  have := C72_function_short pf ⟨none, 8, [0, 4, 1]⟩ exampleCtx (by decide) (by decide)
  have h : "function record too short: 3 < 10 fields".toList = "function record too short: ".toList ++ decimal 3 ++
    " < 10 fields".toList := by decide +kernel
  exact h ▸ this

/-- C72 is false: a function record is refused for its section, by one less than the index in the record. -/
theorem C72_function_section_misquoted (pf : Profile) :
    Refused (some ·.text) (FunctionRecord.tryMap pf ⟨none, 8, [0, 4, 1, 8, 0, 3, 0, 5, 2, 1]⟩ exampleCtx)
      "invalid section table index: 1".toList :=
  ⟨.section 1, by cases pf <;> decide +kernel, by decide +kernel⟩

/-- What is said of the length of an alias record is true. -/
theorem C72_alias_honest (pf : Profile) (r : BRecord) (ctx : MapCtx) (ht : ctx.strtab.bytes.length < 2 ^ 64) (m : Str)
    (h : Refused (some ·.text) (Alias.tryMap pf r ctx) m) : Honest m := by
  obtain ⟨e, h, hm⟩ := h
  have hmean := C49_alias_errors pf r ctx ht e h
  cases hm
  cases e
  case tooShort n =>
    refine (honest_limit (op := .less) (k := 5) (Q := " fields".toList) (by decide +kernel) (by decide +kernel)
      (by decide +kernel)).2 hmean.2
  case type => exact honest_quote (by decide +kernel) (by decide +kernel)
  case v1Unsupported => exact honest_of_none (m := "unsupported alias record format (v1)".toList) (by decide +kernel) (by decide +kernel)
  case strtab => exact honest_of_none (m := "error while accessing string table".toList) (by decide +kernel) (by decide +kernel)
  case visibility => exact honest_of_none (m := "invalid visibility".toList) (by decide +kernel) (by decide +kernel)
  case dllStorageClass => exact honest_of_none (m := "invalid storage class".toList) (by decide +kernel) (by decide +kernel)

/-- An alias record with fewer than 5 fields is refused with the number of them. -/
theorem C72_alias_short (pf : Profile) (r : BRecord) (ctx : MapCtx) (hv : 2 ≤ ctx.version.toNat) (h : r.fields.length < 5) :
    Refused (some ·.text) (Alias.tryMap pf r ctx)
      ("alias record too short: ".toList ++ decimal r.fields.length ++ " < 5 fields".toList) := by
  refine ⟨.tooShort r.fields.length, ?_, rfl⟩
  have hu : ctx.useStrtab = true := (useStrtab_iff ctx).2 hv
  unfold Alias.tryMap
  rw [hu, if_neg (by simp), if_pos h]

example (pf : Profile) : Refused (some ·.text) (Alias.tryMap pf ⟨none, 14, []⟩ exampleCtx)
    "alias record too short: 0 < 5 fields".toList := by
  have := C72_alias_short pf ⟨none, 14, []⟩ exampleCtx (by decide) (by decide)
  have h : "alias record too short: 0 < 5 fields".toList = "alias record too short: ".toList ++ decimal 0 ++
    " < 5 fields".toList := by decide +kernel
  exact h ▸ this

/-- A COMDAT record with more or fewer than 3 fields is refused, as having fewer. -/
theorem C72_comdat_short (pf : Profile) (r : BRecord) (ctx : PartialMapCtx) (v : U64) (hver : ctx.version = some v)
    (hv : 2 ≤ v.toNat) (h : r.fields.length ≠ 3) (m : Str) :
    Refused ComdatError.text (Comdat.tryMap pf r ctx) m ↔
      m = "COMDAT record doesn't have enough fields (".toList ++ decimal r.fields.length ++ " < 3)".toList := by
  refine (refused_of (C := True) (Comdat.tryMap_short pf r ctx v hver hv h) trivial rfl).trans ?_
  exact ⟨fun h => h.2, fun h => ⟨trivial, h⟩⟩

/-- C72, as far as it holds for COMDAT records: the message is true if there are at most 3 fields. -/
theorem C72_comdat_honest_partial (pf : Profile) (r : BRecord) (ctx : PartialMapCtx) (v : U64) (hver : ctx.version = some v)
    (hv : 2 ≤ v.toNat) (m : Str) (h : Refused ComdatError.text (Comdat.tryMap pf r ctx) m) :
    Honest m ↔ r.fields.length ≤ 3 := by
  by_cases hl : r.fields.length = 3
  · refine iff_of_true ?_ (by omega)
    obtain ⟨e, h, hm⟩ := h
    rw [Comdat.tryMap_eq pf r ctx v hver hv hl, bind_eq_err, mapErr_eq_err] at h
    rcases h with ⟨e', h, rfl⟩ | ⟨name, -, h⟩
    · cases hm
    rw [bind_eq_err, ofOption_eq_err] at h
    rcases h with ⟨h, rfl⟩ | ⟨st, -, h⟩
    · cases hm
    · cases h
  · rw [(C72_comdat_short pf r ctx v hver hv hl m).1 h]
    rw [honest_limit (op := .less) (k := 3) (Q := ")".toList) (by decide +kernel) (by decide +kernel) (by decide +kernel)]
    show _ < 3 ↔ _
    omega

/-- C72 is false: "COMDAT record doesn't have enough fields (4 < 3)". -/
theorem C72_comdat_long (pf : Profile) (r : BRecord) (ctx : PartialMapCtx) (v : U64) (hver : ctx.version = some v)
    (hv : 2 ≤ v.toNat) (h : r.fields.length = 4) :
    Refused ComdatError.text (Comdat.tryMap pf r ctx) "COMDAT record doesn't have enough fields (4 < 3)".toList ∧
      ¬ Honest "COMDAT record doesn't have enough fields (4 < 3)".toList := by
  have h1 := (C72_comdat_short pf r ctx v hver hv (by omega) "COMDAT record doesn't have enough fields (4 < 3)".toList).2 (by
    rw [h]; decide +kernel)
  exact ⟨h1, fun hh => absurd ((C72_comdat_honest_partial pf r ctx v hver hv _ h1).1 hh) (by omega)⟩

example (pf : Profile) : Refused ComdatError.text
    (Comdat.tryMap pf ⟨none, 12, [0, 4, 0, 0]⟩ { PartialMapCtx.default with version := some 2 })
    "COMDAT record doesn't have enough fields (4 < 3)".toList :=
  (C72_comdat_long pf _ _ 2 rfl (by decide) rfl).1

/-! ## Attribute groups -/

/-- What is said of the length of a record of attributes is true. -/
theorem C72_groups_honest (b : UBlock) (m : Str) (h : Refused AttributeError.text (AttributeGroups.tryFrom b) m) : Honest m := by
  obtain ⟨e, h, hm⟩ := h
  obtain ⟨-, r, -, -, -, hf⟩ := (C43_errors b e).1 h
  have hshort : ∀ c n, e = .groupTooShort c n → c = .groupCodeEntry ∧ n < 3 := by
    rintro c n rfl
    cases hf with
    | empty hc hl => exact ⟨rfl, hl⟩
    | «attribute» _ _ _ hf => cases hf
  cases e <;> cases hm
  case groupTooShort c n =>
    obtain ⟨rfl, hn⟩ := hshort c n rfl
    have he : "attribute group record for ".toList ++ AttributeCode.groupCodeEntry.name.toList ++ " too short (".toList =
      "attribute group record for GroupCodeEntry too short (".toList := by decide +kernel
    rw [he]
    exact (honest_limit (op := .less) (k := 3) (Q := ")".toList) (by decide +kernel) (by decide +kernel)
      (by decide +kernel)).2 hn
  case wrongBlock c => cases c <;> exact honest_of_none (by decide +kernel) (by decide +kernel)
  case badAttributeGroup id => exact honest_quote (by decide +kernel) (by decide +kernel)
  case groupSizeMismatch x y =>
    have hx : ∀ c : Char, ¬ isDigit c → c ∉ "under/overconsumed fields in attribute group record (".toList →
        c ∉ " fields, ".toList → c ∉ " consumed)".toList →
        c ∉ "under/overconsumed fields in attribute group record (".toList ++ decimal x ++ " fields, ".toList ++ decimal y ++
          " consumed)".toList := by
      intro c hd h1 h2 h3
      simp only [List.mem_append, h1, h2, h3, decimal_not_mem _ _ hd, or_self, not_false_eq_true]
    exact honest_of_none (hx _ (by decide) (by decide +kernel) (by decide +kernel) (by decide +kernel))
      (hx _ (by decide) (by decide +kernel) (by decide +kernel) (by decide +kernel))
  all_goals exact honest_of_none (by decide +kernel) (by decide +kernel)

/-- A record of a group with fewer than 3 fields is refused with the number of them. -/
theorem C72_group_short (b : UBlock) (pre post : List BRecord) (r : BRecord) (hb : b.records = pre ++ r :: post)
    (hpre : ∀ x ∈ pre, ∃ id param attrs, IsAttrGroup x id param attrs) (hc : r.code = 3) (hl : r.fields.length < 3) :
    Refused AttributeError.text (AttributeGroups.tryFrom b)
      ("attribute group record for GroupCodeEntry too short (".toList ++ decimal r.fields.length ++ " < 3)".toList) := by
  refine ⟨.groupTooShort .groupCodeEntry r.fields.length, (C43_errors b _).2 ⟨pre, r, post, hb, hpre, .empty hc hl⟩, ?_⟩
  have he : "attribute group record for ".toList ++ AttributeCode.groupCodeEntry.name.toList ++ " too short (".toList =
    "attribute group record for GroupCodeEntry too short (".toList := by decide +kernel
  exact congrArg (fun x => some (x ++ decimal r.fields.length ++ " < 3)".toList)) he

example : Refused AttributeError.text (AttributeGroups.tryFrom (UBlock.mk (.ir .paramAttrGroup) [sampleGroup, ⟨none, 3, [1, 0]⟩] []))
    "attribute group record for GroupCodeEntry too short (2 < 3)".toList :=
  ⟨.groupTooShort .groupCodeEntry 2, by decide +kernel, by decide +kernel⟩

/-- C72 is false: a record of `n` fields whose last string is cut off is refused as one of `n + 1` fields of which `n` were used;
it is the other way round. -/
theorem C72_group_swapped (b : UBlock) (pre post : List BRecord) (r : BRecord) (hb : b.records = pre ++ r :: post)
    (hpre : ∀ x ∈ pre, ∃ id param attrs, IsAttrGroup x id param attrs) (hc : r.code = 3)
    (id param : U64) (l : List (Attribute × List U64)) (fs : List U64) (a : Attribute) (hl : AllAttrs l)
    (hr : r.fields = id :: param :: (l.flatMap (·.2) ++ fs)) (ha : CutLast a fs) :
    Refused AttributeError.text (AttributeGroups.tryFrom b)
      ("under/overconsumed fields in attribute group record (".toList ++ decimal (r.fields.length + 1) ++ " fields, ".toList ++
        decimal r.fields.length ++ " consumed)".toList) :=
  ⟨_, (C43_errors b _).2 ⟨pre, r, post, hb, hpre, .cut hc hl hr ha⟩, rfl⟩

example : Refused AttributeError.text
    (AttributeGroups.tryFrom (UBlock.mk (.ir .paramAttrGroup) [sampleGroup, ⟨none, 3, [1, 0, 0, 17, 3, 97]⟩] []))
    "under/overconsumed fields in attribute group record (7 fields, 6 consumed)".toList :=
  ⟨.groupSizeMismatch 7 6, by decide +kernel, by decide +kernel⟩

/-! ## Function bodies -/

private theorem join3 {A B C x y z : Str} (h : A = B ++ C) : B ++ (C ++ x ++ y ++ z) = A ++ x ++ y ++ z := by
  subst h; simp only [List.append_assoc]

private theorem join5 {A B C x y z u v : Str} (h : A = B ++ C) : B ++ (C ++ x ++ y ++ z ++ u ++ v) = A ++ x ++ y ++ z ++ u ++ v := by
  subst h; simp only [List.append_assoc]

/-- What is said of an instruction of a body is true: it has a number of fields other than that expected, or there is no type with
that number. -/
theorem C72_body (b : UBlock) (types : TypeTable) (m : Str) (h : Refused (some ·.text) (FunctionBlock.tryFrom b types) m) :
    m ∈ ["function does not declare block count or has zero blocks".toList, "unknown function code".toList,
      "invalid unary opcode".toList, "invalid binary opcode".toList, "generic mapping error".toList] ∨
    ∃ r ∈ b.records, ∃ c, (r.code.toNat, c) ∈ functionCodeTable ∧
      ((∃ n, ((r.code.toNat ∈ [2, 3, 19, 20, 44] ∧ n = 4) ∨ (r.code = 56 ∧ n = 3)) ∧ r.fields.length ≠ n ∧
        m = "invalid instruction encoding: bad ".toList ++ c.name.toList ++ ": expected ".toList ++ decimal n ++
          " fields, got ".toList ++ decimal r.fields.length) ∨
      ∃ i, r.fields[1]? = some i ∧ types.length ≤ i.toNat ∧
        m = "invalid instruction encoding: bad ".toList ++ c.name.toList ++ ": invalid type table reference: ".toList ++
          decimal i.toNat) := by
  obtain ⟨e, h, hm⟩ := h
  have hf := C53_body_partial b types e h
  have he : "invalid instruction encoding: bad ".toList = "invalid instruction encoding: ".toList ++ "bad ".toList := by
    decide +kernel
  have hm : m = e.text := (Option.some.inj hm).symm
  have h1 : m = "function does not declare block count or has zero blocks".toList ∨ m = "unknown function code".toList ∨
      m = "invalid unary opcode".toList ∨ m = "invalid binary opcode".toList ∨ m = "generic mapping error".toList →
      m ∈ ["function does not declare block count or has zero blocks".toList, "unknown function code".toList,
      "invalid unary opcode".toList, "invalid binary opcode".toList, "generic mapping error".toList] := by
    simp only [List.mem_cons, List.not_mem_nil, or_false]
    exact id
  cases hf with
  | fields hr hc hn hl =>
    exact .inr ⟨_, hr, _, hc, .inl ⟨_, hn, hl, hm.trans (join5 he)⟩⟩
  | type hr hc hk hi hl =>
    exact .inr ⟨_, hr, _, hc, .inr ⟨_, hi, hl, hm.trans (join3 he)⟩⟩
  | noCount | counts => exact .inl (h1 (.inr (.inr (.inr (.inr hm)))))
  | emptyCount => exact .inl (h1 (.inl hm))
  | code => exact .inl (h1 (.inr (.inl hm)))
  | unary => exact .inl (h1 (.inr (.inr (.inl hm))))
  | opcode | operand => exact .inl (h1 (.inr (.inr (.inr (.inl hm)))))

example : Refused (some ·.text) (FunctionBlock.tryFrom (.mk (.ir .function) [⟨none, 1, [1]⟩, ⟨none, 44, [1, 2]⟩] []) [])
    "invalid instruction encoding: bad InstStore: expected 4 fields, got 2".toList :=
  ⟨.badInst .instStore (.fields 4 2), by decide +kernel, by decide +kernel⟩

example : Refused (some ·.text) (FunctionBlock.tryFrom (.mk (.ir .function) [⟨none, 1, [1]⟩, ⟨none, 56, [1, 2, 0]⟩] []) [.prim .void])
    "invalid instruction encoding: bad InstUnop: invalid type table reference: 2".toList :=
  ⟨.badInst .instUnop (.type 2), by decide +kernel, by decide +kernel⟩

end Verif.Props
