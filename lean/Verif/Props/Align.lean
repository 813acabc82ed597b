import Verif.Support.Lemmas

/-!
# Alignments (`llvm-support/src/align.rs`): C33–C36
-/

namespace Verif.Props

/-! ## C33: alignments are powers of two and convert faithfully -/

private theorem isPow2_iff (v : U64) : Align.isPow2 v = true ↔ ∃ k, k < 64 ∧ v.toNat = 2 ^ k := by
  unfold Align.isPow2
  rw [Bool.and_eq_true, decide_eq_true_iff, beq_iff_eq]
  constructor
  · rintro ⟨h0, h1⟩
    have hv : 0 < v.toNat := by
      have := BitVec.lt_def.1 h0
      exact this
    have h2 := congrArg BitVec.toNat h1
    rw [BitVec.toNat_and, BitVec.toNat_sub_of_le (by rw [BitVec.le_def]; exact hv)] at h2
    obtain ⟨k, hk⟩ := (Nat.and_sub_one_eq_zero_iff_isPowerOfTwo (n := v.toNat) (by omega)).1 (by simpa using h2)
    refine ⟨k, ?_, hk⟩
    have := v.isLt
    rw [hk] at this
    exact (Nat.pow_lt_pow_iff_right (by decide)).1 this
  · rintro ⟨k, hk, hv⟩
    have hpos : 0 < v.toNat := by rw [hv]; exact Nat.two_pow_pos k
    refine ⟨by simpa [BitVec.lt_def] using hpos, ?_⟩
    apply BitVec.eq_of_toNat_eq
    rw [BitVec.toNat_and, BitVec.toNat_sub_of_le (by rw [BitVec.le_def]; exact hpos)]
    have := (Nat.and_sub_one_eq_zero_iff_isPowerOfTwo (n := v.toNat) (by omega)).2 ⟨k, hv⟩
    simpa using this

private theorem log2_pow (v : U64) (k : Nat) (hk : k < 64) (hv : v.toNat = 2 ^ k) :
    Align.log2 v = BitVec.ofNat 8 k := by
  have h0 : v ≠ 0 := by
    rintro rfl
    have := Nat.two_pow_pos k
    simp at hv
    omega
  unfold Align.log2 Align.leadingZeros
  rw [if_neg h0, hv, Nat.log2_two_pow]
  congr 1
  omega

/-- `from_shift` accepts exactly the shifts 0 to 63, gives them back, and names the offending shift otherwise. -/
theorem C33_from_shift (s : U8) :
    (s.toNat ≤ 63 → ∃ a, Align.fromShift s = .ok a ∧ a.shift = s) ∧
      (63 < s.toNat → Align.fromShift s = .err (.shiftTooBig s)) := by
  unfold Align.fromShift Align.maxShift
  constructor
  · intro h
    rw [if_neg (by simp [BitVec.lt_def]; omega)]
    exact ⟨_, rfl, rfl⟩
  · intro h
    rw [if_pos (by simp [BitVec.lt_def]; omega)]

example : ∃ a, Align.fromShift 61 = .ok a := ⟨_, rfl⟩
example : Align.fromShift 64 = .err (.shiftTooBig 64) := rfl

/-- `from_byte_align` accepts exactly the powers of two, and the alignment made has that power as its shift. All other
numbers, zero included, are rejected by name. -/
theorem C33_from_byte_align (v : U64) :
    (∀ a, Align.fromByteAlign v = .ok a ↔ v.toNat = 2 ^ a.shift.toNat) ∧
      ((∀ k, v.toNat ≠ 2 ^ k) → Align.fromByteAlign v = .err (.notPowerOfTwo v)) := by
  constructor
  · intro a
    unfold Align.fromByteAlign
    constructor
    · intro h
      split at h
      · rename_i hp
        obtain ⟨k, hk, hv⟩ := (isPow2_iff v).1 hp
        rw [log2_pow v k hk hv, Align.fromShift, if_neg (by simp [BitVec.lt_def, Align.maxShift]; omega)] at h
        obtain rfl := Out.ok.inj h
        rw [hv, BitVec.toNat_ofNat, Nat.mod_eq_of_lt (by omega)]
      · cases h
    · intro hv
      have hk : a.shift.toNat < 64 := by
        have := v.isLt
        rw [hv] at this
        exact (Nat.pow_lt_pow_iff_right (by decide)).1 this
      rw [if_pos ((isPow2_iff v).2 ⟨_, hk, hv⟩), log2_pow v _ hk hv, Align.fromShift,
        if_neg (by simp [BitVec.lt_def, Align.maxShift]; omega)]
      simp
  · intro h
    unfold Align.fromByteAlign
    rw [if_neg]
    intro hp
    obtain ⟨k, _, hv⟩ := (isPow2_iff v).1 hp
    exact h k hv

example : Align.fromByteAlign 0x8000000000000000 = .ok ⟨63⟩ := ((C33_from_byte_align _).1 _).2 (by decide +kernel)
example : Align.fromByteAlign 24 = .err (.notPowerOfTwo 24) := by decide +kernel

/-- `from_bit_align` accepts exactly eight times the powers of two. Numbers that are not a multiple of 8 and multiples
of 8 that are not a power of two are told apart by the error. -/
theorem C33_from_bit_align (v : U64) :
    (∀ a, Align.fromBitAlign v = .ok a ↔ v.toNat = 8 * 2 ^ a.shift.toNat) ∧
      (¬ 8 ∣ v.toNat → Align.fromBitAlign v = .err (.notByteMultiple v)) ∧
      (8 ∣ v.toNat → (∀ k, v.toNat ≠ 2 ^ k) →
        ∃ w : U64, w.toNat * 8 = v.toNat ∧ Align.fromBitAlign v = .err (.notPowerOfTwo w)) := by
  have hm : v % 8 = 0 ↔ 8 ∣ v.toNat := by
    rw [← BitVec.toNat_inj, BitVec.toNat_umod]
    simp
    omega
  have hd : (v / 8).toNat = v.toNat / 8 := by rw [BitVec.toNat_udiv]; rfl
  refine ⟨fun a => ?_, fun h => ?_, fun h h' => ?_⟩
  · unfold Align.fromBitAlign
    constructor
    · intro h
      split at h
      · rename_i h8
        have := ((C33_from_byte_align _).1 a).1 h
        rw [hd] at this
        have h9 := hm.1 h8
        omega
      · cases h
    · intro h
      have h8 : 8 ∣ v.toNat := ⟨_, h⟩
      rw [if_pos (hm.2 h8)]
      refine ((C33_from_byte_align _).1 a).2 ?_
      rw [hd, h]
      omega
  · unfold Align.fromBitAlign
    rw [if_neg (fun h8 => h (hm.1 h8))]
  · refine ⟨v / 8, by rw [hd]; omega, ?_⟩
    unfold Align.fromBitAlign
    rw [if_pos (hm.2 h)]
    refine (C33_from_byte_align _).2 fun k hk => h' (k + 3) ?_
    rw [hd] at hk
    rw [Nat.pow_add]
    omega

example : Align.fromBitAlign 64 = .ok ⟨3⟩ := ((C33_from_bit_align _).1 _).2 (by decide)
example : Align.fromBitAlign 1 = .err (.notByteMultiple 1) := by decide +kernel
example : Align.fromBitAlign 0 = .err (.notPowerOfTwo 0) := by decide +kernel

/-- The alignments a user can get hold of: the named constants and what the constructors return. -/
inductive MadeAlign : Align → Prop where
  | const (a : Align) : a ∈ [Align.align8, .align16, .align32, .align64, .align128, TypeAlignSpec.maxAlign] → MadeAlign a
  | shift (s : U8) (a : Align) : Align.fromShift s = .ok a → MadeAlign a
  | byte (v : U64) (a : Align) : Align.fromByteAlign v = .ok a → MadeAlign a
  | bit (v : U64) (a : Align) : Align.fromBitAlign v = .ok a → MadeAlign a
  | maybe (v : U8) (a : Align) : MaybeAlign.tryFrom v = .ok ⟨some a⟩ → MadeAlign a

private theorem fromShift_le (s : U8) (a : Align) (h : Align.fromShift s = .ok a) : a.shift.toNat ≤ 63 := by
  unfold Align.fromShift Align.maxShift at h
  split at h
  · cases h
  · rename_i hs
    obtain rfl := Out.ok.inj h
    simpa [BitVec.lt_def] using hs

/-- Every alignment that can be made has a shift of at most 63. -/
theorem C33_made (a : Align) (h : MadeAlign a) : a.shift.toNat ≤ 63 := by
  cases h with
  | const _ h =>
    simp only [List.mem_cons, List.not_mem_nil, or_false] at h
    rcases h with rfl | rfl | rfl | rfl | rfl | rfl <;> decide
  | shift s _ h => exact fromShift_le s a h
  | byte v _ h =>
    have h := ((C33_from_byte_align v).1 a).1 h
    have := v.isLt
    rw [h] at this
    have := (Nat.pow_lt_pow_iff_right (by decide)).1 this
    omega
  | bit v _ h =>
    have h := ((C33_from_bit_align v).1 a).1 h
    have := v.isLt
    rw [h] at this
    replace this : 2 ^ (3 + a.shift.toNat) < 2 ^ 64 := by rw [Nat.pow_add]; exact this
    have := (Nat.pow_lt_pow_iff_right (by decide)).1 this
    omega
  | maybe v _ h =>
    unfold MaybeAlign.tryFrom at h
    split at h
    · cases h
    · cases hs : Align.fromShift (v - 1) with
      | ok b =>
        rw [hs] at h
        have hb : b = a := by
          have := Out.ok.inj h
          simpa using this
        subst hb
        exact fromShift_le _ _ hs
      | _ => rw [hs] at h; cases h

/-- `byte_align` returns two to the shift, which `from_byte_align` turns back into the same alignment. -/
theorem C33_byte_align (a : Align) (h : MadeAlign a) :
    a.byteAlign.toNat = 2 ^ a.shift.toNat ∧ Align.fromByteAlign a.byteAlign = .ok a := by
  have hle := C33_made a h
  have hb : a.byteAlign.toNat = 2 ^ a.shift.toNat := by
    unfold Align.byteAlign
    rw [BitVec.toNat_shiftLeft, Nat.shiftLeft_eq, Nat.mod_eq_of_lt]
    · simp
    · have : 2 ^ a.shift.toNat < 2 ^ 64 := (Nat.pow_lt_pow_iff_right (by decide)).2 (by omega)
      simpa using this
  exact ⟨hb, ((C33_from_byte_align _).1 a).2 hb⟩

example : MadeAlign ⟨63⟩ := .shift 63 _ rfl

/-- `bit_align` returns eight times two to the shift, which `from_bit_align` turns back, for shifts up to 60. The
claim is false above, see `C33_bit_align_overflows`. -/
theorem C33_bit_align_partial (pf : Profile) (a : Align) (h : a.shift.toNat ≤ 60) :
    ∃ v, a.bitAlign pf = .ok v ∧ v.toNat = 8 * 2 ^ a.shift.toNat ∧ Align.fromBitAlign v = .ok a := by
  have hb := (C33_byte_align a (.shift a.shift a (by
    obtain ⟨b, hb, hs⟩ := (C33_from_shift a.shift).1 (by omega)
    rw [hb]
    cases a
    cases b
    simp_all))).1
  have hlt : 2 ^ a.shift.toNat < 2 ^ 61 := (Nat.pow_lt_pow_iff_right (by decide)).2 (by omega)
  have hv : (a.byteAlign * 8).toNat = 8 * 2 ^ a.shift.toNat := by
    rw [BitVec.toNat_mul, hb]
    generalize 2 ^ a.shift.toNat = x at *
    rw [show ((8 : U64).toNat) = 8 from rfl, Nat.mod_eq_of_lt (by omega)]
    omega
  refine ⟨a.byteAlign * 8, ?_, hv, ((C33_from_bit_align _).1 a).2 hv⟩
  unfold Align.bitAlign
  rw [if_pos]
  rw [hb]
  generalize 2 ^ a.shift.toNat = x at *
  omega

example : Align.bitAlign .debug ⟨60⟩ = .ok (2 ^ 63) := by decide +kernel

/-- For the three largest alignments `bit_align` panics in a debug build and returns 0 in a release build. -/
theorem C33_bit_align_overflows (a : Align) (h : MadeAlign a) (h61 : 61 ≤ a.shift.toNat) :
    a.bitAlign .debug = .panic .bitAlignMul ∧ a.bitAlign .release = .ok 0 := by
  have hb := (C33_byte_align a h).1
  have hle := C33_made a h
  have hge : 2 ^ 61 ≤ 2 ^ a.shift.toNat := Nat.pow_le_pow_right (by decide) h61
  have hn : ¬ a.byteAlign.toNat * 8 < 2 ^ 64 := by
    rw [hb]
    generalize 2 ^ a.shift.toNat = x at *
    omega
  unfold Align.bitAlign
  rw [if_neg hn, if_neg hn]
  refine ⟨rfl, ?_⟩
  refine congrArg Out.ok ?_
  apply BitVec.eq_of_toNat_eq
  rw [BitVec.toNat_mul, hb]
  obtain ⟨k, hk⟩ : ∃ k, a.shift.toNat = 61 + k := ⟨a.shift.toNat - 61, by omega⟩
  rw [hk, Nat.pow_add]
  generalize 2 ^ k = y
  rw [show ((8 : U64).toNat) = 8 from rfl]
  simp
  omega

example : MadeAlign ⟨61⟩ ∧ Align.bitAlign .debug ⟨61⟩ = .panic .bitAlignMul :=
  ⟨.shift 61 _ rfl, by decide +kernel⟩

/-- The encoded optional alignment: 0 is none, `k + 1` is the alignment with shift `k`, and anything above 64 is
rejected. -/
theorem C33_maybe_align (v : U8) :
    (v = 0 → MaybeAlign.tryFrom v = .ok ⟨none⟩) ∧
      (1 ≤ v.toNat → v.toNat ≤ 64 → ∃ a, MaybeAlign.tryFrom v = .ok ⟨some a⟩ ∧ a.shift.toNat + 1 = v.toNat) ∧
      (64 < v.toNat → MaybeAlign.tryFrom v = .err (.shiftTooBig (v - 1))) := by
  refine ⟨?_, ?_, ?_⟩
  · rintro rfl
    rfl
  · intro h1 h2
    have h0 : v ≠ 0 := by rintro rfl; simp at h1
    have hs : (v - 1).toNat = v.toNat - 1 := BitVec.toNat_sub_of_le (by rw [BitVec.le_def]; simpa using h1)
    obtain ⟨a, ha, hv⟩ := (C33_from_shift (v - 1)).1 (by omega)
    refine ⟨a, ?_, by rw [hv, hs]; omega⟩
    unfold MaybeAlign.tryFrom
    rw [if_neg h0, ha]
    rfl
  · intro h
    have h0 : v ≠ 0 := by rintro rfl; simp at h
    have hs : (v - 1).toNat = v.toNat - 1 := BitVec.toNat_sub_of_le (by rw [BitVec.le_def]; simp; omega)
    unfold MaybeAlign.tryFrom
    rw [if_neg h0, (C33_from_shift (v - 1)).2 (by omega)]
    rfl

example : MaybeAlign.tryFrom 64 = .ok ⟨some ⟨63⟩⟩ := by decide +kernel
example : MaybeAlign.tryFrom 65 = .err (.shiftTooBig 64) := by decide +kernel

/-! ## C34: type alignment tables behave like sorted maps -/

/-- The order of aligned types: aggregates, then floats, integers and vectors, each by width. -/
def typeRank : AlignedType → Nat
  | .aggregate => 0 | .float _ => 1 | .integer _ => 2 | .vector _ => 3

def typeWidth : AlignedType → Nat
  | .aggregate => 0 | .float w => w.val.toNat | .integer w => w.val.toNat | .vector w => w.val.toNat

def TypeBefore (a b : AlignedType) : Prop :=
  typeRank a < typeRank b ∨ (typeRank a = typeRank b ∧ typeWidth a < typeWidth b)

private theorem compare_nat_isLE (a b : Nat) : (compare a b).isLE = true ↔ a ≤ b := by
  rw [Nat.isLE_compare]

private theorem type_eq_iff (a b : AlignedType) : a = b ↔ typeRank a = typeRank b ∧ typeWidth a = typeWidth b := by
  constructor
  · rintro rfl
    exact ⟨rfl, rfl⟩
  · rintro ⟨h1, h2⟩
    cases a <;> cases b <;> simp only [typeRank, typeWidth] at h1 h2 <;>
      first
      | omega
      | rfl
      | (rename_i l r
         cases l
         cases r
         have h := BitVec.eq_of_toNat_eq h2
         dsimp only at h
         rw [h])

private theorem cmp_isLE (a b : AlignedType) : (a.cmp b).isLE = true ↔ TypeBefore a b ∨ a = b := by
  rw [type_eq_iff]
  cases a <;> cases b <;>
    simp only [AlignedType.cmp, TypeBefore, typeRank, typeWidth, compare_nat_isLE] <;>
    first
    | omega
    | (simp [Ordering.isLE] <;> omega)

theorem typeBefore_irrefl (a : AlignedType) : ¬ TypeBefore a a := by
  unfold TypeBefore
  omega

theorem typeBefore_trans {a b c : AlignedType} (h1 : TypeBefore a b) (h2 : TypeBefore b c) :
    TypeBefore a c := by
  unfold TypeBefore at *
  omega

theorem typeBefore_total {a b : AlignedType} (h : ¬ (TypeBefore a b ∨ a = b)) : TypeBefore b a := by
  rw [type_eq_iff] at h
  unfold TypeBefore at *
  omega

/-- The split made by `rposition`. -/
theorem rposition_split {α : Type} (p : α → Bool) (l : List α) :
    (rposition p l = none ∧ ∀ x ∈ l, p x = false) ∨
      ∃ pre x post, l = pre ++ x :: post ∧ p x = true ∧ (∀ y ∈ post, p y = false) ∧
        rposition p l = some pre.length := by
  induction l with
  | nil => exact .inl ⟨rfl, by simp⟩
  | cons a l ih =>
    rcases ih with ⟨hn, hall⟩ | ⟨pre, x, post, rfl, hx, hpost, hpos⟩
    · by_cases ha : p a = true
      · exact .inr ⟨[], a, l, rfl, ha, hall, by simp [rposition, hn, ha]⟩
      · refine .inl ⟨by simp [rposition, hn, ha], ?_⟩
        intro y hy
        rcases List.mem_cons.1 hy with rfl | hy
        · simpa using ha
        · exact hall y hy
    · exact .inr ⟨a :: pre, x, post, rfl, hx, hpost, by simp [rposition, hpos]⟩

private theorem insertIdx_after {α : Type} (pre : List α) (x s : α) (post : List α) :
    (pre ++ x :: post).insertIdx (pre.length + 1) s = pre ++ x :: s :: post := by
  induction pre with
  | nil => rfl
  | cons a pre ih =>
    rw [List.cons_append, List.length_cons, List.insertIdx_succ_cons, ih]
    rfl

theorem update_cases (l : TypeAlignSpecs) (spec : TypeAlignSpec)
    (hl : l.Pairwise fun a b => TypeBefore a.alignedType b.alignedType) :
    ∃ pre post old, l = pre ++ old ++ post ∧ TypeAlignSpecs.update l spec = pre ++ spec :: post ∧
      (old = [] ∨ ∃ o, old = [o] ∧ o.alignedType = spec.alignedType) ∧
      (∀ x ∈ pre, TypeBefore x.alignedType spec.alignedType) ∧
      (∀ x ∈ post, TypeBefore spec.alignedType x.alignedType) := by
  unfold TypeAlignSpecs.update
  rcases rposition_split (fun other => (other.alignedType.cmp spec.alignedType).isLE) l with
    ⟨hn, hall⟩ | ⟨pre, x, post, rfl, hx, hpost, hpos⟩
  · rw [hn]
    refine ⟨[], l, [], by simp, by simp, .inl rfl, by simp, ?_⟩
    intro x hx
    refine typeBefore_total fun h => ?_
    have := hall x hx
    rw [(cmp_isLE _ _).2 h] at this
    cases this
  · rw [hpos]
    have hx' := (cmp_isLE _ _).1 hx
    have hpost' : ∀ y ∈ post, TypeBefore spec.alignedType y.alignedType := by
      intro y hy
      refine typeBefore_total fun h => ?_
      have := hpost y hy
      rw [(cmp_isLE _ _).2 h] at this
      cases this
    have hpre : ∀ y ∈ pre, TypeBefore y.alignedType x.alignedType := by
      intro y hy
      exact (List.pairwise_append.1 hl).2.2 y hy x (by simp)
    simp only [List.getElem?_append_right (Nat.le_refl _), Nat.sub_self, List.getElem?_cons_zero]
    split
    · rename_i he
      refine ⟨pre, post, [x], by simp, ?_, .inr ⟨x, rfl, he⟩, ?_, hpost'⟩
      · cases x
        cases spec
        cases he
        simp
      · intro y hy
        rw [← show x.alignedType = spec.alignedType from he]
        exact hpre y hy
    · rename_i hne
      have hx' := hx'.resolve_right hne
      refine ⟨pre ++ [x], post, [], by simp, ?_, .inl rfl, ?_, hpost'⟩
      · rw [insertIdx_after, List.append_assoc, List.singleton_append]
      · intro y hy
        rcases List.mem_append.1 hy with hy | hy
        · exact typeBefore_trans (hpre y hy) hx'
        · rw [List.mem_singleton.1 hy]
          exact hx'

theorem update_sorted (l : TypeAlignSpecs) (spec : TypeAlignSpec)
    (hl : l.Pairwise fun a b => TypeBefore a.alignedType b.alignedType) :
    (TypeAlignSpecs.update l spec).Pairwise fun a b => TypeBefore a.alignedType b.alignedType := by
  obtain ⟨pre, post, old, rfl, hu, _, hpre, hpost⟩ := update_cases l spec hl
  rw [hu]
  rw [List.append_assoc] at hl
  obtain ⟨h1, h2, h3⟩ := List.pairwise_append.1 hl
  refine List.pairwise_append.2 ⟨h1, List.pairwise_cons.2 ⟨hpost, (List.pairwise_append.1 h2).2.1⟩, ?_⟩
  intro a ha b hb
  rcases List.mem_cons.1 hb with rfl | hb
  · exact hpre a ha
  · exact h3 a ha b (List.mem_append_right _ hb)

private theorem update_find (l : TypeAlignSpecs) (spec : TypeAlignSpec)
    (hl : l.Pairwise fun a b => TypeBefore a.alignedType b.alignedType) (t : AlignedType) :
    (TypeAlignSpecs.update l spec).find? (fun e => e.alignedType = t) =
      (spec :: l).find? (fun e => e.alignedType = t) := by
  obtain ⟨pre, post, old, rfl, hu, hold, hpre, hpost⟩ := update_cases l spec hl
  rw [hu]
  by_cases ht : spec.alignedType = t
  · subst ht
    rw [List.find?_append, List.find?_eq_none.2]
    · simp
    · intro x hx he
      have := hpre x hx
      rw [show x.alignedType = spec.alignedType by simpa using he] at this
      exact typeBefore_irrefl _ this
  · rcases hold with rfl | ⟨o, rfl, ho⟩
    · simp [List.find?_append, ht]
    · simp [List.find?_append, ht, ho]

/-- After any sequence of updates to the default table, the table is strictly sorted, so it has at most one entry for
each type. Its entry for a type is the last update given for that type, or the default table's entry if there was
none. -/
theorem C34_sorted_map (updates : List TypeAlignSpec) (table : TypeAlignSpecs)
    (h : table = updates.foldl TypeAlignSpecs.update TypeAlignSpecs.default) :
    (table.Pairwise fun a b => TypeBefore a.alignedType b.alignedType) ∧
      ∀ t, table.find? (fun e => e.alignedType = t) =
        (updates.reverse ++ TypeAlignSpecs.default).find? (fun e => e.alignedType = t) := by
  subst h
  have hd : TypeAlignSpecs.default.Pairwise fun a b => TypeBefore a.alignedType b.alignedType := by
    unfold TypeBefore
    decide
  generalize TypeAlignSpecs.default = l at hd
  induction updates generalizing l with
  | nil => exact ⟨hd, fun t => rfl⟩
  | cons u us ih =>
    obtain ⟨h1, h2⟩ := ih _ (update_sorted l u hd)
    refine ⟨h1, fun t => ?_⟩
    rw [List.foldl_cons, h2 t, List.find?_append, update_find l u hd t, ← List.find?_append]
    simp

/-- The entries of the table are exactly those found by type. -/
theorem C34_entries (updates : List TypeAlignSpec) (e : TypeAlignSpec) :
    e ∈ updates.foldl TypeAlignSpecs.update TypeAlignSpecs.default ↔
      (updates.reverse ++ TypeAlignSpecs.default).find? (fun o => o.alignedType = e.alignedType) = some e := by
  obtain ⟨h1, h2⟩ := C34_sorted_map updates _ rfl
  rw [← h2 e.alignedType]
  generalize updates.foldl TypeAlignSpecs.update TypeAlignSpecs.default = l at h1
  clear h2
  constructor
  · intro he
    obtain ⟨pre, post, rfl⟩ := List.append_of_mem he
    rw [List.find?_append, List.find?_eq_none.2]
    · simp
    · intro x hx hxe
      have := (List.pairwise_append.1 h1).2.2 x hx e (by simp)
      rw [show x.alignedType = e.alignedType by simpa using hxe] at this
      exact typeBefore_irrefl _ this
  · exact List.mem_of_find?_eq_some

/-- The default table's entries all satisfy the checks of `TypeAlignSpec::new`, so the `unwrap`s building it succeed. -/
theorem C34_default_valid (e : TypeAlignSpec) (h : e ∈ TypeAlignSpecs.default) :
    TypeAlignSpec.new e.alignedType e.abi e.pref = .ok e := by
  simp only [TypeAlignSpecs.default, List.mem_cons, List.not_mem_nil, or_false] at h
  rcases h with rfl | rfl | rfl | rfl | rfl | rfl | rfl | rfl | rfl | rfl <;> rfl

/-- A type updated twice, a new integer width and a new vector width. -/
example :
    let i64 : TypeAlignSpec := ⟨.integer ⟨64⟩, .align32, .align64⟩
    let i64' : TypeAlignSpec := ⟨.integer ⟨64⟩, .align64, .align128⟩
    let i24 : TypeAlignSpec := ⟨.integer ⟨24⟩, .align32, .align32⟩
    let v64 : TypeAlignSpec := ⟨.vector ⟨64⟩, .align64, .align64⟩
    [i64, v64, i24, i64'].foldl TypeAlignSpecs.update TypeAlignSpecs.default =
      TypeAlignSpecs.default.take 8 ++ [i24, ⟨.integer ⟨32⟩, .align32, .align32⟩, i64', v64] := by
  decide +kernel

/-! ## C35: pointer alignment tables -/

theorem pupdate_cases (l : PointerAlignSpecs) (spec : PointerAlignSpec)
    (hl : l.Pairwise fun a b => a.addressSpace.val ≤ b.addressSpace.val) :
    ∃ pre post old, l = pre ++ old ++ post ∧ PointerAlignSpecs.update l spec = pre ++ spec :: post ∧
      ((old = [] ∧ ∀ pre' x, pre = pre' ++ [x] → x ≠ spec) ∨ old = [spec]) ∧
      (∀ x ∈ pre, x.addressSpace.val ≤ spec.addressSpace.val) ∧
      (∀ x ∈ post, spec.addressSpace.val < x.addressSpace.val) := by
  unfold PointerAlignSpecs.update
  have hle : ∀ x : PointerAlignSpec, (x.cmp spec).isLE = true ↔ x.addressSpace.val ≤ spec.addressSpace.val := by
    intro x
    rw [compare_nat_isLE, BitVec.le_def]
  have hgt : ∀ x : PointerAlignSpec, (x.cmp spec).isLE = false → spec.addressSpace.val < x.addressSpace.val := by
    intro x h
    rw [← Bool.not_eq_true, hle] at h
    exact BitVec.not_le.1 h
  rcases rposition_split (fun other : PointerAlignSpec => (other.cmp spec).isLE) l with
    ⟨hn, hall⟩ | ⟨pre, x, post, rfl, hx, hpost, hpos⟩
  · rw [hn]
    refine ⟨[], l, [], by simp, by simp, .inl ⟨rfl, by simp⟩, by simp, ?_⟩
    intro x hx
    exact hgt x (hall x hx)
  · rw [hpos]
    have hx' : x.addressSpace.val ≤ spec.addressSpace.val := (hle x).1 hx
    have hpost' : ∀ y ∈ post, spec.addressSpace.val < y.addressSpace.val := fun y hy => hgt y (hpost y hy)
    have hpre : ∀ y ∈ pre, y.addressSpace.val ≤ x.addressSpace.val := by
      intro y hy
      exact (List.pairwise_append.1 hl).2.2 y hy x (by simp)
    simp only [List.getElem?_append_right (Nat.le_refl _), Nat.sub_self, List.getElem?_cons_zero]
    split
    · rename_i he
      subst he
      exact ⟨pre, post, [x], by simp, by simp, .inr rfl, hpre, hpost'⟩
    · rename_i hne
      refine ⟨pre ++ [x], post, [], by simp, ?_, .inl ⟨rfl, ?_⟩, ?_, hpost'⟩
      · rw [insertIdx_after, List.append_assoc, List.singleton_append]
      · intro pre' y hy
        rw [← (List.append_inj_right' hy rfl |> List.cons.inj).1]
        exact hne
      · intro y hy
        rcases List.mem_append.1 hy with hy | hy
        · exact BitVec.le_trans (hpre y hy) hx'
        · rw [List.mem_singleton.1 hy]
          exact hx'

theorem pupdate_sorted (l : PointerAlignSpecs) (spec : PointerAlignSpec)
    (hl : l.Pairwise fun a b => a.addressSpace.val ≤ b.addressSpace.val) :
    (PointerAlignSpecs.update l spec).Pairwise fun a b => a.addressSpace.val ≤ b.addressSpace.val := by
  obtain ⟨pre, post, old, rfl, hu, _, hpre, hpost⟩ := pupdate_cases l spec hl
  rw [hu]
  rw [List.append_assoc] at hl
  obtain ⟨h1, h2, h3⟩ := List.pairwise_append.1 hl
  refine List.pairwise_append.2 ⟨h1, List.pairwise_cons.2
    ⟨fun x hx => BitVec.le_of_lt (hpost x hx), (List.pairwise_append.1 h2).2.1⟩, ?_⟩
  intro a ha b hb
  rcases List.mem_cons.1 hb with rfl | hb
  · exact hpre a ha
  · exact h3 a ha b (List.mem_append_right _ hb)

private theorem pupdate_find (l : PointerAlignSpecs) (spec : PointerAlignSpec)
    (hl : l.Pairwise fun a b => a.addressSpace.val ≤ b.addressSpace.val) (a : AddressSpace) :
    (PointerAlignSpecs.update l spec).reverse.find? (fun e => e.addressSpace = a) =
      if spec.addressSpace = a then some spec else l.reverse.find? (fun e => e.addressSpace = a) := by
  obtain ⟨pre, post, old, rfl, hu, hold, hpre, hpost⟩ := pupdate_cases l spec hl
  rw [hu]
  split
  · rename_i ha
    subst ha
    rw [List.reverse_append, List.reverse_cons, List.append_assoc, List.find?_append, List.find?_eq_none.2]
    · simp
    · intro x hx he
      have := hpost x (List.mem_reverse.1 hx)
      rw [show x.addressSpace = spec.addressSpace by simpa using he] at this
      exact absurd this (by simp)
  · rename_i ha
    rcases hold with ⟨rfl, hlast⟩ | rfl
    · simp [List.find?_append, ha]
    · simp [List.find?_append, ha]

/-- The part of the claim that holds: the table stays sorted by address space, and the rightmost entry of an address
space is the last update given for it, or the default entry. What is missing is that there is only one entry for each
address space; that is false, see `C35_duplicates`. -/
theorem C35_sorted_last_partial (updates : List PointerAlignSpec) (table : PointerAlignSpecs)
    (h : table = updates.foldl PointerAlignSpecs.update PointerAlignSpecs.default) :
    (table.Pairwise fun a b => a.addressSpace.val ≤ b.addressSpace.val) ∧
      ∀ a, table.reverse.find? (fun e => e.addressSpace = a) =
        (updates.reverse ++ PointerAlignSpecs.default).find? (fun e => e.addressSpace = a) := by
  subst h
  have hd : PointerAlignSpecs.default.Pairwise fun a b => a.addressSpace.val ≤ b.addressSpace.val := by decide
  have key : ∀ (l : PointerAlignSpecs), (l.Pairwise fun a b => a.addressSpace.val ≤ b.addressSpace.val) →
      ((updates.foldl PointerAlignSpecs.update l).Pairwise fun a b => a.addressSpace.val ≤ b.addressSpace.val) ∧
      ∀ a, (updates.foldl PointerAlignSpecs.update l).reverse.find? (fun e => e.addressSpace = a) =
        (updates.reverse ++ l.reverse).find? (fun e => e.addressSpace = a) := by
    induction updates with
    | nil => exact fun l hl => ⟨hl, fun a => rfl⟩
    | cons u us ih =>
      intro l hl
      obtain ⟨h1, h2⟩ := ih _ (pupdate_sorted l u hl)
      refine ⟨h1, fun a => ?_⟩
      rw [List.foldl_cons, h2 a, List.find?_append, pupdate_find l u hl a]
      by_cases hu : u.addressSpace = a
      · simp [List.find?_append, hu]
      · simp [List.find?_append, hu]
  exact key _ hd

/-- If no address space is given two different specifications (the default table's included), the table does have
exactly one entry for each. -/
theorem C35_consistent_partial (updates : List PointerAlignSpec) (table : PointerAlignSpecs)
    (h : table = updates.foldl PointerAlignSpecs.update PointerAlignSpecs.default)
    (hc : ∀ s ∈ updates ++ PointerAlignSpecs.default, ∀ s' ∈ updates ++ PointerAlignSpecs.default,
      s.addressSpace = s'.addressSpace → s = s') :
    (table.Pairwise fun a b => a.addressSpace.val < b.addressSpace.val) ∧
      ∀ s, s ∈ table ↔ s ∈ updates ++ PointerAlignSpecs.default := by
  subst h
  have hd : PointerAlignSpecs.default.Pairwise fun a b => a.addressSpace.val < b.addressSpace.val := by decide
  generalize PointerAlignSpecs.default = l at hd hc
  induction updates generalizing l with
  | nil => exact ⟨hd, fun s => Iff.rfl⟩
  | cons u us ih =>
    obtain ⟨pre, post, old, rfl, hu, hold, hpre, hpost⟩ :=
      pupdate_cases l u (hd.imp fun h => BitVec.le_of_lt h)
    have hmem : ∀ s, s ∈ pre ++ u :: post ↔ s = u ∨ s ∈ pre ++ old ++ post := by
      intro s
      rcases hold with ⟨rfl, hlast⟩ | rfl
      · simp
        grind
      · simp
        grind
    have hd' : (pre ++ u :: post).Pairwise fun a b => a.addressSpace.val < b.addressSpace.val := by
      rw [List.append_assoc] at hd
      obtain ⟨h1, h2, h3⟩ := List.pairwise_append.1 hd
      refine List.pairwise_append.2 ⟨h1, List.pairwise_cons.2 ⟨hpost, (List.pairwise_append.1 h2).2.1⟩, ?_⟩
      intro a ha b hb
      rcases List.mem_cons.1 hb with rfl | hb
      · refine BitVec.lt_def.2 (Nat.lt_of_le_of_ne (BitVec.le_def.1 (hpre a ha)) fun he => ?_)
        replace he := BitVec.eq_of_toNat_eq he
        have hab : a = b := by
          refine hc a (by simp [ha]) b (by simp) ?_
          cases ha' : a.addressSpace
          cases hb' : b.addressSpace
          rw [ha', hb'] at he
          exact congrArg _ he
        subst hab
        rcases hold with ⟨rfl, hlast⟩ | rfl
        · rcases List.eq_nil_or_concat pre with rfl | ⟨pre', x, rfl⟩
          · cases ha
          · rw [List.concat_eq_append] at *
            rcases List.mem_append.1 ha with ha | ha
            · have h4 := (List.pairwise_append.1 h1).2.2 a ha x (by simp)
              have h5 := hpre x (by simp)
              have h6 := BitVec.lt_def.1 h4
              have h7 := BitVec.le_def.1 h5
              omega
            · exact hlast pre' x rfl (List.mem_singleton.1 ha).symm
        · exact absurd (h3 a ha a (by simp)) (by simp)
      · exact h3 a ha b (List.mem_append_right _ hb)
    rw [List.foldl_cons, hu]
    obtain ⟨h1, h2⟩ := ih _ hd' (by
      intro s hs s' hs'
      refine hc s ?_ s' ?_
      · simp only [List.mem_append, List.mem_cons] at hs ⊢
        have := hmem s
        simp only [List.mem_append, List.mem_cons] at this
        grind
      · simp only [List.mem_append, List.mem_cons] at hs' ⊢
        have := hmem s'
        simp only [List.mem_append, List.mem_cons] at this
        grind)
    refine ⟨h1, fun s => ?_⟩
    rw [h2]
    have := hmem s
    simp only [List.mem_append, List.mem_cons] at this ⊢
    grind

/-- Two new address spaces beside the default one, one given twice. -/
example :
    let p1 : PointerAlignSpec := ⟨⟨1⟩, .align32, .align32, 32, 32⟩
    let p2 : PointerAlignSpec := ⟨⟨270⟩, .align32, .align32, 32, 32⟩
    (∀ s ∈ [p2, p1, p2] ++ PointerAlignSpecs.default, ∀ s' ∈ [p2, p1, p2] ++ PointerAlignSpecs.default,
      s.addressSpace = s'.addressSpace → s = s') ∧
    [p2, p1, p2].foldl PointerAlignSpecs.update PointerAlignSpecs.default = [.default, p1, p2] := by
  decide +kernel

/-- One update is enough to have two different entries for one address space: a 32-bit pointer in address space 0 is
put beside the default 64-bit one. -/
theorem C35_duplicates :
    ∃ (u e e' : PointerAlignSpec) (rest : PointerAlignSpecs),
      PointerAlignSpecs.update PointerAlignSpecs.default u = e :: e' :: rest ∧
      e.addressSpace = e'.addressSpace ∧ e ≠ e' :=
  ⟨⟨⟨0⟩, .align32, .align32, 32, 32⟩, .default, ⟨⟨0⟩, .align32, .align32, 32, 32⟩, [], by decide +kernel, rfl,
    by decide +kernel⟩

/-! ## C36: invariants of alignment specifications -/

/-- `TypeAlignSpec::new` accepts exactly when the preferred alignment is at least the ABI alignment and at most
2^15 bytes, and stores its arguments. -/
theorem C36_type_new (t : AlignedType) (abi pref : Align) (s : TypeAlignSpec) :
    TypeAlignSpec.new t abi pref = .ok s ↔
      s = ⟨t, abi, pref⟩ ∧ abi.shift.toNat ≤ pref.shift.toNat ∧ pref.shift.toNat ≤ 15 := by
  constructor
  · exact typeNew_ok
  · rintro ⟨rfl, h1, h2⟩
    unfold TypeAlignSpec.new
    rw [if_neg (by simpa [BitVec.lt_def] using h1), if_pos]
    simp [BitVec.le_def, TypeAlignSpec.maxAlign]
    omega

/-- `PointerAlignSpec::new` accepts exactly when the preferred alignment is at least the ABI alignment. -/
theorem C36_pointer_new (a : AddressSpace) (abi pref : Align) (size index : U64) (s : PointerAlignSpec) :
    PointerAlignSpec.new a abi pref size index = .ok s ↔
      s = ⟨a, abi, pref, size, index⟩ ∧ abi.shift.toNat ≤ pref.shift.toNat := by
  unfold PointerAlignSpec.new
  constructor
  · intro h
    split at h
    · cases h
    · rename_i h1
      exact ⟨(Out.ok.inj h).symm, by simpa [BitVec.lt_def] using h1⟩
  · rintro ⟨rfl, h1⟩
    rw [if_neg (by simpa [BitVec.lt_def] using h1)]

example : PointerAlignSpec.new ⟨0⟩ .align64 .align32 64 64 = .err (.alignPref .align32 .align64) := by decide +kernel

/-- A type alignment specification read from any text satisfies the invariants: the preferred alignment is at least the
ABI alignment and at most 2^15 bytes, and the width is from 1 to 2^23 - 1. -/
theorem C36_type_parsed (text : Str) (s : TypeAlignSpec) (h : TypeAlignSpec.fromStr text = .ok s) :
    s.abi.shift.toNat ≤ s.pref.shift.toNat ∧ s.pref.shift.toNat ≤ 15 ∧
      (s.alignedType ≠ .aggregate → 1 ≤ typeWidth s.alignedType ∧ typeWidth s.alignedType < 2 ^ 23) := by
  unfold TypeAlignSpec.fromStr at h
  cases text with
  | nil => cases h
  | cons c cs =>
    obtain ⟨body, _, h⟩ := Out.bind_eq_ok.1 h
    split at h
    · unfold TypeAlignSpec.parseAggregate at h
      split at h
      · cases h
      · split at h
        · split at h
          · cases h
          · obtain ⟨abi, _, h⟩ := Out.bind_eq_ok.1 h
            obtain ⟨pref, _, h⟩ := Out.bind_eq_ok.1 h
            obtain ⟨rfl, h1, h2⟩ := typeNew_ok h
            exact ⟨h1, h2, fun h => absurd rfl h⟩
        · cases h
    · unfold TypeAlignSpec.parseOther at h
      split at h
      · obtain ⟨_, _, h⟩ := Out.bind_eq_ok.1 h
        obtain ⟨w, hw, h⟩ := Out.bind_eq_ok.1 h
        obtain ⟨abi, _, h⟩ := Out.bind_eq_ok.1 h
        obtain ⟨pref, _, h⟩ := Out.bind_eq_ok.1 h
        have hw := (widthTryFrom_ok (Out.mapErr_eq_ok.1 hw)).2
        split at h
        · obtain ⟨rfl, h1, h2⟩ := typeNew_ok h
          exact ⟨h1, h2, fun _ => hw⟩
        · split at h
          · obtain ⟨rfl, h1, h2⟩ := typeNew_ok h
            exact ⟨h1, h2, fun _ => hw⟩
          · split at h
            · obtain ⟨rfl, h1, h2⟩ := typeNew_ok h
              exact ⟨h1, h2, fun _ => hw⟩
            · cases h
      · cases h

example : TypeAlignSpec.fromStr "i64:32:64".toList = .ok ⟨.integer ⟨64⟩, .align32, .align64⟩ := by decide +kernel

/-- A pointer alignment specification read from any text has an address space below 2^23 and alignments that exist.
Missing: the preferred alignment may be smaller than the ABI alignment, see `C36_pointer_parse_unchecked`. -/
theorem C36_pointer_parsed_partial (text : Str) (s : PointerAlignSpec) (h : PointerAlignSpec.fromStr text = .ok s) :
    s.addressSpace.val.toNat < 2 ^ 23 ∧ s.abi.shift.toNat ≤ 63 ∧ s.pref.shift.toNat ≤ 63 := by
  unfold PointerAlignSpec.fromStr at h
  cases text with
  | nil => cases h
  | cons c cs =>
    obtain ⟨body, _, h⟩ := Out.bind_eq_ok.1 h
    split at h
    · obtain ⟨a, ha, h⟩ := Out.bind_eq_ok.1 h
      obtain ⟨_, _, h⟩ := Out.bind_eq_ok.1 h
      obtain ⟨abi, habi, h⟩ := Out.bind_eq_ok.1 h
      obtain ⟨pref, hpref, h⟩ := Out.bind_eq_ok.1 h
      obtain ⟨_, _, h⟩ := Out.bind_eq_ok.1 h
      obtain rfl := Out.ok.inj h
      refine ⟨?_, parseAbi_le habi, parsePref_le (parseAbi_le habi) hpref⟩
      unfold PointerAlignSpec.parseAddressSpace at ha
      split at ha
      · obtain rfl := Out.ok.inj ha
        dsimp only
        decide
      · obtain ⟨n, _, ha⟩ := Out.bind_eq_ok.1 ha
        exact (asTryFromU32_ok (Out.mapErr_eq_ok.1 ha)).2
    · cases h

/-- The pointer parser accepts a preferred alignment below the ABI alignment, which the constructor refuses. -/
theorem C36_pointer_parse_unchecked :
    ∃ s, PointerAlignSpec.fromStr "p:64:64:32".toList = .ok s ∧ s.pref.shift.toNat < s.abi.shift.toNat ∧
      ∃ e, PointerAlignSpec.new s.addressSpace s.abi s.pref s.pointerSize s.indexSize = .err e :=
  ⟨⟨⟨0⟩, .align64, .align32, 64, 64⟩, by decide +kernel, by decide +kernel, .alignPref .align32 .align64,
    by decide +kernel⟩

/-- Parsing never panics on a text that is empty or starts with an ASCII character. -/
theorem C36_parse_returns_partial (text : Str) (h : ∀ c ∈ text.head?, c.toNat < 128) :
    (TypeAlignSpec.fromStr text).Returns ∧ (PointerAlignSpec.fromStr text).Returns := by
  have h' : ∀ c ∈ text.head?, c.utf8Size = 1 := by
    intro c hc
    have := h c hc
    unfold Char.utf8Size
    rw [if_pos]
    rw [UInt32.le_iff_toNat_le]
    have : c.val.toNat < 128 := this
    simp
    omega
  exact ⟨typeFromStr_returns text h', pointerFromStr_returns text h'⟩

/-- On every text that starts with a character that takes more than one byte, both parsers panic. -/
theorem C36_parse_panics (c : Char) (rest : Str) (h : 128 ≤ c.toNat) :
    TypeAlignSpec.fromStr (c :: rest) = .panic .strSlice ∧ PointerAlignSpec.fromStr (c :: rest) = .panic .strSlice := by
  have hs : c.utf8Size ≠ 1 := by
    unfold Char.utf8Size
    rw [if_neg]
    · split
      · decide
      · split <;> decide
    · rw [UInt32.le_iff_toNat_le]
      have : 128 ≤ c.val.toNat := h
      simp
      omega
  constructor
  · simp [TypeAlignSpec.fromStr, sliceFrom1, hs]
  · simp [PointerAlignSpec.fromStr, sliceFrom1, hs]

example : TypeAlignSpec.fromStr "é64:64".toList = .panic .strSlice := (C36_parse_panics 'é' _ (by decide)).1

end Verif.Props
