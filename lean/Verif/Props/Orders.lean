import Verif.Support.OrderSpec
import Verif.Props.Align

/-!
# C57: comparisons

Alignments, address spaces, aligned types and alignment specs can be compared with `==`, `<` and `cmp`.
-/

namespace Verif.Props

open Spec

private theorem compare_lt (a b : Nat) : compare a b = .lt ↔ a < b := Nat.compare_eq_lt
private theorem compare_gt (a b : Nat) : compare a b = .gt ↔ b < a := Nat.compare_eq_gt
private theorem compare_eq (a b : Nat) : compare a b = .eq ↔ a = b := Nat.compare_eq_eq

/-- An order that sorts by a key obeys the laws, for the equality that compares keys. -/
private theorem SortsBy.lawful {α : Type} {cmp : α → α → Ordering} {key : α → Nat} (h : SortsBy cmp key) :
    LawfulOrd (fun a b => key a = key b) cmp where
  eq_iff a b := (h a b).2.1
  swap a b := by
    cases hc : cmp a b with
    | lt => exact (h b a).2.2.2 ((h a b).1.1 hc)
    | eq => exact (h b a).2.1.2 ((h a b).2.1.1 hc).symm
    | gt => exact (h b a).1.2 ((h a b).2.2.1 hc)
  trans a b c h1 h2 := (h a c).1.2 (Nat.lt_trans ((h a b).1.1 h1) ((h b c).1.1 h2))
  eq_trans a b c h1 h2 := (h a c).2.1.2 (((h a b).2.1.1 h1).trans ((h b c).2.1.1 h2))
  lt_eq a b c h1 h2 := (h a c).1.2 (((h b c).2.1.1 h2) ▸ (h a b).1.1 h1)

private theorem LawfulOrd.congr {α : Type} {cmp : α → α → Ordering} {s t : α → α → Prop} (h : LawfulOrd s cmp)
    (hst : ∀ a b, s a b ↔ t a b) : LawfulOrd t cmp :=
  ⟨fun a b => (h.eq_iff a b).trans (hst a b), h.swap, h.trans, h.eq_trans, h.lt_eq⟩

private theorem align_sorts : SortsBy Align.cmp (fun a => a.shift.toNat) := by
  intro a b
  have hab : a = b ↔ a.shift.toNat = b.shift.toNat := by
    rw [BitVec.toNat_inj]
    cases a
    cases b
    simp
  unfold Align.cmp
  simp only [Align.less, BitVec.lt_def, hab]
  split
  · simp <;> omega
  · split
    · simp <;> omega
    · simp <;> omega

/-- Alignments obey the contract of `Ord`, for the equality that compares the whole value. -/
theorem C57_align : LawfulOrd Eq Align.cmp := by
  refine LawfulOrd.congr (SortsBy.lawful align_sorts) fun a b => ?_
  cases a
  cases b
  simp [BitVec.toNat_inj]

/-- Of the alignments that can be made, the smaller one is the one with fewer bytes, and `<`, `<=` say the same. -/
theorem C57_align_bytes (a b : Align) (ha : MadeAlign a) (hb : MadeAlign b) :
    (a.cmp b = .lt ↔ a.byteAlign.toNat < b.byteAlign.toNat) ∧
      (a.cmp b = .eq ↔ a.byteAlign.toNat = b.byteAlign.toNat) ∧
      (a.cmp b = .gt ↔ b.byteAlign.toNat < a.byteAlign.toNat) ∧
      (a.less b ↔ a.byteAlign.toNat < b.byteAlign.toNat) ∧
      (a.atMost b ↔ a.byteAlign.toNat ≤ b.byteAlign.toNat) := by
  rw [(C33_byte_align a ha).1, (C33_byte_align b hb).1, Nat.pow_lt_pow_iff_right (by decide),
    Nat.pow_lt_pow_iff_right (by decide), Nat.pow_right_inj (by decide), Nat.pow_le_pow_iff_right (by decide)]
  obtain ⟨h1, h2, h3⟩ := align_sorts a b
  exact ⟨h1, h2, h3, BitVec.lt_def, BitVec.le_def⟩

example : MadeAlign ⟨3⟩ ∧ MadeAlign ⟨63⟩ ∧ Align.cmp ⟨3⟩ ⟨63⟩ = .lt := ⟨.shift 3 _ rfl, .shift 63 _ rfl, rfl⟩

/-- Address spaces obey the contract of `Ord` and are ordered by number. -/
theorem C57_address_space :
    LawfulOrd Eq AddressSpace.cmp ∧ SortsBy AddressSpace.cmp (fun a => a.val.toNat) := by
  have h : SortsBy AddressSpace.cmp (fun a => a.val.toNat) :=
    fun a b => ⟨compare_lt _ _, compare_eq _ _, compare_gt _ _⟩
  refine ⟨LawfulOrd.congr (SortsBy.lawful h) fun a b => ?_, h⟩
  cases a
  cases b
  simp [BitVec.toNat_inj]

/-- Kinds and widths as one number: widths fit in 32 bits. -/
private def typeKey (t : AlignedType) : Nat := typeRank t * 2 ^ 32 + typeWidth t

private theorem typeWidth_lt (t : AlignedType) : typeWidth t < 2 ^ 32 := by
  cases t with
  | aggregate => decide
  | float w => exact w.val.isLt
  | integer w => exact w.val.isLt
  | vector w => exact w.val.isLt

private theorem type_sorts : SortsBy AlignedType.cmp typeKey := by
  intro a b
  have ha := typeWidth_lt a
  have hb := typeWidth_lt b
  unfold typeKey
  cases a <;> cases b <;>
    simp only [AlignedType.cmp, typeRank, typeWidth, compare_lt, compare_eq, compare_gt, reduceCtorEq, true_iff,
      false_iff] at * <;>
    first
    | omega
    | (simp <;> omega)

/-- Aligned types obey the contract of `Ord`. -/
theorem C57_aligned_type : LawfulOrd Eq AlignedType.cmp := by
  refine LawfulOrd.congr (SortsBy.lawful type_sorts) fun a b => ?_
  have ha := typeWidth_lt a
  have hb := typeWidth_lt b
  unfold typeKey
  constructor
  · intro h
    cases a <;> cases b <;> simp only [typeRank, typeWidth] at * <;>
      first
      | omega
      | rfl
      | (rename_i l r
         cases l
         cases r
         congr 2
         exact BitVec.eq_of_toNat_eq (by dsimp only at h ⊢; omega))
  · rintro rfl
    rfl

/-- Aggregates come before floats, floats before integers, integers before vectors; within a kind the narrower type
comes first. -/
theorem C57_aligned_type_order (v w : AlignedTypeWidth) :
    AlignedType.cmp .aggregate (.float w) = .lt ∧ AlignedType.cmp (.float v) (.integer w) = .lt ∧
      AlignedType.cmp (.integer v) (.vector w) = .lt ∧
      (AlignedType.cmp (.float v) (.float w) = .lt ↔ v.val.toNat < w.val.toNat) ∧
      (AlignedType.cmp (.integer v) (.integer w) = .lt ↔ v.val.toNat < w.val.toNat) ∧
      (AlignedType.cmp (.vector v) (.vector w) = .lt ↔ v.val.toNat < w.val.toNat) :=
  ⟨rfl, rfl, rfl, compare_lt _ _, compare_lt _ _, compare_lt _ _⟩

/-- Type alignment specs obey the contract of `Ord` for their own `==`, and that `==` compares the types alone: two
specs with different alignments for one type are "equal". -/
theorem C57_type_spec :
    LawfulOrd TypeAlignSpec.same TypeAlignSpec.cmp ∧
      (∀ a b : TypeAlignSpec, a.same b ↔ a.alignedType = b.alignedType) ∧
      ∃ a b, TypeAlignSpec.new (.integer ⟨32⟩) .align32 .align32 = .ok a ∧
        TypeAlignSpec.new (.integer ⟨32⟩) .align8 .align64 = .ok b ∧ a.same b ∧ a.abi ≠ b.abi ∧ a.pref ≠ b.pref := by
  refine ⟨?_, fun a b => Iff.rfl, _, _, rfl, rfl, rfl, by decide, by decide⟩
  have h := C57_aligned_type
  exact ⟨fun a b => h.eq_iff _ _, fun a b => h.swap _ _, fun a b c => h.trans _ _ _, fun a b c => h.eq_trans _ _ _,
    fun a b c => h.lt_eq _ _ _⟩

private theorem same_iff (l m : TypeAlignSpecs) : l.same m ↔ l.map (·.alignedType) = m.map (·.alignedType) := by
  induction l generalizing m with
  | nil => cases m <;> simp [TypeAlignSpecs.same]
  | cons a l ih => cases m <;> simp [TypeAlignSpecs.same, ih]

private theorem insertIdx_types (s t : TypeAlignSpec) (h : s.alignedType = t.alignedType) :
    ∀ (l : TypeAlignSpecs) (i : Nat),
      (l.insertIdx i s).map (·.alignedType) = (l.insertIdx i t).map (·.alignedType) := by
  intro l
  induction l with
  | nil =>
    intro i
    cases i <;> simp [h]
  | cons a l ih =>
    intro i
    cases i with
    | zero => simp [h]
    | succ i =>
      simp only [List.insertIdx_succ_cons, List.map_cons, ih i]

private theorem update_types (l : TypeAlignSpecs) (s t : TypeAlignSpec) (h : s.alignedType = t.alignedType) :
    (l.update s).map (·.alignedType) = (l.update t).map (·.alignedType) := by
  unfold TypeAlignSpecs.update TypeAlignSpec.cmp TypeAlignSpec.same
  rw [h]
  split
  · split
    · split
      · simp [List.map_set]
      · exact insertIdx_types s t h _ _
    · rfl
  · exact insertIdx_types s t h _ _

/-- So comparing two type alignment tables with `==` sees which types they list and nothing else: tables updated with
different alignments for a type always compare equal. -/
theorem C57_type_tables :
    (∀ l m : TypeAlignSpecs, l.same m ↔ l.map (·.alignedType) = m.map (·.alignedType)) ∧
      (∀ (l : TypeAlignSpecs) (s t : TypeAlignSpec), s.alignedType = t.alignedType → (l.update s).same (l.update t)) ∧
      ∃ s, TypeAlignSpec.fromStr "i64:8:8".toList = .ok s ∧
        (TypeAlignSpecs.default.update s).same TypeAlignSpecs.default ∧
        TypeAlignSpecs.default.update s ≠ TypeAlignSpecs.default := by
  refine ⟨same_iff, fun l s t h => (same_iff _ _).2 (update_types l s t h),
    ⟨.integer ⟨64⟩, .align8, .align8⟩, by decide +kernel, (same_iff _ _).2 (by decide +kernel), by decide +kernel⟩

/-- Pointer specs are ordered by address space, a total order on address spaces. It obeys the contract of `Ord` for the
equality that compares address spaces. **Partial**: it is not the `==` of the type, see
`C57_pointer_spec_inconsistent`. -/
theorem C57_pointer_spec_partial :
    LawfulOrd (fun a b : PointerAlignSpec => a.addressSpace = b.addressSpace) PointerAlignSpec.cmp := by
  have h := C57_address_space.1
  exact ⟨fun a b => h.eq_iff _ _, fun a b => h.swap _ _, fun a b c => h.trans _ _ _, fun a b c => h.eq_trans _ _ _,
    fun a b c => h.lt_eq _ _ _⟩

/-- `cmp` of pointer specs breaks the contract of `Ord`: it says `Equal` of specs that are not `==`, and both specs
come from well-formed layout strings. -/
theorem C57_pointer_spec_inconsistent :
    ¬ LawfulOrd Eq PointerAlignSpec.cmp ∧
      ∃ a b, PointerAlignSpec.fromStr "p:32:32".toList = .ok a ∧ PointerAlignSpec.fromStr "p:64:64".toList = .ok b ∧
        a.cmp b = .eq ∧ a ≠ b := by
  have h : ∃ a b, PointerAlignSpec.fromStr "p:32:32".toList = .ok a ∧
      PointerAlignSpec.fromStr "p:64:64".toList = .ok b ∧ a.cmp b = .eq ∧ a ≠ b :=
    ⟨⟨⟨0⟩, ⟨2⟩, ⟨2⟩, 32, 32⟩, ⟨⟨0⟩, ⟨3⟩, ⟨3⟩, 64, 64⟩, by decide +kernel, by decide +kernel, rfl, by decide⟩
  refine ⟨fun hl => ?_, h⟩
  obtain ⟨a, b, _, _, hc, hn⟩ := h
  exact hn ((hl.eq_iff a b).1 hc)

end Verif.Props
