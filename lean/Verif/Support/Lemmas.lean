import Verif.Support.Align

/-!
# Lemmas about the text parsers
-/

namespace Verif

namespace Out
variable {ε ε' α β : Type}

instance : LawfulMonad (Out ε) := LawfulMonad.mk' _
  (id_map := fun x => by cases x <;> rfl)
  (pure_bind := fun _ _ => rfl)
  (bind_assoc := fun x _ _ => by cases x <;> rfl)

theorem Returns.bind {x : Out ε α} {f : α → Out ε β} (hx : x.Returns) (hf : ∀ a, x = .ok a → (f a).Returns) :
    (x >>= f).Returns := by
  cases x with
  | ok a => exact hf a rfl
  | err e => exact hx
  | panic p => exact hx
  | diverge => exact hx

theorem Returns.mapErr {x : Out ε α} {f : ε → ε'} (hx : x.Returns) : (x.mapErr f).Returns := by
  cases x <;> exact hx

theorem mapErr_eq_ok {x : Out ε α} {f : ε → ε'} {a : α} : x.mapErr f = .ok a ↔ x = .ok a := by
  cases x <;> simp

end Out

theorem parseDigits_returns (max acc : Nat) (s : Str) : (parseDigits max acc s).Returns := by
  induction s generalizing acc with
  | nil => trivial
  | cons c cs ih =>
    unfold parseDigits
    split
    · trivial
    · split
      · exact ih _
      · trivial

theorem parseUInt_returns (max : Nat) (s : Str) : (parseUInt max s).Returns := by
  unfold parseUInt
  split
  · trivial
  · split
    · trivial
    · split
      · exact parseDigits_returns ..
      · exact parseDigits_returns ..

theorem parseU32_returns (s : Str) : (parseU32 s).Returns :=
  (parseUInt_returns _ s).bind fun _ _ => trivial

theorem parseU64_returns (s : Str) : (parseU64 s).Returns :=
  (parseUInt_returns _ s).bind fun _ _ => trivial

theorem fromShift_returns (s : U8) : (Align.fromShift s).Returns := by
  unfold Align.fromShift
  split <;> trivial

theorem fromByteAlign_returns (v : U64) : (Align.fromByteAlign v).Returns := by
  unfold Align.fromByteAlign
  split
  · exact fromShift_returns _
  · trivial

theorem fromBitAlign_returns (v : U64) : (Align.fromBitAlign v).Returns := by
  unfold Align.fromBitAlign
  split
  · exact fromByteAlign_returns _
  · trivial

theorem parseAbi_returns (s : Str) : (parseAbi s).Returns :=
  (parseU64_returns s).mapErr.bind fun a _ => (fromBitAlign_returns a).mapErr

theorem parsePref_returns (a : Align) (s : Option Str) : (parsePref a s).Returns := by
  cases s with
  | none => trivial
  | some s => exact (parseU64_returns s).mapErr.bind fun a _ => (fromBitAlign_returns a).mapErr

theorem widthTryFrom_returns (v : U32) : (AlignedTypeWidth.tryFrom v).Returns := by
  unfold AlignedTypeWidth.tryFrom
  split <;> trivial

theorem typeNew_returns (t : AlignedType) (a p : Align) : (TypeAlignSpec.new t a p).Returns := by
  unfold TypeAlignSpec.new
  split
  · trivial
  · split <;> trivial

theorem parseAggregate_returns (s : Str) : (TypeAlignSpec.parseAggregate s).Returns := by
  unfold TypeAlignSpec.parseAggregate
  split
  · trivial
  · split
    · split
      · trivial
      · exact (parseAbi_returns _).bind fun a _ => (parsePref_returns _ _).bind fun p _ => typeNew_returns ..
    · trivial

theorem parseOther_returns (c : Char) (s : Str) : (TypeAlignSpec.parseOther c s).Returns := by
  unfold TypeAlignSpec.parseOther
  split
  · refine (parseU32_returns _).mapErr.bind fun a _ => (widthTryFrom_returns _).mapErr.bind fun w _ =>
      (parseAbi_returns _).bind fun a _ => (parsePref_returns _ _).bind fun p _ => ?_
    split
    · exact typeNew_returns ..
    · split
      · exact typeNew_returns ..
      · split
        · exact typeNew_returns ..
        · trivial
  · trivial

theorem asTryFromU32_returns (v : U32) : (AddressSpace.tryFromU32 v).Returns := by
  unfold AddressSpace.tryFromU32
  split <;> trivial

theorem parseAddressSpace_returns (s : Str) : (PointerAlignSpec.parseAddressSpace s).Returns := by
  unfold PointerAlignSpec.parseAddressSpace
  split
  · trivial
  · exact (parseU32_returns _).mapErr.bind fun a _ => (asTryFromU32_returns _).mapErr

theorem parseIndex_returns (v : U64) (s : Option Str) : (PointerAlignSpec.parseIndex v s).Returns := by
  cases s with
  | none => trivial
  | some s => exact (parseU64_returns s).mapErr

theorem sliceFrom1_ascii {ε : Type} (c : Char) (s : Str) (h : c.utf8Size = 1) :
    (sliceFrom1 (c :: s) : Out ε Str) = .ok s := by
  simp [sliceFrom1, h]

theorem typeFromStr_returns (s : Str) (h : ∀ c ∈ s.head?, c.utf8Size = 1) : (TypeAlignSpec.fromStr s).Returns := by
  cases s with
  | nil => trivial
  | cons c cs =>
    unfold TypeAlignSpec.fromStr
    simp only [sliceFrom1_ascii c cs (h c (by simp)), Out.ok_bind]
    split
    · exact parseAggregate_returns _
    · exact parseOther_returns _ _

theorem pointerFromStr_returns (s : Str) (h : ∀ c ∈ s.head?, c.utf8Size = 1) :
    (PointerAlignSpec.fromStr s).Returns := by
  cases s with
  | nil => trivial
  | cons c cs =>
    unfold PointerAlignSpec.fromStr
    simp only [sliceFrom1_ascii c cs (h c (by simp)), Out.ok_bind]
    split
    · exact (parseAddressSpace_returns _).bind fun _ _ => (parseU64_returns _).mapErr.bind fun _ _ =>
        (parseAbi_returns _).bind fun _ _ => (parsePref_returns _ _).bind fun _ _ =>
        (parseIndex_returns _ _).bind fun _ _ => trivial
    · trivial

/-- What `TypeAlignSpec::new` guarantees. -/
theorem typeNew_ok {t : AlignedType} {a p : Align} {s : TypeAlignSpec} (h : TypeAlignSpec.new t a p = .ok s) :
    s = ⟨t, a, p⟩ ∧ a.shift.toNat ≤ p.shift.toNat ∧ p.shift.toNat ≤ 15 := by
  unfold TypeAlignSpec.new at h
  split at h
  · cases h
  · split at h
    · rename_i h1 h2
      refine ⟨(Out.ok.inj h).symm, ?_, ?_⟩
      · simpa [BitVec.lt_def] using h1
      · simpa [BitVec.le_def, TypeAlignSpec.maxAlign] using h2.2
    · cases h

theorem widthTryFrom_ok {v : U32} {w : AlignedTypeWidth} (h : AlignedTypeWidth.tryFrom v = .ok w) :
    w.val = v ∧ 1 ≤ w.val.toNat ∧ w.val.toNat < 2 ^ 23 := by
  unfold AlignedTypeWidth.tryFrom at h
  split at h
  · rename_i hv
    obtain rfl := Out.ok.inj h
    have := BitVec.lt_def.1 hv.1
    exact ⟨rfl, this, by dsimp only; omega⟩
  · cases h

theorem asTryFromU32_ok {v : U32} {a : AddressSpace} (h : AddressSpace.tryFromU32 v = .ok a) :
    a.val = v ∧ a.val.toNat < 2 ^ 23 := by
  unfold AddressSpace.tryFromU32 at h
  split at h
  · obtain rfl := Out.ok.inj h
    exact ⟨rfl, by dsimp only; omega⟩
  · cases h

theorem fromShift_ok {s : U8} {a : Align} (h : Align.fromShift s = .ok a) : a.shift = s ∧ a.shift.toNat ≤ 63 := by
  unfold Align.fromShift Align.maxShift at h
  split at h
  · cases h
  · rename_i hs
    obtain rfl := Out.ok.inj h
    exact ⟨rfl, by simpa [BitVec.lt_def] using hs⟩

theorem fromBitAlign_le {v : U64} {a : Align} (h : Align.fromBitAlign v = .ok a) : a.shift.toNat ≤ 63 := by
  unfold Align.fromBitAlign Align.fromByteAlign at h
  split at h
  · split at h
    · exact (fromShift_ok h).2
    · cases h
  · cases h

theorem parseAbi_le {s : Str} {a : Align} (h : parseAbi s = .ok a) : a.shift.toNat ≤ 63 := by
  obtain ⟨v, _, h⟩ := Out.bind_eq_ok.1 h
  exact fromBitAlign_le (Out.mapErr_eq_ok.1 h)

theorem parsePref_le {abi : Align} {s : Option Str} {a : Align} (habi : abi.shift.toNat ≤ 63)
    (h : parsePref abi s = .ok a) : a.shift.toNat ≤ 63 := by
  cases s with
  | none => obtain rfl := Out.ok.inj h; exact habi
  | some s =>
    obtain ⟨v, _, h⟩ := Out.bind_eq_ok.1 h
    exact fromBitAlign_le (Out.mapErr_eq_ok.1 h)

/-! ## Errors -/

theorem ofOption_eq_ok {ε α : Type} {e : ε} {o : Option α} {a : α} : Out.ofOption e o = .ok a ↔ o = some a := by
  cases o <;> simp

theorem ofOption_returns {ε α : Type} {e : ε} {o : Option α} : (Out.ofOption e o).Returns := by
  cases o <;> trivial

theorem bind_eq_err {ε α β : Type} {x : Out ε α} {f : α → Out ε β} {e : ε} :
    (x >>= f) = .err e ↔ x = .err e ∨ ∃ a, x = .ok a ∧ f a = .err e := by
  cases x <;> simp

theorem mapErr_eq_err {ε ε' α : Type} {x : Out ε α} {g : ε → ε'} {e : ε'} :
    x.mapErr g = .err e ↔ ∃ e', x = .err e' ∧ g e' = e := by
  cases x <;> simp

theorem ofOption_eq_err {ε α : Type} {e e' : ε} {o : Option α} : Out.ofOption e o = .err e' ↔ o = none ∧ e = e' := by
  cases o <;> simp

theorem not_ok_of_err {ε α : Type} {x : Out ε α} {e : ε} (h : x = .err e) (a : α) : x ≠ .ok a := by
  rw [h]; simp

end Verif
