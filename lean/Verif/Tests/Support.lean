import Verif.Tests.Checks
import Verif.Support.Display
import Verif.Support.Ty

/-!
# The unit tests of `llvm-support`, run on the model

As in `Verif.Tests.Cursor`: each test is translated statement by statement and evaluated by the kernel. A loop of a test is
translated to a statement about all the values it runs through. `sort` is an insertion sort here, which is stable like the one in Rust.
-/

namespace Verif.Tests

private abbrev texts {ε : Type} (t : ε → Str) : ε → Option Str := fun e => some (t e)

private abbrev int8 : AlignedType := .integer ⟨8⟩

private def insert (s : TypeAlignSpec) : TypeAlignSpecs → TypeAlignSpecs
  | [] => [s]
  | t :: l => if (s.cmp t).isLE then s :: t :: l else t :: insert s l

private def sorted (l : TypeAlignSpecs) : TypeAlignSpecs := l.foldr insert []

private def same (a b : TypeAlignSpecs) : Bool := a.length == b.length && (a.zip b).all fun p => decide (p.1.same p.2)

/-- `llvm-support/src/align.rs:748-755`: `test_align_constants`. -/
example : BothProfiles (fun _ => do
    guard (Align.align8.byteAlign = 1)
    guard (Align.align16.byteAlign = 2)
    guard (Align.align32.byteAlign = 4)
    guard (Align.align64.byteAlign = 8)
    guard (Align.align128.byteAlign = 16)
    pure ()) := by decide +kernel

/-- `llvm-support/src/align.rs:757-771`: `test_align_is_pow2`. -/
example : BothProfiles (fun _ => do
    guard (Align.isPow2 1)
    guard (Align.isPow2 2)
    guard (Align.isPow2 4)
    guard (Align.isPow2 8)
    guard (Align.isPow2 16)
    guard (Align.isPow2 32)
    guard (Align.isPow2 64)
    guard (!Align.isPow2 3)
    guard (!Align.isPow2 6)
    guard (!Align.isPow2 12)
    guard (!Align.isPow2 65)
    pure ()) := by decide +kernel

/-- `llvm-support/src/align.rs:773-780`: `test_align_compares`. -/
example : BothProfiles (fun _ => do
    let one ← got (Align.fromShift 1)
    let two ← got (Align.fromShift 2)
    guard (one = one)
    guard (one.less two)
    guard (one.atMost two)
    guard (one.less two)
    guard (one.atMost two)
    pure ()) := by decide +kernel

/-- `llvm-support/src/align.rs:782-794`: `test_align_log2`. -/
example : BothProfiles (fun _ => do
    guard (Align.log2 1 = 0)
    guard (Align.log2 2 = 1)
    guard (Align.log2 4 = 2)
    guard (Align.log2 8 = 3)
    guard (Align.log2 16 = 4)
    guard (Align.log2 32 = 5)
    guard (Align.log2 64 = 6)
    guard (Align.log2 65 = 6)
    pure ()) := by decide +kernel

/-- `llvm-support/src/align.rs:796-805`: `test_align_basic`. -/
example : BothProfiles (fun pf => do
    guard ((⟨0⟩ : Align).byteAlign = 1)
    guard (got ((⟨0⟩ : Align).bitAlign pf) = some 8)
    guard ((⟨1⟩ : Align).byteAlign = 2)
    guard (got ((⟨1⟩ : Align).bitAlign pf) = some 16)
    guard ((⟨2⟩ : Align).byteAlign = 4)
    guard (got ((⟨2⟩ : Align).bitAlign pf) = some 32)
    guard ((⟨3⟩ : Align).byteAlign = 8)
    guard (got ((⟨3⟩ : Align).bitAlign pf) = some 64)
    guard ((⟨4⟩ : Align).byteAlign = 16)
    guard (got ((⟨4⟩ : Align).bitAlign pf) = some 128)
    guard ((⟨5⟩ : Align).byteAlign = 32)
    guard (got ((⟨5⟩ : Align).bitAlign pf) = some 256)
    guard ((⟨6⟩ : Align).byteAlign = 64)
    guard (got ((⟨6⟩ : Align).bitAlign pf) = some 512)
    pure ()) := by decide +kernel

/-- `llvm-support/src/align.rs:807-823`: `test_align_from_byte_align`. -/
example : BothProfiles (fun _ => do
    guard (got (Align.fromByteAlign 1) = some ⟨0⟩)
    guard (got (Align.fromByteAlign 2) = some ⟨1⟩)
    guard (got (Align.fromByteAlign 4) = some ⟨2⟩)
    guard (got (Align.fromByteAlign 8) = some ⟨3⟩)
    guard (got (Align.fromByteAlign 16) = some ⟨4⟩)
    guard (got (Align.fromByteAlign 32) = some ⟨5⟩)
    guard (got (Align.fromByteAlign 64) = some ⟨6⟩)
    guard (got (Align.fromByteAlign 128) = some ⟨7⟩)
    failed (Align.fromByteAlign 0)
    failed (Align.fromByteAlign 3)
    failed (Align.fromByteAlign 7)
    failed (Align.fromByteAlign 22)
    failed (Align.fromByteAlign 24)
    pure ()) := by decide +kernel

/-- `llvm-support/src/align.rs:825-842`: `test_align_from_bit_align`. -/
example : BothProfiles (fun _ => do
    guard (got (Align.fromBitAlign 8) = some ⟨0⟩)
    guard (got (Align.fromBitAlign 16) = some ⟨1⟩)
    guard (got (Align.fromBitAlign 32) = some ⟨2⟩)
    guard (got (Align.fromBitAlign 64) = some ⟨3⟩)
    guard (got (Align.fromBitAlign 128) = some ⟨4⟩)
    guard (got (Align.fromBitAlign 256) = some ⟨5⟩)
    guard (got (Align.fromBitAlign 512) = some ⟨6⟩)
    guard (got (Align.fromBitAlign 1024) = some ⟨7⟩)
    failed (Align.fromBitAlign 0)
    failed (Align.fromBitAlign 1)
    failed (Align.fromBitAlign 7)
    failed (Align.fromBitAlign 9)
    failed (Align.fromBitAlign 24)
    failed (Align.fromBitAlign 33)
    pure ()) := by decide +kernel

/-- `llvm-support/src/align.rs:844-851`: `test_maybe_align`. -/
example : BothProfiles (fun _ => do
    guard (got (MaybeAlign.tryFrom 0) = some ⟨none⟩)
    guard (got (MaybeAlign.tryFrom 1) = some ⟨got (Align.fromShift 0)⟩)
    pure ()) := by decide +kernel

/-- `llvm-support/src/align.rs:853-861`: `test_aligned_type_width`. -/
example : (∀ i : U32, 1 ≤ i.toNat → i.toNat < 2 ^ 15 → isOk (AlignedTypeWidth.tryFrom i) = some ()) ∧
    failed (AlignedTypeWidth.tryFrom 0) = some () ∧ failed (AlignedTypeWidth.tryFrom 0xffffffff) = some () := by
  refine ⟨fun i h1 h2 => ?_, by decide +kernel, by decide +kernel⟩
  unfold AlignedTypeWidth.tryFrom
  rw [if_pos ⟨BitVec.lt_def.2 (by simp; omega), by omega⟩]
  rfl

/-- `llvm-support/src/align.rs:863-914`: `test_aligned_type_ordering`; `<` and `<=` are what `cmp` says. -/
example (i : U32) (h1 : 2 ≤ i.toNat) (h2 : i.toNat < 2 ^ 15) :
    (AlignedType.integer ⟨i⟩).cmp (.vector ⟨i⟩) = .lt ∧
    (AlignedType.integer ⟨i + 1⟩).cmp (.vector ⟨i - 1⟩) = .lt ∧
    (AlignedType.integer ⟨i⟩).cmp (.float ⟨i⟩) = .gt ∧
    (AlignedType.integer ⟨i + 1⟩).cmp (.float ⟨i - 1⟩) = .gt ∧
    (AlignedType.integer ⟨i⟩).cmp .aggregate = .gt := by
  have : 2 ≤ i.toNat ∧ i.toNat < 2 ^ 15 := ⟨h1, h2⟩
  exact ⟨rfl, rfl, rfl, rfl, rfl⟩

/-- `llvm-support/src/align.rs:916-967`: `test_type_align_spec`. -/
example : BothProfiles (fun _ => do
    isOk (TypeAlignSpec.new (.integer ⟨64⟩) .align64 .align64)
    isOk (TypeAlignSpec.new (.integer ⟨64⟩) .align64 .align128)
    isOk (TypeAlignSpec.new (.float ⟨32⟩) .align32 .align32)
    isOk (TypeAlignSpec.new (.float ⟨32⟩) .align32 .align64)
    says (texts AlignSpecError.text) (TypeAlignSpec.new int8 ⟨2⟩ ⟨1⟩) "impossible preferred alignment: 2 must be >= 4"
    says (texts AlignSpecError.text) (TypeAlignSpec.new int8 ⟨16⟩ ⟨16⟩) "impossible ABI alignment for type: 65536 > 32768"
    pure ()) := by decide +kernel

/-- `llvm-support/src/align.rs:969-979`: `test_type_align_spec_equality`. -/
example : BothProfiles (fun _ => do
    let i16 ← got (TypeAlignSpec.new int8 .align16 .align16)
    let i32 ← got (TypeAlignSpec.new int8 .align16 .align32)
    guard (i16.same i32)
    pure ()) := by decide +kernel

/-- `llvm-support/src/align.rs:981-988`: `test_type_align_specs_default_sorted`. -/
example : BothProfiles (fun _ => do
    guard (same .default (sorted .default))
    pure ()) := by decide +kernel

/-- `llvm-support/src/align.rs:990-1077`: `test_type_align_specs_update`. -/
example : BothProfiles (fun _ => do
    let i16 ← got (TypeAlignSpec.new int8 .align16 .align16)
    let i32 ← got (TypeAlignSpec.new int8 .align16 .align32)
    let agg ← got (TypeAlignSpec.new .aggregate .align64 .align64)
    let f16 ← got (TypeAlignSpec.new (.float ⟨16⟩) .align16 .align16)
    guard ((TypeAlignSpecs.update [] i16).length = 1)
    guard ((TypeAlignSpecs.update (TypeAlignSpecs.update [] i16) i32).length = 1)
    guard ((TypeAlignSpecs.update (TypeAlignSpecs.update [] agg) i16).length = 2)
    guard (same (TypeAlignSpecs.update (TypeAlignSpecs.update [] agg) i16) (sorted (TypeAlignSpecs.update (TypeAlignSpecs.update [] agg) i16)))
    guard ((TypeAlignSpecs.update (TypeAlignSpecs.update [] i16) agg).length = 2)
    guard (same (TypeAlignSpecs.update (TypeAlignSpecs.update [] i16) agg) (sorted (TypeAlignSpecs.update (TypeAlignSpecs.update [] i16) agg)))
    guard ((TypeAlignSpecs.update (TypeAlignSpecs.update (TypeAlignSpecs.update [] i16) agg) f16).length = 3)
    guard (same (TypeAlignSpecs.update (TypeAlignSpecs.update (TypeAlignSpecs.update [] i16) agg) f16) (sorted (TypeAlignSpecs.update (TypeAlignSpecs.update (TypeAlignSpecs.update [] i16) agg) f16)))
    pure ()) := by decide +kernel

/-- `llvm-support/src/align.rs:1079-1118`: `test_type_align_spec_parse`. -/
example : BothProfiles (fun _ => do
    guard (got (TypeAlignSpec.fromStr "i64:64:64".toList) = some ⟨.integer ⟨64⟩, .align64, .align64⟩)
    guard (got (TypeAlignSpec.fromStr "i32:32:64".toList) = some ⟨.integer ⟨32⟩, .align32, .align64⟩)
    guard (got (TypeAlignSpec.fromStr "a:32:64".toList) = some ⟨.aggregate, .align32, .align64⟩)
    guard (got (TypeAlignSpec.fromStr "a:32".toList) = some ⟨.aggregate, .align32, .align32⟩)
    pure ()) := by decide +kernel

/-- `llvm-support/src/align.rs:1120-1181`: `test_pointer_align_spec_parse`. -/
example : BothProfiles (fun _ => do
    guard (got (PointerAlignSpec.fromStr "p:64:64:64".toList) = some ⟨.default, .align64, .align64, 64, 64⟩)
    guard (got (PointerAlignSpec.fromStr "p0:64:64:64".toList) = some ⟨.default, .align64, .align64, 64, 64⟩)
    guard (got (PointerAlignSpec.fromStr "p:64:64:64:64".toList) = some ⟨.default, .align64, .align64, 64, 64⟩)
    guard (got (PointerAlignSpec.fromStr "p:64:64:64:32".toList) = some ⟨.default, .align64, .align64, 64, 32⟩)
    guard (got (PointerAlignSpec.fromStr "p1:64:64:64".toList) = some ⟨⟨1⟩, .align64, .align64, 64, 64⟩)
    guard (got (PointerAlignSpec.fromStr "p1:64:64".toList) = some ⟨⟨1⟩, .align64, .align64, 64, 64⟩)
    pure ()) := by decide +kernel

/-- `llvm-support/src/align.rs:1183-1190`: `test_address_space`. -/
example : BothProfiles (fun _ => do
    isOk (AddressSpace.tryFromU32 0)
    isOk (AddressSpace.tryFromU32 1)
    isOk (AddressSpace.tryFromU32 0x7fffff)
    failed (AddressSpace.tryFromU32 0x800000)
    pure ()) := by decide +kernel

/-- `llvm-support/src/align.rs:1192-1197`: `test_address_space_ordering`. -/
example : BothProfiles (fun _ => do
    guard ((⟨0⟩ : AddressSpace).cmp ⟨1⟩ = .lt)
    guard ((⟨0⟩ : AddressSpace) = ⟨0⟩)
    pure ()) := by decide +kernel

/-- `llvm-support/src/ty.rs:538-570`: `test_integer_type`. -/
example : BothProfiles (fun _ => do
    failed (Ty.newInteger 0)
    failed (Ty.newInteger (Ty.maxIntBits + 1))
    guard (got (Ty.newInteger Ty.minIntBits) = some (.integer Ty.minIntBits))
    guard (Ty.byteWidth Ty.minIntBits = 1)
    guard (got (Ty.newInteger Ty.maxIntBits) = some (.integer Ty.maxIntBits))
    guard (Ty.byteWidth Ty.maxIntBits = 2097152)
    guard (got (Ty.newInteger 31) = some (.integer 31))
    guard (Ty.byteWidth 31 = 4)
    guard (got (Ty.newInteger 32) = some (.integer 32))
    guard (Ty.byteWidth 32 = 4)
    guard (got (Ty.newInteger 1) = some (.integer 1))
    guard (Ty.byteWidth 1 = 1)
    guard (got (Ty.newInteger 2) = some (.integer 2))
    guard (Ty.byteWidth 2 = 1)
    guard (got (Ty.newInteger 3) = some (.integer 3))
    guard (Ty.byteWidth 3 = 1)
    guard (got (Ty.newInteger 4) = some (.integer 4))
    guard (Ty.byteWidth 4 = 1)
    guard (got (Ty.newInteger 5) = some (.integer 5))
    guard (Ty.byteWidth 5 = 1)
    guard (got (Ty.newInteger 6) = some (.integer 6))
    guard (Ty.byteWidth 6 = 1)
    guard (got (Ty.newInteger 7) = some (.integer 7))
    guard (Ty.byteWidth 7 = 1)
    guard (got (Ty.newInteger 8) = some (.integer 8))
    guard (Ty.byteWidth 8 = 1)
    pure ()) := by decide +kernel

/-- `llvm-support/src/ty.rs:572-592`: `test_pointer_type`. -/
example : BothProfiles (fun _ => do
    failed (Ty.newPointer (.prim .void) .default)
    failed (Ty.newPointer (.prim .label) .default)
    failed (Ty.newPointer (.prim .metadata) .default)
    failed (Ty.newPointer (.prim .token) .default)
    failed (Ty.newPointer (.prim .x86Amx) .default)
    guard (got (Ty.newPointer (.prim .double) .default) = some (.pointer (.prim .double) .default))
    let i32 ← got (Ty.newInteger 32)
    guard (got (Ty.newPointer i32 .default) = some (.pointer i32 .default))
    pure ()) := by decide +kernel

end Verif.Tests
