import Verif.Tests.Checks
import Verif.Mapper.Display
import Verif.Mapper.Tables
import Verif.Mapper.Utf8

/-!
# The unit tests of `llvm-mapper`, run on the model

As in `Verif.Tests.Cursor`: each test is translated statement by statement and evaluated by the kernel.
-/

namespace Verif.Tests
open Spec

/-- `llvm-mapper/src/record/datalayout.rs:271-277`: `test_datalayout_has_defaults`. -/
example : BothProfiles (fun _ => do
    guard (DataLayout.default.typeAlignments = .default)
    guard (DataLayout.default.pointerAlignments = .default)
    pure ()) := by decide +kernel

/-- `llvm-mapper/src/record/datalayout.rs:279-445`: `test_datalayout_parses`. -/
example : BothProfiles (fun _ => do
    says DataLayoutError.text (DataLayout.fromStr "not ascii ¬∫˙˚√∂∆˙√ß".toList) "non-ASCII characters in datalayout string"
    says DataLayoutError.text (DataLayout.fromStr "z".toList) "unknown datalayout specification: z"
    let dl ← got (DataLayout.fromStr "E-S64".toList)
    guard (dl.endianness = .big)
    guard (dl.naturalStackAlignment.map Align.byteAlign = some 8)
    guard (dl.mangling = none)
    let dl ← got (DataLayout.fromStr "e-S32".toList)
    guard (dl.endianness = .little)
    guard (dl.naturalStackAlignment.map Align.byteAlign = some 4)
    let dl ← got (DataLayout.fromStr "m:e".toList)
    guard (dl.mangling = some .elf)
    says DataLayoutError.text (DataLayout.fromStr "m".toList) "couldn't parse spec: mangling spec is empty"
    says DataLayoutError.text (DataLayout.fromStr "m:".toList) "couldn't parse spec: mangling spec has no mangling kind"
    says DataLayoutError.text (DataLayout.fromStr "m:?".toList) "couldn't parse spec: unknown mangling kind in spec: ?"
    let dl ← got (DataLayout.fromStr "Fi64".toList)
    guard (dl.functionPointerAlignment = some (.independent .align64))
    let dl ← got (DataLayout.fromStr "Fn8".toList)
    guard (dl.functionPointerAlignment = some (.multipleOfFunctionAlign .align8))
    says DataLayoutError.text (DataLayout.fromStr "F".toList) "couldn't parse spec: function pointer alignment spec is empty"
    says DataLayoutError.text (DataLayout.fromStr "Fn".toList) "couldn't parse spec field: cannot parse integer from empty string"
    says DataLayoutError.text (DataLayout.fromStr "Fn123".toList) "bad alignment value: supplied value is not a multiple of 8: 123"
    says DataLayoutError.text (DataLayout.fromStr "F?64".toList) "couldn't parse spec: unknown function pointer alignment specifier: ?"
    let dl ← got (DataLayout.fromStr "n8:16:32:64".toList)
    guard (dl.nativeIntegerWidths = [8, 16, 32, 64])
    let dl ← got (DataLayout.fromStr "n64".toList)
    guard (dl.nativeIntegerWidths = [64])
    says DataLayoutError.text (DataLayout.fromStr "n".toList) "couldn't parse spec: integer width spec is empty"
    says DataLayoutError.text (DataLayout.fromStr "nx".toList) "couldn't parse spec field: invalid digit found in string"
    says DataLayoutError.text (DataLayout.fromStr "n:".toList) "couldn't parse spec field: cannot parse integer from empty string"
    says DataLayoutError.text (DataLayout.fromStr "n8:".toList) "couldn't parse spec field: cannot parse integer from empty string"
    let dl ← got (DataLayout.fromStr "ni:1:10:20".toList)
    guard (dl.nonIntegralAddressSpaces = [⟨1⟩, ⟨10⟩, ⟨20⟩])
    let dl ← got (DataLayout.fromStr "ni:1".toList)
    guard (dl.nonIntegralAddressSpaces = [⟨1⟩])
    says DataLayoutError.text (DataLayout.fromStr "ni".toList) "couldn't parse spec: cannot find address space 0"
    says DataLayoutError.text (DataLayout.fromStr "ni0".toList) "couldn't parse spec field: cannot parse integer from empty string"
    pure ()) := by decide +kernel

/-- `llvm-mapper/src/unroll.rs:511-525`: `test_unrolled_record_try_string`. -/
example : BothProfiles (fun pf => do
    let fields : List U64 := [0xff, 0xff] ++ (utf8 "valid string!".toList).map (·.setWidth 64)
    guard (got (BRecord.tryString pf (⟨none, 0, fields⟩ : BRecord) 2) = some "valid string!".toList)
    guard (got (BRecord.tryString pf (⟨none, 0, fields⟩ : BRecord) 8) = some "string!".toList)
    failed (BRecord.tryString pf (⟨none, 0, fields⟩ : BRecord) 0)
    failed (BRecord.tryString pf (⟨none, 0, fields⟩ : BRecord) 15)
    failed (BRecord.tryString pf (⟨none, 0, fields⟩ : BRecord) 14)
    pure ()) := by decide +kernel

/-- `llvm-mapper/src/unroll.rs:527-540`: `test_unrolled_record_try_blob`. -/
example : BothProfiles (fun pf => do
    let fields : List U64 := [0xff, 0xff] ++ (utf8 "valid string!".toList).map (·.setWidth 64)
    guard (got (BRecord.tryBlob pf (⟨none, 0, fields⟩ : BRecord) 0) = some ([0xff, 0xff] ++ utf8 "valid string!".toList))
    guard (got (BRecord.tryBlob pf (⟨none, 0, fields⟩ : BRecord) 8) = some (utf8 "string!".toList))
    failed (BRecord.tryBlob pf (⟨none, 0, fields⟩ : BRecord) 15)
    failed (BRecord.tryBlob pf (⟨none, 0, fields⟩ : BRecord) 14)
    pure ()) := by decide +kernel

/-- `llvm-mapper/src/block/strtab.rs:112-127`: `test_strtab`. -/
example : BothProfiles (fun pf => do
    let t : Strtab := ⟨utf8 "this is a string table".toList⟩
    guard (got (t.get pf ⟨0, 4⟩) = some (some "this".toList))
    guard (got (t.get pf ⟨0, 7⟩) = some (some "this is".toList))
    guard (got (t.get pf ⟨8, 14⟩) = some (some "a string table".toList))
    guard (got (t.get pf ⟨0, 22⟩) = some (some "this is a string table".toList))
    guard (got (t.get pf ⟨22, 0⟩) = some none)
    guard (got (t.get pf ⟨0, 23⟩) = some none)
    guard (got (t.get pf ⟨0, 0⟩) = some none)
    pure ()) := by decide +kernel

/-- `llvm-mapper/src/block/mod.rs:83-95`: `test_blockid_from_u64`. -/
example : BothProfiles (fun _ => do
    guard (BlockId.ofU64 0 = .reserved .blockInfo)
    guard (BlockId.ofU64 7 = .reserved .reserved7)
    guard (BlockId.ofU64 8 = .ir .module)
    guard (BlockId.ofU64 2384629342 = .unknown 2384629342)
    pure ()) := by decide +kernel

end Verif.Tests
