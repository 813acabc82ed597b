import Verif.Support.Align

/-!
# The texts of the errors of `llvm-support/src/align.rs`

`Display` as derived by `thiserror` from the `#[error(..)]` attributes. A type that is not printed by `{0}` contributes nothing to
the text of the error around it.
-/

namespace Verif

/-- `llvm-support/src/align.rs:41-45`: `Display for Align`. -/
def Align.text (a : Align) : Str := decimal a.byteAlign.toNat

/-- `llvm-support/src/align.rs:14-25`. -/
def AlignError.text : AlignError → Str
  | .shiftTooBig s => "supplied shift is too large (".toList ++ decimal s.toNat ++ " > ".toList ++
      decimal Align.maxShift.toNat ++ ")".toList
  | .notPowerOfTwo v => "supplied value is not a power of two: ".toList ++ decimal v.toNat
  | .notByteMultiple v => "supplied value is not a multiple of 8: ".toList ++ decimal v.toNat

/-- `llvm-support/src/align.rs:122-134`. -/
def AlignedTypeWidthError.text : AlignedTypeWidthError → Str
  | .zero => "bit width for type cannot be zero".toList
  | .tooBig v => "bit width for type is too large (".toList ++ decimal v.toNat ++ " > ".toList ++
      decimal (2 ^ 23 - 1) ++ " bits)".toList

/-- `llvm-support/src/align.rs:518-522`. -/
def AddressSpaceError.text : AddressSpaceError → Str
  | .tooBig v => "address space identifier is too large (".toList ++ decimal v.toNat ++ " > ".toList ++
      decimal (2 ^ 23 - 1) ++ ")".toList

/-- `llvm-support/src/align.rs:267-295`. -/
def AlignSpecError.text : AlignSpecError → Str
  | .badTypeWidth _ => "impossible bit width for underlying aligned type".toList
  | .alignPref p a => "impossible preferred alignment: ".toList ++ p.text ++ " must be >= ".toList ++ a.text
  | .abiAlignTooLarge a => "impossible ABI alignment for type: ".toList ++ a.text ++ " > ".toList ++
      TypeAlignSpec.maxAlign.text
  | .parse m => "error while parsing alignment spec: ".toList ++ m
  | .parseAlign _ => "error while parsing inner alignment in spec".toList
  | .badInt _ => "error while parsing integer in alignment spec".toList
  | .badAddressSpace _ => "invalid address space in spec".toList

end Verif
