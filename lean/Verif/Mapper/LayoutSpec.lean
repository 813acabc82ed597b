import Verif.Props.Align
import Verif.Mapper.DataLayout

/-!
# What a datalayout text says

The grammar of datalayout texts and their meaning, stated without reference to how they are parsed. It is that of the
code, not that of LLVM's manual: trailing characters after `e`, `E` and a mangling letter, further parts after the last
known one and the character after `ni` are allowed and mean nothing.
-/

namespace Verif.Spec

/-! ## Pieces of text -/

/-- `n` in decimal, with any number of leading zeros, possibly with a plus sign in front. -/
def Numeral (s : Str) (n : Nat) : Prop :=
  ∃ ds, (s = ds ∨ s = '+' :: ds) ∧ ds ≠ [] ∧ (∀ c ∈ ds, '0' ≤ c ∧ c ≤ '9') ∧ Nat.ofDigitChars 10 ds 0 = n

/-- `s` consists of the given pieces with separators between them. -/
def Pieces (sep : Char) (s : Str) (pieces : List Str) : Prop :=
  pieces ≠ [] ∧ (∀ p ∈ pieces, sep ∉ p) ∧ [sep].intercalate pieces = s

/-- An alignment in bits: a whole number of bytes that is a power of two. -/
def AlignText (s : Str) (a : Align) : Prop := Numeral s (8 * 2 ^ a.shift.toNat) ∧ a.shift.toNat ≤ 60

/-- The number of an address space. -/
def SpaceText (s : Str) (a : AddressSpace) : Prop := Numeral s a.val.toNat ∧ a.val.toNat < 2 ^ 23

/-- The number of an address space, or nothing for address space 0. -/
def SpaceOrNothing (s : Str) (a : AddressSpace) : Prop := (s = [] ∧ a = ⟨0⟩) ∨ (s ≠ [] ∧ SpaceText s a)

/-- The width of a type in bits. -/
def WidthText (s : Str) (w : AlignedTypeWidth) : Prop :=
  Numeral s w.val.toNat ∧ 0 < w.val.toNat ∧ w.val.toNat < 2 ^ 23

/-- A number that fits. -/
def NumberText {w : Nat} (s : Str) (v : BitVec w) : Prop := Numeral s v.toNat

/-- An optional piece: if it is missing, the given value stands for it. -/
def Given {α : Type} (says : Str → α → Prop) (otherwise : α) : Option Str → α → Prop
  | none, a => a = otherwise
  | some s, a => says s a

/-- The two lists correspond, element by element. -/
inductive AllSay {α : Type} (says : Str → α → Prop) : List Str → List α → Prop where
  | nil : AllSay says [] []
  | cons {s : Str} {a : α} {ss : List Str} {as : List α} : says s a → AllSay says ss as →
      AllSay says (s :: ss) (a :: as)

/-! ## Alignments of types and pointers -/

/-- The parts of the spec of a type: `a:<abi>:<pref>` or `<kind><width>:<abi>:<pref>`, both without the last part or with
more parts. -/
inductive TypeParts : Str → Option (Char × Str) → Str → Option Str → Prop where
  | aggregate {t abi : Str} {more : List Str} : Pieces ':' t (abi :: more) →
      TypeParts ('a' :: ':' :: t) none abi more.head?
  | sized {c : Char} {t width abi : Str} {more : List Str} : c = 'i' ∨ c = 'v' ∨ c = 'f' →
      Pieces ':' t (width :: abi :: more) → TypeParts (c :: t) (some (c, width)) abi more.head?

/-- The type meant by a kind and a width. -/
inductive KindText : Option (Char × Str) → AlignedType → Prop where
  | aggregate : KindText none .aggregate
  | integer {s : Str} {w : AlignedTypeWidth} : WidthText s w → KindText (some ('i', s)) (.integer w)
  | vector {s : Str} {w : AlignedTypeWidth} : WidthText s w → KindText (some ('v', s)) (.vector w)
  | float {s : Str} {w : AlignedTypeWidth} : WidthText s w → KindText (some ('f', s)) (.float w)

/-- The spec `text` gives the alignments of a type: at most 2^15 bytes, the preferred one at least the required one. -/
def TypeText (text : Str) (s : TypeAlignSpec) : Prop :=
  ∃ kind abi pref, TypeParts text kind abi pref ∧ KindText kind s.alignedType ∧ AlignText abi s.abi ∧
    Given AlignText s.abi pref s.pref ∧ s.abi.shift ≤ s.pref.shift ∧ s.pref.shift.toNat ≤ 15

/-- The spec `text` gives the size and alignments of pointers: `p<space>:<size>:<abi>:<pref>:<index size>`, possibly
without the last part or the last two or with more. -/
def PointerText (text : Str) (s : PointerAlignSpec) : Prop :=
  ∃ t space size abi more, text = 'p' :: t ∧ Pieces ':' t (space :: size :: abi :: more) ∧
    SpaceOrNothing space s.addressSpace ∧ NumberText size s.pointerSize ∧ AlignText abi s.abi ∧
    Given AlignText s.abi more[0]? s.pref ∧ Given NumberText s.pointerSize more[1]? s.indexSize

/-- Entering a type into a sorted table: after the entries for earlier types and before those for later types, in
place of any entry for the same type. -/
def PutType (l : TypeAlignSpecs) (s : TypeAlignSpec) (l' : TypeAlignSpecs) : Prop :=
  ∃ pre old post, l = pre ++ old ++ post ∧ l' = pre ++ s :: post ∧
    (∀ x ∈ pre, Props.TypeBefore x.alignedType s.alignedType) ∧ (∀ x ∈ old, x.alignedType = s.alignedType) ∧
    ∀ x ∈ post, Props.TypeBefore s.alignedType x.alignedType

/-- Entering a pointer spec into a sorted table: after the entries for address spaces up to its own, unless the last of
these is already the same. -/
def PutPointer (l : PointerAlignSpecs) (s : PointerAlignSpec) (l' : PointerAlignSpecs) : Prop :=
  ∃ pre post, l = pre ++ post ∧ (∀ x ∈ pre, x.addressSpace.val ≤ s.addressSpace.val) ∧
    (∀ x ∈ post, s.addressSpace.val < x.addressSpace.val) ∧
    ((pre.getLast? = some s ∧ l' = l) ∨ (pre.getLast? ≠ some s ∧ l' = pre ++ s :: post))

/-! ## Specs and texts -/

/-- The letters of the mangling styles. -/
inductive ManglingLetter : Char → Mangling → Prop where
  | elf : ManglingLetter 'e' .elf
  | mips : ManglingLetter 'm' .mips
  | macho : ManglingLetter 'o' .macho
  | windowsX86Coff : ManglingLetter 'x' .windowsX86Coff
  | windowsCoff : ManglingLetter 'w' .windowsCoff
  | xCoff : ManglingLetter 'a' .xCoff

/-- `SpecSays text d d'`: the spec `text` changes the layout `d` into `d'`. -/
inductive SpecSays : Str → DataLayout → DataLayout → Prop where
  | little {t : Str} {d : DataLayout} : SpecSays ('e' :: t) d { d with endianness := .little }
  | big {t : Str} {d : DataLayout} : SpecSays ('E' :: t) d { d with endianness := .big }
  | stack {t : Str} {d : DataLayout} {a : Align} : AlignText t a →
      SpecSays ('S' :: t) d { d with naturalStackAlignment := some a }
  | program {t : Str} {d : DataLayout} {a : AddressSpace} : SpaceText t a →
      SpecSays ('P' :: t) d { d with programAddressSpace := a }
  | globals {t : Str} {d : DataLayout} {a : AddressSpace} : SpaceText t a →
      SpecSays ('G' :: t) d { d with globalVariableAddressSpace := a }
  | alloca {t : Str} {d : DataLayout} {a : AddressSpace} : SpaceText t a →
      SpecSays ('A' :: t) d { d with allocaAddressSpace := a }
  | pointer {text : Str} {d : DataLayout} {s : PointerAlignSpec} {l : PointerAlignSpecs} : PointerText text s →
      PutPointer d.pointerAlignments s l → SpecSays text d { d with pointerAlignments := l }
  | type {text : Str} {d : DataLayout} {s : TypeAlignSpec} {l : TypeAlignSpecs} : TypeText text s →
      PutType d.typeAlignments s l → SpecSays text d { d with typeAlignments := l }
  | functionIndependent {t : Str} {d : DataLayout} {a : Align} : AlignText t a →
      SpecSays ('F' :: 'i' :: t) d { d with functionPointerAlignment := some (.independent a) }
  | functionMultiple {t : Str} {d : DataLayout} {a : Align} : AlignText t a →
      SpecSays ('F' :: 'n' :: t) d { d with functionPointerAlignment := some (.multipleOfFunctionAlign a) }
  | mangling {c : Char} {t : Str} {d : DataLayout} {m : Mangling} : ManglingLetter c m →
      SpecSays ('m' :: ':' :: c :: t) d { d with mangling := some m }
  | nativeWidths {t : Str} {ps : List Str} {d : DataLayout} {ws : List U32} : t.head? ≠ some 'i' → Pieces ':' t ps →
      AllSay NumberText ps ws → SpecSays ('n' :: t) d { d with nativeIntegerWidths := ws }
  | nonIntegral {c : Char} {t : Str} {ps : List Str} {d : DataLayout} {as : List AddressSpace} : Pieces ':' t ps →
      AllSay (fun p a => SpaceText p a ∧ a.val ≠ 0) ps as →
      SpecSays ('n' :: 'i' :: c :: t) d { d with nonIntegralAddressSpaces := as }

/-- The specs, one after the other, change the layout `d` into `d'`. -/
inductive SpecsSay : List Str → DataLayout → DataLayout → Prop where
  | nil {d : DataLayout} : SpecsSay [] d d
  | cons {s : Str} {ss : List Str} {d d' d'' : DataLayout} : SpecSays s d d' → SpecsSay ss d' d'' →
      SpecsSay (s :: ss) d d''

/-- A datalayout text is ASCII and consists of specs separated by dashes; they change the default layout into the one
the text describes. -/
def LayoutSays (text : Str) (d : DataLayout) : Prop :=
  (∀ c ∈ text, c.toNat < 128) ∧ ∃ specs, Pieces '-' text specs ∧ SpecsSay specs .default d

/-! ## Faults

What is wrong with a text, if something is. Of several things the first in the order of the text counts, except that the number
of parts is looked at before the parts and the letter after `F` after the alignment that follows it. -/

/-- Why a text is not a number of at most `max`: reading from the left, the first thing that is wrong is a character that is no
digit, or the end, or that the number is too large. -/
inductive NumberFault (max : Nat) : Str → IntErr → Prop where
  | empty : NumberFault max [] .empty
  | digit {s : Str} : s ≠ [] → (∀ n, ¬ Numeral s n) → (∀ pre post n, s = pre ++ post → Numeral pre n → n ≤ max) →
      NumberFault max s .invalidDigit
  | overflow {pre post : Str} {n : Nat} : Numeral pre n → max < n → NumberFault max (pre ++ post) .posOverflow

/-- How the reason why a text is not a number is put into words. -/
def numberMessage : IntErr → Str
  | .empty => "cannot parse integer from empty string".toList
  | .invalidDigit => "invalid digit found in string".toList
  | .posOverflow => "number too large to fit in target type".toList

/-- Why a number is not an alignment in bits. -/
inductive AlignFault : Str → AlignError → Prop where
  | notBytes {s : Str} {v : U64} : Numeral s v.toNat → v.toNat % 8 ≠ 0 → AlignFault s (.notByteMultiple v)
  | notPower {s : Str} {v : U64} : Numeral s (8 * v.toNat) → 8 * v.toNat < 2 ^ 64 → (∀ k, v.toNat ≠ 2 ^ k) →
      AlignFault s (.notPowerOfTwo v)

/-- Why a number is not that of an address space. -/
inductive SpaceFault : Str → AddressSpaceError → Prop where
  | tooBig {s : Str} {v : U64} : Numeral s v.toNat → 2 ^ 23 ≤ v.toNat → v.toNat < 2 ^ 32 → SpaceFault s (.tooBig v)

/-- What is wrong with the spec of a type. -/
inductive TypeFault : Str → AlignSpecError → Prop where
  | nothingAggregate : TypeFault ['a'] (.parse "empty aggregate specifier".toList)
  | noColon {c : Char} {t : Str} : c ≠ ':' →
      TypeFault ('a' :: c :: t) (.parse ("unexpected character before aggregate spec: ".toList ++ [c]))
  | onePart {c : Char} {t : Str} : c = 'i' ∨ c = 'v' ∨ c = 'f' → ':' ∉ t →
      TypeFault (c :: t) (.parse ("wrong number of alignment parameters for spec '".toList ++ [c] ++
        "': expected at least 2, got 1".toList))
  | widthNumber {text abi width : Str} {c : Char} {pref : Option Str} {e : IntErr} :
      TypeParts text (some (c, width)) abi pref → NumberFault (2 ^ 32 - 1) width e →
      TypeFault text (.parse (numberMessage e))
  | width {text abi width : Str} {c : Char} {pref : Option Str} {v : U32} : TypeParts text (some (c, width)) abi pref →
      Numeral width v.toNat → v.toNat = 0 ∨ 2 ^ 23 ≤ v.toNat → TypeFault text (.badTypeWidth (.tooBig v))
  | abiNumber {text abi : Str} {kind : Option (Char × Str)} {pref : Option Str} {ty : AlignedType} {e : IntErr} :
      TypeParts text kind abi pref → KindText kind ty → NumberFault (2 ^ 64 - 1) abi e →
      TypeFault text (.parse (numberMessage e))
  | abi {text abi : Str} {kind : Option (Char × Str)} {pref : Option Str} {ty : AlignedType} {e : AlignError} :
      TypeParts text kind abi pref → KindText kind ty → AlignFault abi e → TypeFault text (.parseAlign e)
  | prefNumber {text abi pref : Str} {kind : Option (Char × Str)} {ty : AlignedType} {a : Align} {e : IntErr} :
      TypeParts text kind abi (some pref) → KindText kind ty → AlignText abi a → NumberFault (2 ^ 64 - 1) pref e →
      TypeFault text (.badInt e)
  | pref {text abi pref : Str} {kind : Option (Char × Str)} {ty : AlignedType} {a : Align} {e : AlignError} :
      TypeParts text kind abi (some pref) → KindText kind ty → AlignText abi a → AlignFault pref e →
      TypeFault text (.parseAlign e)
  | prefBelowAbi {text abi pref : Str} {kind : Option (Char × Str)} {ty : AlignedType} {a p : Align} :
      TypeParts text kind abi (some pref) → KindText kind ty → AlignText abi a → AlignText pref p → p.shift < a.shift →
      TypeFault text (.alignPref p a)
  | tooLarge {text abi : Str} {pref : Option Str} {kind : Option (Char × Str)} {ty : AlignedType} {a p : Align} :
      TypeParts text kind abi pref → KindText kind ty → AlignText abi a → Given AlignText a pref p → a.shift ≤ p.shift →
      15 < p.shift.toNat → TypeFault text (.abiAlignTooLarge a)

/-- What is wrong with the spec of pointers. -/
inductive PointerFault : Str → AlignSpecError → Prop where
  | fewParts {t : Str} {ps : List Str} : Pieces ':' t ps → ps.length < 3 →
      PointerFault ('p' :: t) (.parse ("pointer align spec has too few parts (".toList ++ decimal ps.length ++
        ", expected at least 4)".toList))
  | spaceNumber {t space size abi : Str} {ps : List Str} {e : IntErr} : Pieces ':' t (space :: size :: abi :: ps) →
      space ≠ [] → NumberFault (2 ^ 32 - 1) space e → PointerFault ('p' :: t) (.badInt e)
  | space {t space size abi : Str} {ps : List Str} {e : AddressSpaceError} : Pieces ':' t (space :: size :: abi :: ps) →
      SpaceFault space e → PointerFault ('p' :: t) (.badAddressSpace e)
  | size {t space size abi : Str} {ps : List Str} {s : AddressSpace} {e : IntErr} :
      Pieces ':' t (space :: size :: abi :: ps) → SpaceOrNothing space s → NumberFault (2 ^ 64 - 1) size e →
      PointerFault ('p' :: t) (.badInt e)
  | abiNumber {t space size abi : Str} {ps : List Str} {s : AddressSpace} {n : U64} {e : IntErr} :
      Pieces ':' t (space :: size :: abi :: ps) → SpaceOrNothing space s → NumberText size n →
      NumberFault (2 ^ 64 - 1) abi e → PointerFault ('p' :: t) (.parse (numberMessage e))
  | abi {t space size abi : Str} {ps : List Str} {s : AddressSpace} {n : U64} {e : AlignError} :
      Pieces ':' t (space :: size :: abi :: ps) → SpaceOrNothing space s → NumberText size n → AlignFault abi e →
      PointerFault ('p' :: t) (.parseAlign e)
  | prefNumber {t space size abi pref : Str} {ps : List Str} {s : AddressSpace} {n : U64} {a : Align} {e : IntErr} :
      Pieces ':' t (space :: size :: abi :: pref :: ps) → SpaceOrNothing space s → NumberText size n → AlignText abi a →
      NumberFault (2 ^ 64 - 1) pref e → PointerFault ('p' :: t) (.badInt e)
  | pref {t space size abi pref : Str} {ps : List Str} {s : AddressSpace} {n : U64} {a : Align} {e : AlignError} :
      Pieces ':' t (space :: size :: abi :: pref :: ps) → SpaceOrNothing space s → NumberText size n → AlignText abi a →
      AlignFault pref e → PointerFault ('p' :: t) (.parseAlign e)
  | index {t space size abi pref index : Str} {ps : List Str} {s : AddressSpace} {n : U64} {a p : Align} {e : IntErr} :
      Pieces ':' t (space :: size :: abi :: pref :: index :: ps) → SpaceOrNothing space s → NumberText size n →
      AlignText abi a → AlignText pref p → NumberFault (2 ^ 64 - 1) index e → PointerFault ('p' :: t) (.badInt e)

/-- Why a text is not the number of an address space other than 0. -/
inductive NonIntegralFault : Str → DataLayoutError → Prop where
  | number {p : Str} {e : IntErr} : NumberFault (2 ^ 32 - 1) p e → NonIntegralFault p (.badInt e)
  | space {p : Str} {e : AddressSpaceError} : SpaceFault p e → NonIntegralFault p (.badAddressSpace e)
  | zero {p : Str} : Numeral p 0 →
      NonIntegralFault p (.badSpecParse "address space 0 cannot be non-integral".toList)

/-- What is wrong with a spec. -/
inductive SpecFault : Str → DataLayoutError → Prop where
  | empty : SpecFault [] .emptySpec
  | unknown {c : Char} {t : Str} : c ∉ "eESPGApivfaFmn".toList → SpecFault (c :: t) (.unknownSpec c)
  | stackNumber {t : Str} {e : IntErr} : NumberFault (2 ^ 64 - 1) t e → SpecFault ('S' :: t) (.badInt e)
  | stack {t : Str} {e : AlignError} : AlignFault t e → SpecFault ('S' :: t) (.badAlign e)
  | spaceNumber {c : Char} {t : Str} {e : IntErr} : c = 'P' ∨ c = 'G' ∨ c = 'A' → NumberFault (2 ^ 32 - 1) t e →
      SpecFault (c :: t) (.badInt e)
  | space {c : Char} {t : Str} {e : AddressSpaceError} : c = 'P' ∨ c = 'G' ∨ c = 'A' → SpaceFault t e →
      SpecFault (c :: t) (.badAddressSpace e)
  | pointer {text : Str} {e : AlignSpecError} : PointerFault text e → SpecFault text (.badAlignSpec e)
  | type {text : Str} {e : AlignSpecError} : TypeFault text e → SpecFault text (.badAlignSpec e)
  | nothingFunction : SpecFault ['F'] (.badSpecParse "function pointer alignment spec is empty".toList)
  | functionNumber {c : Char} {t : Str} {e : IntErr} : NumberFault (2 ^ 64 - 1) t e →
      SpecFault ('F' :: c :: t) (.badInt e)
  | function {c : Char} {t : Str} {e : AlignError} : AlignFault t e → SpecFault ('F' :: c :: t) (.badAlign e)
  | functionKind {c : Char} {t : Str} {a : Align} : c ≠ 'i' → c ≠ 'n' → AlignText t a →
      SpecFault ('F' :: c :: t) (.badSpecParse ("unknown function pointer alignment specifier: ".toList ++ [c]))
  | nothingMangling : SpecFault ['m'] (.badSpecParse "mangling spec is empty".toList)
  | manglingSeparator {c : Char} {t : Str} : c ≠ ':' →
      SpecFault ('m' :: c :: t) (.badSpecParse ("bad separator for mangling spec: ".toList ++ [c]))
  | noMangling : SpecFault ['m', ':'] (.badSpecParse "mangling spec has no mangling kind".toList)
  | mangling {c : Char} {t : Str} : (∀ m, ¬ ManglingLetter c m) →
      SpecFault ('m' :: ':' :: c :: t) (.badSpecParse ("unknown mangling kind in spec: ".toList ++ [c]))
  | nothingNative : SpecFault ['n'] (.badSpecParse "integer width spec is empty".toList)
  | nothingNonIntegral : SpecFault ['n', 'i'] (.badSpecParse "cannot find address space 0".toList)
  | nativeWidth {t p : Str} {good rest : List Str} {ws : List U32} {e : IntErr} : t ≠ [] → t.head? ≠ some 'i' →
      Pieces ':' t (good ++ p :: rest) → AllSay NumberText good ws → NumberFault (2 ^ 32 - 1) p e →
      SpecFault ('n' :: t) (.badInt e)
  | nonIntegral {c : Char} {t p : Str} {good rest : List Str} {as : List AddressSpace} {e : DataLayoutError} :
      Pieces ':' t (good ++ p :: rest) → AllSay (fun p a => SpaceText p a ∧ a.val ≠ 0) good as → NonIntegralFault p e →
      SpecFault ('n' :: 'i' :: c :: t) e

/-- What is wrong with a text: it has a character outside ASCII, or one of its specs is faulty while those before it
are not. -/
inductive LayoutFault (text : Str) : DataLayoutError → Prop where
  | encoding {c : Char} : c ∈ text → 128 ≤ c.toNat → LayoutFault text .badEncoding
  | spec {good : List Str} {bad : Str} {rest : List Str} {d : DataLayout} {e : DataLayoutError} :
      (∀ c ∈ text, c.toNat < 128) → Pieces '-' text (good ++ bad :: rest) → SpecsSay good .default d →
      SpecFault bad e → LayoutFault text e

end Verif.Spec
