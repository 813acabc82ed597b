import Verif.Mapper.LayoutSpec

/-!
# Datalayouts as LLVM's manual has them

The specs of LLVM's language reference ("Data Layout"), how they are written, which ones LLVM allows, and what a list of them means.
All sizes and alignments are numbers of bits here, as in the text.
-/

namespace Verif.Spec

/-- A spec of LLVM's manual. -/
inductive LlvmSpec where
  | little
  | big
  | stack (align : Nat)
  | program (space : Nat)
  | globals (space : Nat)
  | alloca (space : Nat)
  | pointer (space : Option Nat) (size abi : Nat) (more : Option (Nat × Option Nat))
  | integer (width abi : Nat) (pref : Option Nat)
  | vector (width abi : Nat) (pref : Option Nat)
  | float (width abi : Nat) (pref : Option Nat)
  | aggregate (abi : Nat) (pref : Option Nat)
  | functionIndependent (abi : Nat)
  | functionMultiple (abi : Nat)
  | mangling (letter : Char)
  | native (first : Nat) (others : List Nat)
  | nonIntegral (first : Nat) (others : List Nat)

namespace LlvmSpec

/-- Parts with colons between them. -/
def colons (parts : List Str) : Str := [':'].intercalate parts

/-- A number that may be left out. -/
def maybe : Option Nat → List Str
  | none => []
  | some n => [decimal n]

/-- How a spec is written. -/
def text : LlvmSpec → Str
  | little => ['e']
  | big => ['E']
  | stack a => 'S' :: decimal a
  | program n => 'P' :: decimal n
  | globals n => 'G' :: decimal n
  | alloca n => 'A' :: decimal n
  | pointer none size abi none => 'p' :: colons [[], decimal size, decimal abi]
  | pointer none size abi (some (pref, idx)) => 'p' :: colons ([[], decimal size, decimal abi, decimal pref] ++ maybe idx)
  | pointer (some n) size abi none => 'p' :: colons [decimal n, decimal size, decimal abi]
  | pointer (some n) size abi (some (pref, idx)) =>
    'p' :: colons ([decimal n, decimal size, decimal abi, decimal pref] ++ maybe idx)
  | integer w abi pref => 'i' :: colons ([decimal w, decimal abi] ++ maybe pref)
  | vector w abi pref => 'v' :: colons ([decimal w, decimal abi] ++ maybe pref)
  | float w abi pref => 'f' :: colons ([decimal w, decimal abi] ++ maybe pref)
  | aggregate abi pref => 'a' :: ':' :: colons (decimal abi :: maybe pref)
  | functionIndependent abi => 'F' :: 'i' :: decimal abi
  | functionMultiple abi => 'F' :: 'n' :: decimal abi
  | mangling c => ['m', ':', c]
  | native w ws => 'n' :: colons ((w :: ws).map decimal)
  | nonIntegral a as => 'n' :: 'i' :: ':' :: colons ((a :: as).map decimal)

/-- An alignment: a number of bytes that is a power of two, and fits in 32 bits as a number of bits. -/
def IsAlign (n : Nat) : Prop := ∃ k, n = 8 * 2 ^ k ∧ k < 29

/-- An alignment of a type: at most `2 ^ 15` bytes. -/
def IsTypeAlign (n : Nat) : Prop := ∃ k, n = 8 * 2 ^ k ∧ k ≤ 15

/-- Which specs LLVM allows. Address spaces and widths have 24 bits. The alignments of the stack, of aggregates and of function pointers may be
0. Preferred alignments are at least the required ones. Sizes of pointers are whole bytes, native widths positive. Address space 0 is integral. -/
def Allowed : LlvmSpec → Prop
  | little | big => True
  | stack a => a = 0 ∨ IsAlign a
  | program n | globals n | alloca n => n < 2 ^ 24
  | pointer n size abi more => n.getD 0 < 2 ^ 24 ∧ 0 < size ∧ size < 2 ^ 32 ∧ size % 8 = 0 ∧ IsAlign abi ∧
      ∀ pref idx, more = some (pref, idx) → IsAlign pref ∧ abi ≤ pref ∧ ∀ i, idx = some i → 0 < i ∧ i ≤ size ∧ i % 8 = 0
  | integer w abi pref | vector w abi pref | float w abi pref => 0 < w ∧ w < 2 ^ 24 ∧ IsTypeAlign abi ∧
      ∀ p, pref = some p → IsTypeAlign p ∧ abi ≤ p
  | aggregate abi pref => (abi = 0 ∨ IsTypeAlign abi) ∧ ∀ p, pref = some p → (p = 0 ∨ IsTypeAlign p) ∧ abi ≤ p
  | functionIndependent a | functionMultiple a => a = 0 ∨ IsAlign a
  | mangling c => c ∈ ['e', 'l', 'm', 'o', 'w', 'x', 'a']
  | native w ws => ∀ x ∈ w :: ws, 0 < x ∧ x < 2 ^ 24
  | nonIntegral a as => ∀ x ∈ a :: as, 0 < x ∧ x < 2 ^ 24

/-- All specs but those with an alignment of 0, with an address space or a width of `2 ^ 23` or more, and with GOFF mangling. -/
def Usual : LlvmSpec → Prop
  | little | big => True
  | stack a => a ≠ 0
  | program n | globals n | alloca n => n < 2 ^ 23
  | pointer n _ _ _ => n.getD 0 < 2 ^ 23
  | integer w _ _ | vector w _ _ | float w _ _ => w < 2 ^ 23
  | aggregate abi _ => abi ≠ 0
  | functionIndependent a | functionMultiple a => a ≠ 0
  | mangling c => c ≠ 'l'
  | native _ _ => True
  | nonIntegral a as => ∀ x ∈ a :: as, x < 2 ^ 23

end LlvmSpec

/-- The text of a list of specs. -/
def llvmText (specs : List LlvmSpec) : Str := ['-'].intercalate (specs.map LlvmSpec.text)

/-! ## Meaning -/

/-- What alignments are stated for. -/
inductive LlvmKind where
  | integer (width : Nat)
  | vector (width : Nat)
  | float (width : Nat)
  | aggregate
deriving DecidableEq

/-- The required and the preferred alignment that a spec states, and for what. -/
def LlvmSpec.aligns : LlvmSpec → Option (LlvmKind × Nat × Nat)
  | .integer w abi pref => some (.integer w, abi, pref.getD abi)
  | .vector w abi pref => some (.vector w, abi, pref.getD abi)
  | .float w abi pref => some (.float w, abi, pref.getD abi)
  | .aggregate abi pref => some (.aggregate, abi, pref.getD abi)
  | _ => none

/-- The alignments of the manual, for what is not stated. -/
def llvmDefaults : List (LlvmKind × Nat × Nat) :=
  [(.integer 1, 8, 8), (.integer 8, 8, 8), (.integer 16, 16, 16), (.integer 32, 32, 32), (.integer 64, 32, 64), (.float 16, 16, 16),
   (.float 32, 32, 32), (.float 64, 64, 64), (.float 128, 128, 128), (.vector 64, 64, 64), (.vector 128, 128, 128), (.aggregate, 0, 64)]

/-- The alignments that LLVM has an entry with: the last ones that are stated, or those of the manual. -/
def llvmAlign (specs : List LlvmSpec) (k : LlvmKind) : Option (Nat × Nat) :=
  (((specs.filterMap LlvmSpec.aligns).reverse ++ llvmDefaults).find? fun x => x.1 = k).map (·.2)

/-- The other properties of a layout, but for pointers. -/
structure LlvmLayout where
  little : Bool := false
  stack : Option Nat := none
  program : Nat := 0
  globals : Nat := 0
  alloca : Nat := 0
  function : Option (Bool × Nat) := none
  mangling : Option Char := none
  native : List Nat := []
  nonIntegral : List Nat := []

/-- What a spec changes. Lists are made longer. -/
def LlvmLayout.put (l : LlvmLayout) : LlvmSpec → LlvmLayout
  | .little => { l with little := true }
  | .big => { l with little := false }
  | .stack a => { l with stack := if a = 0 then none else some a }
  | .program n => { l with program := n }
  | .globals n => { l with globals := n }
  | .alloca n => { l with alloca := n }
  | .functionIndependent a => { l with function := if a = 0 then none else some (true, a) }
  | .functionMultiple a => { l with function := if a = 0 then none else some (false, a) }
  | .mangling c => { l with mangling := some c }
  | .native w ws => { l with native := l.native ++ w :: ws }
  | .nonIntegral a as => { l with nonIntegral := l.nonIntegral ++ a :: as }
  | _ => l

/-- The size of pointers of an address space, their required and preferred alignment and the size of indices, as a spec states them. -/
def LlvmSpec.pointers : LlvmSpec → Option (Nat × Nat × Nat × Nat × Nat)
  | .pointer n size abi none => some (n.getD 0, size, abi, abi, size)
  | .pointer n size abi (some (pref, idx)) => some (n.getD 0, size, abi, pref, idx.getD size)
  | _ => none

/-- The pointers of an address space that LLVM has an entry with: the last ones that are stated, or those of the manual. -/
def llvmPointer (specs : List LlvmSpec) (space : Nat) : Option (Nat × Nat × Nat × Nat) :=
  (((specs.filterMap LlvmSpec.pointers).reverse ++ [((0, 64, 64, 64, 64) : Nat × Nat × Nat × Nat × Nat)]).find?
    fun x => x.1 = space).map (·.2)

/-! ## Comparison -/

/-- What a type of the table is in LLVM's manual. -/
def kindOf : AlignedType → LlvmKind
  | .aggregate => .aggregate
  | .integer w => .integer w.val.toNat
  | .vector w => .vector w.val.toNat
  | .float w => .float w.val.toNat

/-- An alignment in bits. -/
def inBits (a : Align) : Nat := 8 * 2 ^ a.shift.toNat

/-- A layout says the same as LLVM's. -/
structure SameRest (d : DataLayout) (l : LlvmLayout) : Prop where
  endianness : d.endianness = if l.little then .little else .big
  stack : d.naturalStackAlignment.map inBits = l.stack
  program : d.programAddressSpace.val.toNat = l.program
  globals : d.globalVariableAddressSpace.val.toNat = l.globals
  alloca : d.allocaAddressSpace.val.toNat = l.alloca
  function : d.functionPointerAlignment.map
    (fun | .independent a => (true, inBits a) | .multipleOfFunctionAlign a => (false, inBits a)) = l.function
  mangling : ∀ c, l.mangling = some c ↔ ∃ m, d.mangling = some m ∧ ManglingLetter c m
  native : d.nativeIntegerWidths.map (·.toNat) = l.native
  nonIntegral : d.nonIntegralAddressSpaces.map (·.val.toNat) = l.nonIntegral

/-- Whether a spec states the native integer widths. -/
def isNative : Spec.LlvmSpec → Bool
  | .native _ _ => true
  | _ => false

/-- Whether a spec states the non-integral address spaces. -/
def isNonIntegral : Spec.LlvmSpec → Bool
  | .nonIntegral _ _ => true
  | _ => false

end Verif.Spec
