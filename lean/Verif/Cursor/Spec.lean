import Verif.Base.Out

/-!
# Specification of bit strings

Independent of the cursor model: a buffer is the list of its bits, each byte least significant bit
first; a bit string denotes the number whose binary digits it is, least significant first.
-/

namespace Verif.Spec

/-- The bits of a byte, least significant first. -/
def bitsOfByte (b : U8) : List Bool :=
  [b.getLsbD 0, b.getLsbD 1, b.getLsbD 2, b.getLsbD 3,
   b.getLsbD 4, b.getLsbD 5, b.getLsbD 6, b.getLsbD 7]

/-- The bits of a byte string. -/
def bitsOf : List U8 → List Bool
  | [] => []
  | b :: bs => bitsOfByte b ++ bitsOf bs

/-- The number denoted by a bit string, least significant bit first. -/
def natOfBits : List Bool → Nat
  | [] => 0
  | b :: bs => b.toNat + 2 * natOfBits bs

/-- The `n`-bit representation of `v`, least significant bit first (higher bits are dropped). -/
def bitsOfNat : Nat → Nat → List Bool
  | 0, _ => []
  | n + 1, v => (v % 2 == 1) :: bitsOfNat n (v / 2)

/-! ## Variable bit rate encoding (LLVM bitstream format, "Variable Width Value") -/

/-- Any VBR-`w` chunk sequence: each chunk carries `w - 1` bits of data, least significant chunk first,
and its top bit says whether another chunk follows. -/
def rawVbr (w : Nat) : List Nat → List Bool
  | [] => []
  | [x] => bitsOfNat w x
  | x :: xs => bitsOfNat w (2 ^ (w - 1) + x) ++ rawVbr w xs

/-- The number a chunk sequence stands for. -/
def chunksValue (w : Nat) : List Nat → Nat
  | [] => 0
  | x :: xs => x + 2 ^ (w - 1) * chunksValue w xs

/-- The canonical (shortest) chunks of `v`: digits in base `2^(w-1)`. `k` bounds the number of chunks. -/
def vbrChunks (w : Nat) : Nat → Nat → List Nat
  | 0, _ => []
  | k + 1, v => if v < 2 ^ (w - 1) then [v] else v % 2 ^ (w - 1) :: vbrChunks w k (v / 2 ^ (w - 1))

/-- The canonical VBR-`w` encoding of a 64-bit value (at most 64 chunks, as `w ≥ 2`). -/
def encVbr (w : Nat) (v : U64) : List Bool := rawVbr w (vbrChunks w 64 v.toNat)

/-- The signed-VBR representation of an integer: magnitude shifted left by one, sign in the low bit. -/
def signed (i : Int) : Nat := if i < 0 then 2 * i.natAbs + 1 else 2 * i.natAbs

end Verif.Spec
