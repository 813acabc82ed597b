import Verif.Support.Ty

/-! Specification of the size of types: how many boxes a type takes when it is drawn as a tree, and how high the tree is. A type
owns its parts (`Box<Type>`, `Vec<Type>`: `llvm-support/src/ty.rs`), so each box is one `Type` value in memory. -/

namespace Verif.Spec

/-- The types a type is directly made of, in order. -/
def components : Ty → List Ty
  | .function r ps _ => r :: ps
  | .pointer p _ => [p]
  | .struct _ fs _ => fs
  | .array _ e => [e]
  | .fixedVector _ e => [e]
  | .scalableVector _ e => [e]
  | .prim _ | .integer _ | .opaquePointer _ => []

mutual
/-- The number of types a type consists of, itself included. -/
def nodes : Ty → Nat
  | .function r ps _ => 1 + (nodes r + nodesAll ps)
  | .pointer p _ => 1 + nodes p
  | .struct _ fs _ => 1 + nodesAll fs
  | .array _ e => 1 + nodes e
  | .fixedVector _ e => 1 + nodes e
  | .scalableVector _ e => 1 + nodes e
  | .prim _ | .integer _ | .opaquePointer _ => 1
def nodesAll : List Ty → Nat
  | [] => 0
  | t :: ts => nodes t + nodesAll ts
end

mutual
/-- The length of the longest way down into a type. -/
def height : Ty → Nat
  | .function r ps _ => 1 + max (height r) (heightAll ps)
  | .pointer p _ => 1 + height p
  | .struct _ fs _ => 1 + heightAll fs
  | .array _ e => 1 + height e
  | .fixedVector _ e => 1 + height e
  | .scalableVector _ e => 1 + height e
  | .prim _ | .integer _ | .opaquePointer _ => 1
def heightAll : List Ty → Nat
  | [] => 0
  | t :: ts => max (height t) (heightAll ts)
end

/-- The number of nodes of a tree of height `n` in which every inner node has `r` children: `1 + r + r ^ 2 + … + r ^ (n - 1)`. -/
def full (r : Nat) : Nat → Nat
  | 0 => 0
  | n + 1 => 1 + r * full r n

end Verif.Spec
