/-!
# What `PartialEq`, `Ord` and `PartialOrd` promise
-/

namespace Verif.Spec

/-- The contract of Rust's `Ord`: `cmp` agrees with `==`, swaps with its arguments, and is transitive. With these three,
`==` is an equivalence and `cmp` a total order on its classes. -/
structure LawfulOrd {α : Type} (same : α → α → Prop) (cmp : α → α → Ordering) : Prop where
  eq_iff : ∀ a b, cmp a b = .eq ↔ same a b
  swap : ∀ a b, cmp b a = (cmp a b).swap
  trans : ∀ a b c, cmp a b = .lt → cmp b c = .lt → cmp a c = .lt
  eq_trans : ∀ a b c, cmp a b = .eq → cmp b c = .eq → cmp a c = .eq
  lt_eq : ∀ a b c, cmp a b = .lt → cmp b c = .eq → cmp a c = .lt

/-- Sorting by a key that is a number. -/
def SortsBy {α : Type} (cmp : α → α → Ordering) (key : α → Nat) : Prop :=
  ∀ a b, (cmp a b = .lt ↔ key a < key b) ∧ (cmp a b = .eq ↔ key a = key b) ∧ (cmp a b = .gt ↔ key b < key a)

end Verif.Spec
