import Verif.Support.Text

/-! What a report has to say about a number that is none of an enumeration. -/

namespace Verif.Spec

/-- The message for a number that is none of the enumeration. -/
def NoSuchNumber (enumeration : String) (n : Nat) : Str :=
  ("No discriminant in enum `" ++ enumeration ++ "` matches the value `" ++ toString n ++ "`").toList

end Verif.Spec
