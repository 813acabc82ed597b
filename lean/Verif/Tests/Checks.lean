import Verif.Base.Out
import Verif.Support.Text

/-! What the translated unit tests are written with. -/

namespace Verif.Tests

/-- A test passes in debug and in release builds. -/
abbrev BothProfiles (t : Profile → Option Unit) : Prop := t .debug = some () ∧ t .release = some ()

/-- `assert_eq!(o.unwrap(), v)`, then go on with the new state. -/
def gives {σ ε α : Type} [DecidableEq α] (o : Out ε α × σ) (v : α) : Option σ :=
  match o.1 with
  | .ok w => if w = v then some o.2 else none
  | _ => none

/-- `o.unwrap()`, then go on with the new state. -/
def unwrap {σ ε α : Type} (o : Out ε α × σ) : Option σ :=
  match o.1 with
  | .ok _ => some o.2
  | _ => none

/-- `assert!(o.is_err())`, then go on with the new state. -/
def err {σ ε α : Type} (o : Out ε α × σ) : Option σ :=
  match o.1 with
  | .err _ => some o.2
  | _ => none

/-- `assert!(o.is_err())` where there is no state. -/
def failed {ε α : Type} (o : Out ε α) : Option Unit :=
  match o with
  | .err _ => some ()
  | _ => none

/-- `assert!(o.is_ok())` where there is no state. -/
def isOk {ε α : Type} (o : Out ε α) : Option Unit :=
  match o with
  | .ok _ => some ()
  | _ => none

/-- `o.unwrap()` where there is no state. -/
def got {ε α : Type} (o : Out ε α) : Option α :=
  match o with
  | .ok v => some v
  | _ => none

/-- `assert_eq!(o.unwrap_err().to_string(), text)`. -/
def says {ε α : Type} (text : ε → Option Str) (o : Out ε α) (m : String) : Option Unit :=
  match o with
  | .err e => guard (text e = some m.toList)
  | _ => none

end Verif.Tests
