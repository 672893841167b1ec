import Verif.Model.Paths
import Verif.Spec.Gindices
import Verif.Spec.Request

/-!
# Independent specification: paths of a type and what is registered
-/

namespace Signal.Spec
open Gen

/-- The path leads from the type to the type: fields by name, bytes and elements below the length or limit. -/
inductive Leads : Schema → List PathElem → Schema → Prop where
  | here {s : Schema} : Leads s [] s
  | field {fs : List (String × Schema)} {name : String} {s s' : Schema} {ps : List PathElem} :
    fs.find? (fun f => f.1 == name) = some (name, s) → Leads s ps s' → Leads (.container fs) (.field name :: ps) s'
  | byte {n j : Nat} {s' : Schema} {ps : List PathElem} : j < n → Leads .opaque ps s' → Leads (.bytes n) (.index j :: ps) s'
  | element {limit j : Nat} {s s' : Schema} {ps : List PathElem} : j < limit → Leads s ps s' → Leads (.list limit s) (.index j :: ps) s'

/-- A path of the type: to something in it, or to the length of a list in it. -/
def PathOf (s : Schema) : ReqPath → Prop
  | .part path => ∃ s', Leads s path s'
  | .lengthOf path => ∃ limit elem, Leads s path (.list limit elem)

/-- In the value with tree `T` the path ends at the part with tree `t`. The length is the right child of a list. -/
def EndsAt (s : Schema) (T : Tree) : ReqPath → Tree → Prop
  | .part path, t => ∃ s', Reach s T path s' t
  | .lengthOf path, t => ∃ limit elem chunks, Reach s T path (.list limit elem) (.node chunks t)

/-- The call asks for the index `g`. -/
def Asks (g : Nat) : Registration → Prop
  | .path s q => reqIndex s q = some g
  | .gindex g' => g = g'
  | .gindices gs => g ∈ gs

/-- The call registers a path that its type does not have. -/
def Unknown : Registration → Prop
  | .path s q => ¬ PathOf s q
  | _ => False

end Signal.Spec
