import Verif.Model.Gindices
import Verif.Spec.Ssz

/-!
# Independent specification: parts of SSZ values and their trees
-/

namespace Signal.Spec
open Gen

/-- `2^d` is the least power of two that is not below `n`. -/
def IsDepth (n d : Nat) : Prop := n ≤ 2 ^ d ∧ ∀ d', n ≤ 2 ^ d' → d ≤ d'

/-- A value of the type with tree `t` has, under the path element, a part of type `s'` with tree `t'`. -/
inductive Part : Schema → Tree → PathElem → Schema → Tree → Prop where
  | field {fs : List (String × Schema)} {ts : List Tree} {d i : Nat} {name : String} {s' : Schema} {t' : Tree} :
    IsDepth fs.length d → (fs.map Prod.fst).Nodup → fs[i]? = some (name, s') → ts[i]? = some t' →
      Part (.container fs) (container d ts) (.field name) s' t'
  | byte {n d j : Nat} {chunks : List Tree} {t' : Tree} :
    j < n → IsDepth ((n + 31) / 32) d → chunks[j / 32]? = some t' → Part (.bytes n) (container d chunks) (.index j) .opaque t'
  | element {limit d j : Nat} {elem : Schema} {f : Nat → Tree} {length : Tree} :
    j < limit → IsDepth limit d → Part (.list limit elem) (.node (perfect d f) length) (.index j) elem (f j)

/-- The part at the end of a path. -/
inductive Reach : Schema → Tree → List PathElem → Schema → Tree → Prop where
  | here {s : Schema} {t : Tree} : Reach s t [] s t
  | down {s s' s'' : Schema} {t t' t'' : Tree} {p : PathElem} {ps : List PathElem} :
    Part s t p s' t' → Reach s' t' ps s'' t'' → Reach s t (p :: ps) s'' t''

end Signal.Spec
