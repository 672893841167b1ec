import Verif.Spec.Merkle

/-!
# Independent specification: requests for generalized indices
-/

namespace Signal.Spec

/-- `x` is `g` or lies in the subtree of `g`. -/
def Below (x g : Nat) : Prop := ∃ k, x / 2 ^ k = g

/-- `x` comes before `y` in depth-first left-to-right order, in different branches. -/
def LeftOf (x y : Nat) : Prop := ∃ g, 0 < g ∧ Below x (2 * g) ∧ Below y (2 * g + 1)

/-- A request the builder is meant for: not empty, all indices are present in the tree, none is the root,
none is above another. -/
structure GoodRequest (T : Tree) (S : List Nat) : Prop where
  ne : S ≠ []
  range : ∀ s ∈ S, 2 ≤ s ∧ s < 2 ^ 64
  present : ∀ s ∈ S, (T.nodeAt s).isSome
  antichain : ∀ s ∈ S, ∀ t ∈ S, Below s t → s = t

end Signal.Spec
