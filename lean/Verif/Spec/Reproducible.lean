import Verif.Model.Ext

/-!
# Specification: what the code leaves to chance

`build` iterates over a `HashSet`, whose order differs from run to run; `validate_state_patches` sorts with an unstable sort, which may
leave entries with equal keys in any order. Everything else in the code is a function of its inputs.
-/

namespace Signal.Spec

/-- The order in which a hash set may yield its elements: every element once, in any order, for every set an order of its own. -/
def SetOrder (order : List Nat → List Nat) : Prop := ∀ l, (order l).Perm l

/-- What an unstable sort by the second component may do: all entries stay, and they are in order. -/
def SortsByEpoch (sort : List (Nat × Nat) → List (Nat × Nat)) : Prop :=
  ∀ l, (sort l).Perm l ∧ (sort l).Pairwise (fun a b => a.2 ≤ b.2)

/-- The same machine and libraries with another unstable sort. -/
def withSort (X : Ext) (sort : List (Nat × Nat) → List (Nat × Nat)) (h : SortsByEpoch sort) : Ext :=
  { X with sortByEpoch := sort, sortByEpoch_perm := fun l => (h l).1, sortByEpoch_sorted := fun l => (h l).2 }

end Signal.Spec
