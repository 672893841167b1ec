/-!
# Ordered maps with natural keys

Model of Rust's `BTreeMap<K, V>` for integer keys: association lists kept sorted by key.
-/

namespace Signal

/-- A `BTreeMap` with integer keys, as the list of its entries in iteration order. -/
abbrev OMap (V : Type) := List (Nat × V)

namespace OMap
variable {V : Type}

/-- `BTreeMap::get`. -/
def get? : OMap V → Nat → Option V
  | [], _ => none
  | (k, v) :: m, i => if i = k then some v else get? m i

/-- `BTreeMap::insert` (an existing entry is overwritten). -/
def insert : OMap V → Nat → V → OMap V
  | [], i, x => [(i, x)]
  | (k, v) :: m, i, x =>
    if i < k then (i, x) :: (k, v) :: m
    else if i = k then (k, x) :: m
    else (k, v) :: insert m i x

/-- `BTreeMap::from_iter`: insert one after the other, later entries win. -/
def ofList (l : List (Nat × V)) : OMap V := l.foldl (fun m p => insert m p.1 p.2) []

/-- `BTreeMap::keys`. -/
def keys (m : OMap V) : List Nat := m.map (·.1)

/-- `BTreeMap::values`. -/
def values (m : OMap V) : List V := m.map (·.2)

/-- The representation invariant: keys strictly ascending. -/
def Sorted (m : OMap V) : Prop := m.Pairwise (fun a b => a.1 < b.1)

instance (m : OMap V) : Decidable (Sorted m) := inferInstanceAs (Decidable (List.Pairwise _ _))

end OMap

/-- `BTreeSet<usize>`: a map to unit would do; we keep the sorted list of elements. -/
abbrev OSet := List Nat

namespace OSet

/-- `BTreeSet::insert`. -/
def insert : OSet → Nat → OSet
  | [], i => [i]
  | k :: m, i => if i < k then i :: k :: m else if i = k then k :: m else k :: insert m i

/-- `BTreeSet::extend` / `from_iter`. -/
def extend (s : OSet) (l : List Nat) : OSet := l.foldl insert s

/-- The representation invariant: strictly ascending. -/
def Sorted (s : OSet) : Prop := s.Pairwise (· < ·)

instance (s : OSet) : Decidable (Sorted s) := inferInstanceAs (Decidable (List.Pairwise _ _))

end OSet

end Signal
