import Verif.Spec.Merkle
import Mathlib.Data.List.Dedup

/-!
# Independent specification: the size of a Merkle multiproof
-/

namespace Signal.Spec

/-- The proper ancestors of the nodes `s`, each once: the parent of node `s` is node `s / 2`, the root is node 1. -/
def ancestorsOf (nodes : List Nat) : List Nat :=
  ((nodes.flatMap (fun s => (List.range 64).map (fun k => s / 2 ^ (k + 1)))).filter (fun n => decide (0 < n))).dedup

/-- A proof whose tree has `n` inner nodes: a chunk and a mask bit for each of the `n + 1` leaves, and a descriptor bit for each node;
the stack never needs more than 126 nodes. -/
structure ProofSize (n : Nat) (p : Multiproof) : Prop where
  data : p.data.length = 32 * (n + 1)
  valueMask : p.valueMask.length = n + 1
  descriptor : p.descriptor.length = 2 * n + 1
  depth : p.maxStackDepth ≤ 126

end Signal.Spec
