import Verif.Props.Depth

/-! # C30: a hash function for which a request for a node and its descendant is served

The clause of C30 on overlapping requests is proved for proofs of fewer than 64 levels, and for real trees if no digests collide and no leaf
is a digest. Some condition on the hash function is needed: for a function with one value the builder makes a proof of 64 levels for the
request of node 2 and node `2^63`, it verifies, and it reports both, because the index of the second wraps around. -/

namespace Signal
open Spec

/-- All digests are equal. -/
def constExt : Ext := { exExt with sha256 := fun _ => zeroRoot, sha256_length := fun _ => rfl }

/-- A tree with a leaf 63 levels below the root, on the left. -/
def leftSpine : Nat → Tree
  | 0 => .leaf zeroRoot
  | n + 1 => .node (leftSpine n) (.leaf zeroRoot)

theorem leftSpine_chunked (n : Nat) : (leftSpine n).Chunked := by
  induction n with
  | zero => rfl
  | succ n ih => exact ⟨ih, rfl⟩

theorem leftSpine_depth (n : Nat) : (leftSpine n).depth = n := by
  induction n with
  | zero => rfl
  | succ n ih => simp only [leftSpine, Tree.depth, ih]; omega

/-- The proof that the builder makes. -/
def degenerateProof : Multiproof where
  data := (List.replicate 65 zeroRoot).flatten
  valueMask := true :: true :: List.replicate 63 false
  descriptor := false :: true :: (List.replicate 63 false ++ List.replicate 64 true)
  maxStackDepth := 65

/-- The indices of the proof: the two requested ones and the siblings on the path to the second. -/
def degenerateIndices : List (Nat × Bool) := (2, true) :: (2 ^ 63, true) :: (List.range 63).map (fun k => (2 ^ (63 - k) + 1, false))

def degenerateHelpers : List Nat := 3 :: (List.range 62).map (fun k => 2 ^ (63 - k) + 1)

set_option maxRecDepth 100000 in
theorem degenerate_helpers : ((([2, 2 ^ 63] : List Nat).flatMap getBranchIndices).eraseDups).filter
    (fun a => !((([2, 2 ^ 63] : List Nat).flatMap getPathIndices).eraseDups).contains a) = degenerateHelpers := by decide +kernel

set_option maxRecDepth 100000 in
theorem degenerate_perm : (degenerateHelpers.map (·, false) ++ [2, 2 ^ 63].map (·, true)).Perm degenerateIndices := by decide +kernel

set_option maxRecDepth 100000 in
theorem degenerate_sorted : degenerateIndices.Pairwise (fun a b => lexLe a.1 b.1 = true) := by decide +kernel

set_option maxRecDepth 100000 in
theorem degenerate_once : ∀ a ∈ degenerateIndices, ∀ b ∈ degenerateIndices, a.1 = b.1 → a = b := by decide +kernel

theorem degenerate_indices (order : List Nat → List Nat) (ho : ∀ l, (order l).Perm l) :
    computeProofIndicesAndValueMask order [2, 2 ^ 63] = (degenerateIndices.map (·.1), degenerateIndices.map (·.2)) := by
  unfold computeProofIndicesAndValueMask
  dsimp only
  rw [degenerate_helpers]
  have hp : ((order degenerateHelpers).map (·, false) ++ [2, 2 ^ 63].map (·, true)).Perm degenerateIndices :=
    (((ho _).map _).append_right _).trans degenerate_perm
  have key : ((order degenerateHelpers).map (·, false) ++ [2, 2 ^ 63].map (·, true)).mergeSort (fun a b => lexLe a.1 b.1) =
      degenerateIndices := by
    apply List.Perm.eq_of_pairwise (le := fun a b => lexLe a.1 b.1 = true)
    · intro a b ha hb h1 h2
      rw [List.mem_mergeSort] at ha
      exact degenerate_once a (hp.mem_iff.1 ha) b hb (lexLe_antisymm h1 h2)
    · exact List.pairwise_mergeSort (fun a b c => lexLe_trans a.1 b.1 c.1) (fun a b => lexLe_total a.1 b.1) _
    · exact degenerate_sorted
    · exact (List.mergeSort_perm _ _).trans hp
  simp only [key]

set_option maxRecDepth 100000 in
theorem degenerate_nodes : mapRes (fun i => okOr ProofError.merkleization (((leftSpine 63).nodeAt i).map (·.root constExt)))
    (degenerateIndices.map (·.1)) = .ok (List.replicate 65 zeroRoot) := by decide +kernel

set_option maxRecDepth 100000 in
theorem degenerate_descriptor : computeProofDescriptor (degenerateIndices.map (·.1)) = degenerateProof.descriptor := by decide +kernel

set_option maxRecDepth 100000 in
theorem degenerate_depth : calculateMaxStackDepth degenerateProof.descriptor = .ok 65 := by decide +kernel

set_option maxRecDepth 100000 in
theorem degenerate_mask : degenerateIndices.map (·.2) = degenerateProof.valueMask := by decide +kernel

theorem degenerate_built (order : List Nat → List Nat) (ho : ∀ l, (order l).Perm l) :
    build constExt order [2, 2 ^ 63] (leftSpine 63) = .ok degenerateProof := by
  unfold build
  rw [degenerate_indices order ho]
  dsimp only
  rw [degenerate_nodes, degenerate_descriptor, degenerate_depth, degenerate_mask]
  rfl

set_option maxRecDepth 100000 in
theorem degenerate_verifies : degenerateProof.verify constExt ((leftSpine 63).root constExt) = .ok () := by decide +kernel

set_option maxRecDepth 100000 in
theorem degenerate_values : degenerateProof.values = [(2, zeroRoot), (2 ^ 63, zeroRoot)] := by decide +kernel

/-- **C30.** With a hash function whose digests are all equal, the builder makes a proof for a request of a node and one of its descendants,
the proof verifies against the tree, and it reports both. -/
theorem C30_degenerate_hash : ∃ (X : Ext) (T : Tree) (s t : Nat), T.Chunked ∧ T.depth < 64 ∧ Below t s ∧ s ≠ t ∧ s < t ∧ t < 2 ^ 64 ∧
    ∀ order : List Nat → List Nat, (∀ l, (order l).Perm l) → ∃ p, build X order [s, t] T = .ok p ∧ p.verify X (T.root X) = .ok () ∧
      p.values.map (·.1) = [s, t] := by
  refine ⟨constExt, leftSpine 63, 2, 2 ^ 63, leftSpine_chunked _, by rw [leftSpine_depth]; omega, ⟨62, by decide⟩, by decide, by decide,
    by decide, fun order ho => ⟨_, degenerate_built order ho, degenerate_verifies, ?_⟩⟩
  rw [degenerate_values]
  rfl

end Signal
