import Verif.Spec.Merkle

/-!
# Model of ssz-multiproofs/src/builder.rs

The container is represented by its SSZ Merkle tree (`Spec.Tree`): `Prove::compute_tree` and `Prover` of
the `ssz_rs` crate are external; looking up a generalized index gives the root of the subtree there, or
an error if there is none.
-/

namespace Signal
open Spec

/-- `sibling` (ssz-multiproofs/src/builder.rs:215-217): `index ^ 1`, i.e. flip the lowest bit. -/
def sibling (i : Nat) : Nat := if i % 2 = 0 then i + 1 else i - 1

/-- `parent` (ssz-multiproofs/src/builder.rs:219-221). -/
def parent (i : Nat) : Nat := i / 2

/-- Loop of `get_branch_indices` (ssz-multiproofs/src/builder.rs:192-198), result in push order. -/
def branchLoop (focus : Nat) : List Nat :=
  if 1 < focus then focus :: branchLoop (sibling (parent focus)) else [focus]
  termination_by focus
  decreasing_by unfold sibling parent; split <;> omega

/-- `get_branch_indices` (ssz-multiproofs/src/builder.rs:191-201). -/
def getBranchIndices (i : Nat) : List Nat := (branchLoop (sibling i)).dropLast

/-- Loop of `get_path_indices` (ssz-multiproofs/src/builder.rs:204-210). -/
def pathLoop (focus : Nat) : List Nat :=
  if 1 < focus then focus :: pathLoop (parent focus) else [focus]
  termination_by focus
  decreasing_by unfold parent; omega

/-- `get_path_indices` (ssz-multiproofs/src/builder.rs:203-213). -/
def getPathIndices (i : Nat) : List Nat := (pathLoop i).dropLast

/-- Number of significant bits: `BITS - leading_zeros` (ssz-multiproofs/src/builder.rs:170-171). -/
def bitLen (a : Nat) : Nat := if a = 0 then 0 else a.log2 + 1

/-- `a << (BITS - a_len)` (ssz-multiproofs/src/builder.rs:173-174). `GeneralizedIndex` is `usize`, 64 bits
on the host. -/
def shifted (a : Nat) : Nat := a * 2 ^ (64 - bitLen a)

/-- `cmp_binary_lexicographically(a, b) != Greater` (ssz-multiproofs/src/builder.rs:161-180). For zero
both the shifted value and the length are zero, which gives the same answers as the special cases of
the code. -/
def lexLe (a b : Nat) : Bool :=
  if shifted a = shifted b then decide (bitLen a ≤ bitLen b) else decide (shifted a < shifted b)

/-- `compute_proof_indices_and_value_mask` (ssz-multiproofs/src/builder.rs:124-157). The iteration
order of the `HashSet` of helper indices is the parameter `order`. `sorted_by` is a stable merge
sort. -/
def computeProofIndicesAndValueMask (order : List Nat → List Nat) (indices : List Nat) :
    List Nat × List Bool :=
  let allHelper := (indices.flatMap getBranchIndices).eraseDups
  let allPath := (indices.flatMap getPathIndices).eraseDups
  let helper := order (allHelper.filter (fun a => !allPath.contains a))
  let idxAndMask := (helper.map (·, false) ++ indices.map (·, true)).mergeSort
    (fun a b => lexLe a.1 b.1)
  (idxAndMask.map (·.1), idxAndMask.map (·.2))

/-- `usize::trailing_zeros`. -/
def trailingZeros (n : Nat) : Nat :=
  if n = 0 then 64 else if n % 2 = 1 then 0 else 1 + trailingZeros (n / 2)
  termination_by n

/-- `compute_proof_descriptor` (ssz-multiproofs/src/builder.rs:182-189). -/
def computeProofDescriptor (proofIndices : List Nat) : List Bool :=
  proofIndices.flatMap (fun i => List.replicate (trailingZeros i) false ++ [true])

/-- Inner loop of `calculate_max_stack_depth` (ssz-multiproofs/src/multiproof.rs:253-263). A stack entry is
`true` for `Computed`, `false` for `Internal`; top first. -/
def depthReduce : List Bool → (max : Nat) → List Bool × Nat
  | true :: true :: false :: rest, m => depthReduce (true :: rest) (max m (rest.length + 1))
  | st, m => (st, m)
  termination_by st => st.length

/-- Outer loop of `calculate_max_stack_depth` (ssz-multiproofs/src/multiproof.rs:250-268). -/
def depthLoop : List Bool → List Bool → (max : Nat) → List Bool × Nat
  | [], st, m => (st, m)
  | true :: d, st, m =>
    let (st', m') := depthReduce (true :: st) m
    depthLoop d st' m'
  | false :: d, st, m => depthLoop d (false :: st) (max m (st.length + 1))

/-- `calculate_max_stack_depth` (ssz-multiproofs/src/multiproof.rs:247-271). -/
def calculateMaxStackDepth (descriptor : List Bool) : Res ProofError Nat := do
  let (st, m) := depthLoop descriptor [] 0
  assert (decide (st.length = 1))
  return m

/-- `MultiproofBuilder::build` (ssz-multiproofs/src/builder.rs:78-121) on the set of requested indices
(`BTreeSet`, ascending). The parallel computation of nodes is a plain map. -/
def build (X : Ext) (order : List Nat → List Nat) (gindices : OSet) (T : Tree) :
    Res ProofError Multiproof := do
  let (proofIndices, valueMask) := computeProofIndicesAndValueMask order gindices
  let nodes ← mapRes (fun i => okOr .merkleization ((T.nodeAt i).map (·.root X))) proofIndices
  let descriptor := computeProofDescriptor proofIndices
  let maxStackDepth ← calculateMaxStackDepth descriptor
  return { data := nodes.flatten, valueMask, descriptor, maxStackDepth }

end Signal
