import Verif.Model.Ext

/-!
# Model of ssz-multiproofs/src/multiproof.rs
-/

namespace Signal

/-- `Error` (ssz-multiproofs/src/error.rs:16-48), the variants that are used. -/
inductive ProofError where
  | merkleization
  | rootMismatch
  | missingValue
  | gindexMismatch (expected actual : Nat)
  | unexpectedInternalNode
  | unusedLeaves
  deriving Repr, DecidableEq

/-- `Multiproof` (ssz-multiproofs/src/multiproof.rs:35-48). -/
structure Multiproof where
  data : Bytes
  valueMask : List Bool
  descriptor : List Bool
  maxStackDepth : Nat
  deriving Repr, DecidableEq

/-- `TreeNode` (ssz-multiproofs/src/multiproof.rs:177-181). -/
inductive TreeNode where
  | leaf (b : Bytes)
  | computed (b : Bytes)
  | internal
  deriving Repr, DecidableEq

/-- The bytes of a node that `has_value` (ssz-multiproofs/src/multiproof.rs:183-191). -/
def TreeNode.value? : TreeNode → Option Bytes
  | .leaf b => some b
  | .computed b => some b
  | .internal => none

/-- The `while` loop reducing pairs on top of the stack
(ssz-multiproofs/src/multiproof.rs:211-232). The stack's top is the head of the list. The two
`Err(UnexpectedInternalNode)` arms are unreachable in the code because of the loop condition. -/
def reduceStack (X : Ext) : List TreeNode → List TreeNode
  | r :: l :: .internal :: rest =>
    match r.value?, l.value? with
    | some rv, some lv => reduceStack X (.computed (X.sha256 (lv ++ rv)) :: rest)
    | _, _ => r :: l :: .internal :: rest
  | st => st
  termination_by st => st.length

/-- The `for` loop over the descriptor (ssz-multiproofs/src/multiproof.rs:203-236).
`nodeIndex * CHUNK_SIZE` cannot overflow `usize` for data that fits in memory. -/
def rootLoop (X : Ext) (data : Bytes) :
    List Bool → List TreeNode → (nodeIndex : Nat) → Res ProofError (List TreeNode)
  | [], st, _ => .ok st
  | true :: d, st, i => do
    let chunk ← expect (slice? data (i * 32) ((i + 1) * 32))
    rootLoop X data d (reduceStack X (.leaf chunk :: st)) (i + 1)
  | false :: d, st, i => rootLoop X data d (.internal :: st) i

/-- `calculate_compact_multi_merkle_root` (ssz-multiproofs/src/multiproof.rs:195-243).
`Vec::with_capacity` of an absurd hint aborts. -/
def calculateCompactMultiMerkleRoot (X : Ext) (data : Bytes) (descriptor : List Bool)
    (stackDepthHint : Nat) : Res ProofError Bytes := do
  assert (decide (stackDepthHint ≤ X.stackCapacity))
  let st ← rootLoop X data descriptor [] 0
  match st with
  | [.leaf _] => .err .unusedLeaves
  | [.computed b] => .ok b
  | [.internal] => .err .unexpectedInternalNode
  | _ => .panic

namespace Multiproof

/-- `calculate_root` (ssz-multiproofs/src/multiproof.rs:62-64). -/
def calculateRoot (X : Ext) (p : Multiproof) : Res ProofError Bytes :=
  calculateCompactMultiMerkleRoot X p.data p.descriptor p.maxStackDepth

/-- `verify` (ssz-multiproofs/src/multiproof.rs:53-59). -/
def verify (X : Ext) (p : Multiproof) (root : Root) : Res ProofError Unit := do
  let r ← p.calculateRoot X
  if r = root then return () else .err .rootMismatch

end Multiproof

/-- `GIndexIterator::next` (ssz-multiproofs/src/multiproof.rs:157-175) run until it returns `None`.
`*=` and `* 2 + 1` on `u64` wrap in the guest (overflow checks off). When the stack is empty the
`?` ends the iteration without yielding. -/
def gindexIter : List Bool → (current : Nat) → (stack : List Nat) → List Nat
  | [], _, _ => []
  | false :: d, cur, st => gindexIter d (wrapMul cur 2) (cur :: st)
  | true :: d, cur, st =>
    match st with
    | [] => []
    | s :: st => cur :: gindexIter d (wrapAdd (wrapMul s 2) 1) st

/-- `slice::chunks_exact(32)`. -/
def chunksExact (data : Bytes) : List Bytes :=
  if 32 ≤ data.length then data.take 32 :: chunksExact (data.drop 32) else []
  termination_by data.length
  decreasing_by simp; omega

namespace Multiproof

/-- `nodes` (ssz-multiproofs/src/multiproof.rs:67-73) with `GIndexIterator::new` (147-154). -/
def nodes (p : Multiproof) : List (Nat × Bytes) :=
  (gindexIter p.descriptor 1 [1]).zip (chunksExact p.data)

/-- `values` (ssz-multiproofs/src/multiproof.rs:76-84): the nodes whose mask bit is set. -/
def values (p : Multiproof) : List (Nat × Bytes) :=
  (p.nodes.zip p.valueMask).filterMap (fun (node, isValue) => if isValue then some node else none)

/-- `get` (ssz-multiproofs/src/multiproof.rs:91-95). -/
def get (p : Multiproof) (gindex : Nat) : Option Bytes :=
  (p.values.find? (fun x => x.1 = gindex)).map (·.2)

end Multiproof

/-- `ValueIterator::next_assert_gindex` (ssz-multiproofs/src/multiproof.rs:114-124) on the list of
remaining values: the value and the iterator state after it. -/
def nextAssertGindex (values : List (Nat × Bytes)) (gindex : Nat) :
    Res ProofError (Bytes × List (Nat × Bytes)) :=
  match values with
  | [] => .err .missingValue
  | (g, node) :: rest => if g = gindex then .ok (node, rest) else .err (.gindexMismatch gindex g)

end Signal
