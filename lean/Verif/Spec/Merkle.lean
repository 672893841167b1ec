import Verif.Model.Multiproof
import Verif.Model.OMap

/-!
# Independent specification: Merkle trees, generalized indices, proofs as trees
-/

namespace Signal.Spec

/-- A binary Merkle tree with byte-string leaves. -/
inductive Tree where
  | leaf (c : Bytes)
  | node (l r : Tree)
  deriving DecidableEq

namespace Tree

/-- The Merkle root. -/
def root (X : Ext) : Tree → Bytes
  | leaf c => c
  | node l r => X.sha256 (l.root X ++ r.root X)

/-- All leaves are 32-byte chunks. -/
def Chunked : Tree → Prop
  | leaf c => c.length = 32
  | node l r => l.Chunked ∧ r.Chunked

/-- The strings hashed when computing the root. -/
def hashed (X : Ext) : Tree → List Bytes
  | leaf _ => []
  | node l r => (l.root X ++ r.root X) :: (l.hashed X ++ r.hashed X)

/-- The subtree at a generalized index: 1 is the root, `2g` and `2g+1` are the children of `g`. -/
def nodeAt (t : Tree) (g : Nat) : Option Tree :=
  if g = 0 then none
  else if g = 1 then some t
  else match nodeAt t (g / 2) with
    | some (node l r) => some (if g % 2 = 0 then l else r)
    | _ => none
  termination_by g

/-- Leaves from left to right. -/
def leaves : Tree → List Bytes
  | leaf c => [c]
  | node l r => l.leaves ++ r.leaves

/-- Shape of a tree as bits in preorder: 0 for an inner node, 1 for a leaf. -/
def preorder : Tree → List Bool
  | leaf _ => [true]
  | node l r => false :: (l.preorder ++ r.preorder)

/-- Number of levels below the root. -/
def depth : Tree → Nat
  | leaf _ => 0
  | node l r => 1 + max l.depth r.depth

/-- Generalized indices of the leaves from left to right, when the root has index `g` (exact
natural numbers). -/
def leafIndices : Tree → (g : Nat) → List Nat
  | leaf _, g => [g]
  | node l r, g => l.leafIndices (2 * g) ++ r.leafIndices (2 * g + 1)

end Tree

/-- The proof encodes the tree: the descriptor is its shape in preorder, the data starts with its leaves,
one 32-byte chunk each. -/
def Encodes (p : Multiproof) (P : Tree) : Prop :=
  p.descriptor = P.preorder ∧ P.Chunked ∧ ∃ extra, p.data = P.leaves.flatten ++ extra

/-- No two different strings of the list have the same digest. -/
def NoCollisionOn (X : Ext) (inputs : List Bytes) : Prop :=
  ∀ x ∈ inputs, ∀ y ∈ inputs, X.sha256 x = X.sha256 y → x = y

/-- SHA-256 has no collision among the strings hashed when verifying the proof and those hashed in the
real tree `T`. -/
def NoCollision (X : Ext) (p : Multiproof) (T : Tree) : Prop :=
  ∀ P, Encodes p P → NoCollisionOn X (T.hashed X ++ P.hashed X)

/-- The proof's tree has fewer than 64 levels below its root, so that `u64` generalized indices
suffice. This is *not* checked by the code. -/
def NoWrap (p : Multiproof) : Prop := ∀ P, Encodes p P → P.depth < 64

/-- No leaf of the real tree is the digest of a string hashed when verifying the proof: the proof does not
continue below the leaves of the tree. This is *not* checked by the code either, but unlike `NoWrap` it is
about the digests only. -/
def NoPreimage (X : Ext) (p : Multiproof) (T : Tree) : Prop :=
  ∀ P, Encodes p P → ∀ x ∈ P.hashed X, X.sha256 x ∉ T.leaves

end Signal.Spec
