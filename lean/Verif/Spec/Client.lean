import Verif.Model.Client

/-!
# Independent specification: what a node has said
-/

namespace Signal.Spec
open Client

/-- The node has answered the request with content that reads as `a`. -/
def Said {α : Type} (node : Request → Reply) (req : Request) (decode : Bytes → Option α) (a : α) : Prop :=
  ∃ status body, node req = .response status body ∧ (status < 400 ∨ 600 ≤ status) ∧ decode body = some a

/-- The node has said that there is no such thing. -/
def SaidNone (node : Request → Reply) (req : Request) : Prop := ∃ body, node req = .response 404 body

/-- The node's view of the chain while the host walks along it: at the start of an epoch only earlier epochs are justified. -/
def PlausibleNode {σ : Type} (D : Decoders σ) (spe : Nat) (node : Request → Reply) : Prop :=
  ∀ e previous justified finalized, 0 < e → e * spe < 2 ^ 64 →
    Said node (.finality (.slot (e * spe))) D.finality (previous, justified, finalized) → justified.epoch < e

/-- What stands behind the files that `build-input` writes for an epoch `e`: the node has said that a later epoch is final at the head
(the sum being one of 64-bit numbers); the old and the new state are the checkpoints that the node has given for two slots; the old
one finalizes the epoch, with the block that the node has given for a slot, and the new one a later epoch. -/
structure Behind (X : Ext) (D : Decoders HostState) (n : NodePass) (e : Nat) (pre post : ConsensusState) : Prop where
  head : ∃ previous justified finalized, Said n.head (.finality .head) D.finality (previous, justified, finalized) ∧
    (e + 1) % 2 ^ 64 ≤ finalized.epoch
  old : ∃ slot previous, Said n.replies.walk (.finality (.slot slot)) D.finality (previous, pre.currentJustified, pre.finalized)
  new : ∃ slot previous, Said n.replies.walk (.finality (.slot slot)) D.finality (previous, post.currentJustified, post.finalized)
  epochs : pre.finalized.epoch = e ∧ e < post.finalized.epoch
  block : ∃ slot header body, Said n.replies.boundary (.block (.slot slot)) D.block (header, body) ∧ pre.finalized.root = header.tree.root X

end Signal.Spec
