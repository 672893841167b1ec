import Verif.Model.ConsensusState

/-!
# Well-typedness

Which model values are values of the Rust types: `u64` fields below `2^64`, roots of 32 bytes.
-/

namespace Signal.Spec

/-- The checkpoint is a value of the Rust type. -/
def WfCheckpoint (c : Checkpoint) : Prop := c.epoch < 2 ^ 64 ∧ c.root.length = 32

/-- The state is a value of the Rust type. -/
def WfState (s : ConsensusState) : Prop := WfCheckpoint s.currentJustified ∧ WfCheckpoint s.finalized

end Signal.Spec
