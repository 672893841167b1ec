import Verif.Model.ConsensusState

/-!
# Independent specification of the Casper FFG state machine

Written from docs/src/01_consensus_algorithm.md, without using the functions of the model
(only its data types).
-/

namespace Signal.Spec

/-- A state is valid if it finalizes an epoch strictly before the justified one; the all-zero
state is the only exception. -/
def ValidState (s : ConsensusState) : Prop :=
  s.finalized.epoch < s.currentJustified.epoch ∨
    s = ⟨⟨0, List.replicate 32 0⟩, ⟨0, List.replicate 32 0⟩⟩

instance (s : ConsensusState) : Decidable (ValidState s) := inferInstanceAs (Decidable (_ ∨ _))

/-- One justification step with a supermajority link: the link starts at the justified checkpoint
and goes to a later epoch. It finalizes its source iff it spans exactly one epoch. -/
inductive Step : ConsensusState → Link → ConsensusState → Prop where
  | finalize (c f b : Checkpoint) (h : b.epoch = c.epoch + 1) : Step ⟨c, f⟩ ⟨c, b⟩ ⟨b, c⟩
  | justify (c f b : Checkpoint) (h : c.epoch + 1 < b.epoch) : Step ⟨c, f⟩ ⟨c, b⟩ ⟨b, f⟩

/-- A run: consecutive steps along a list of links. -/
inductive Run : ConsensusState → List Link → ConsensusState → Prop where
  | nil (s) : Run s [] s
  | cons {s l s' ls s''} : Step s l s' → Run s' ls s'' → Run s (l :: ls) s''

/-- Atomic Finalization (docs/src/01_consensus_algorithm.md): a chain of checkpoints
`c = b₀ → b₁ → … → bₖ` of supermajority links starting at the justified checkpoint, in
which only the last link spans exactly one epoch; the outcome is `(bₖ₋₁ finalized, bₖ justified)`.
`AtomicFinalization c links (fin, just)`. -/
inductive AtomicFinalization : Checkpoint → List Link → Checkpoint × Checkpoint → Prop where
  | last (c b : Checkpoint) (h : b.epoch = c.epoch + 1) : AtomicFinalization c [⟨c, b⟩] (c, b)
  | skip (c b : Checkpoint) (links : List Link) (out : Checkpoint × Checkpoint)
      (h : c.epoch + 1 < b.epoch) (rest : AtomicFinalization b links out) :
      AtomicFinalization c (⟨c, b⟩ :: links) out

end Signal.Spec
