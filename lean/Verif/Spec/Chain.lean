import Verif.Spec.Types
import Verif.Spec.Verify
import Verif.Model.GuestReader

/-!
# Independent specification: sequences of journals
-/

namespace Signal.Spec

/-- All checkpoints in the input are values of the Rust type. -/
structure Typed (input : GuestInput) : Prop where
  state : WfState input.consensusState
  votes : ∀ a ∈ input.attestations, WfCheckpoint a.data.source ∧ WfCheckpoint a.data.target

/-- `Chained X spec cfg pre journals states`: each journal is committed by the guest for some input, and
read by a consumer of journals; its pre state is the post state of the journal before (`pre` for the
first); `states` are the post states. -/
inductive Chained (X : Ext) (spec : ChainSpec) (cfg : Config) :
    ConsensusState → List (GuestInput × Bytes) → List ConsensusState → Prop where
  | nil (s : ConsensusState) : Chained X spec cfg s [] []
  | cons {pre post : ConsensusState} {input : GuestInput} {journal : Bytes}
      {journals : List (GuestInput × Bytes)} {states : List ConsensusState}
      (typed : Typed input)
      (committed : (guestEntry X spec cfg input : Res Unit Bytes) = .ok journal)
      (read : Abi.cliReadJournal journal = .ok (pre, post))
      (rest : Chained X spec cfg post journals states) :
      Chained X spec cfg pre ((input, journal) :: journals) (post :: states)

/-- The second state is strictly ahead of the first. -/
def Ahead (s t : ConsensusState) : Prop :=
  s.finalized.epoch < t.finalized.epoch ∧ s.currentJustified.epoch < t.currentJustified.epoch ∧
    s.currentJustified.epoch ≤ t.finalized.epoch

end Signal.Spec
