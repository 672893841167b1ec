import Verif.Spec.Slashing
import Verif.Spec.Chain

/-!
# Independent specification: histories of proofs

A light client starts from a state and follows one proof after the other. The registry by which votes are counted is that of the state
behind the checkpoint each proof starts from, so it changes along the history.
-/

namespace Signal.Spec

/-- Block and state behind each finalized root. -/
abbrev Chain := Root → Header × BeaconState

/-- The state behind the checkpoint that a proof starts from. -/
def stateBehind (chain : Chain) (input : GuestInput) : BeaconState := (chain input.consensusState.finalized.root).2

/-- The registry by which the votes of a proof are counted. -/
def registryBehind (spec : ChainSpec) (chain : Chain) (input : GuestInput) : List Validator :=
  registryOf spec (stateBehind chain input) input.consensusState

/-- All proofs start from blocks and states of the chain. -/
def RealHistory (X : Ext) (spec : ChainSpec) (chain : Chain) (journals : List (GuestInput × Bytes)) : Prop :=
  ∀ j ∈ journals, RealChain X spec j.1 (chain j.1.consensusState.finalized.root).1 (stateBehind chain j.1)

/-- All votes of a history. -/
def allVotes (journals : List (GuestInput × Bytes)) : List Attestation := journals.flatMap (fun j => j.1.attestations)

/-- Balance of validators, for each the smaller of those in two registries. -/
def lesserBalance (vs vs' : List Validator) (l : List Nat) : Nat :=
  (l.map (fun i => min (registeredBalance vs i) (registeredBalance vs' i))).sum

/-- Balance of validators, for each the greater of those in two registries. -/
def greaterBalance (vs vs' : List Validator) (l : List Nat) : Nat :=
  (l.map (fun i => max (registeredBalance vs i) (registeredBalance vs' i))).sum

end Signal.Spec
