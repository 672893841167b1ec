import Verif.Spec.Verify
import Verif.Model.HostSearch

/-!
# Independent specification for the chain search of the host
-/

namespace Signal.Spec

/-- The node's answer for the first slot of the epoch (the product saturates at `u64::MAX`) is the state `s`. -/
def ChainAt (spe : Nat) (ask : StateAnswers) (epoch : Nat) (s : ConsensusState) : Prop :=
  ask (min (epoch * spe) (2 ^ 64 - 1)) = .ok s

/-- The attestations of a list of blocks, in order. -/
def blockAttestations (blocks : List (Option Block)) : List Attestation :=
  blocks.flatMap (fun b => match b with
    | some (.electra as) => as.filterMap id
    | _ => [])

/-- The attestations that vote for the link, in order. -/
def votesFor (l : Link) (atts : List Attestation) : List Attestation :=
  atts.filter (fun a => decide (linkOf a = l))

end Signal.Spec
