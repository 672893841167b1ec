import Verif.Spec.Patches
import Verif.Spec.Registry
import Verif.Model.GuestReader

/-!
# Independent specification: the real registry and genuine votes of its members
-/

namespace Signal.Spec

/-- `process_registry_updates` of the Electra specification for one registered validator, without
ejections (which only set exit epochs). -/
def Validator.electraUpdate (spec : ChainSpec) (finalizedEpoch currentEpoch : Nat) (v : Validator) :
    Validator :=
  if v.activationEligibilityEpoch = spec.farFutureEpoch ∧ spec.minActivationBalance ≤ v.effectiveBalance then
    { v with activationEligibilityEpoch := currentEpoch + 1 }
  else if v.activationEligibilityEpoch ≤ finalizedEpoch ∧ v.activationEpoch = spec.farFutureEpoch then
    { v with activationEpoch := currentEpoch + 1 + spec.maxSeedLookahead }
  else v

/-- The registry after the updates of `n` epochs, the first being `epoch`. Before the epoch `justified`
the chain's finalized epoch is `fin`, from then on it is `trusted`. -/
def updateRegistry (spec : ChainSpec) (fin trusted justified : Nat) :
    (n epoch : Nat) → List Validator → List Validator
  | 0, _, vs => vs
  | n + 1, epoch, vs => updateRegistry spec fin trusted justified n (epoch + 1)
      (vs.map (Validator.electraUpdate spec (if epoch < justified then fin else trusted) epoch))

/-- The registry of a real state, brought forward over the epochs up to the justified one. -/
def registryOf (spec : ChainSpec) (st : BeaconState) (pre : ConsensusState) : List Validator :=
  updateRegistry spec st.finalizedEpoch pre.finalized.epoch pre.currentJustified.epoch
    (pre.currentJustified.epoch + 1 - st.slot / spec.slotsPerEpoch) (st.slot / spec.slotsPerEpoch)
    st.validators

/-- The BLS key registered for validator `i`. -/
def registeredKey (vs : List Validator) (i : Nat) : Bytes := ((vs[i]?).map (·.pubkey)).getD []

/-- Validator `i` signed a vote for the link: there is an Electra attestation for it, made in the target epoch,
whose aggregate signature verifies, under the attester domain of the chain, for keys whose compressed
forms are the registered keys of a set of validators that includes `i`. -/
def SignedVote (X : Ext) (spec : ChainSpec) (genesisValidatorsRoot : Root) (vs : List Validator)
    (link : Link) (atts : List Attestation) (i : Nat) : Prop :=
  ∃ e, Attestation.electra e ∈ atts ∧ e.data.source = link.source ∧ e.data.target = link.target ∧
    e.data.slot / spec.slotsPerEpoch = link.target.epoch ∧ e.data.index = 0 ∧
    ∃ (signers : List Nat) (keys : List Bytes), i ∈ signers ∧
      (∀ j ∈ signers, j ∈ activeIndices vs link.target.epoch) ∧
      keys.map X.pkSerialize = signers.map (registeredKey vs) ∧
      X.fastAggregateVerify e.signature
        (spec.signingRoot e.data (X.computeDomain
          (if link.target.epoch < (spec.forkAtEpoch link.target.epoch).epoch
            then (spec.forkAtEpoch link.target.epoch).previousVersion
            else (spec.forkAtEpoch link.target.epoch).currentVersion) genesisValidatorsRoot)) keys = true

/-- The link is a supermajority link of the registry: distinct unslashed validators, active in the target
epoch, all of whom signed a vote for it, hold the configured share, and two thirds, of the active balance. -/
def Supermajority (X : Ext) (cfg : Config) (spec : ChainSpec) (genesisValidatorsRoot : Root)
    (vs : List Validator) (link : Link) (atts : List Attestation) : Prop :=
  ∃ voters : List Nat, voters.Nodup ∧
    (∀ i ∈ voters, i ∈ activeIndices vs link.target.epoch ∧ (∀ v, vs[i]? = some v → v.slashed = false) ∧
      SignedVote X spec genesisValidatorsRoot vs link atts i) ∧
    floored spec ((activeIndices vs link.target.epoch).map (registeredBalance vs)).sum *
        cfg.justificationThresholdFactor ≤
      floored spec ((voters.map (registeredBalance vs)).sum) * cfg.justificationThresholdQuotient ∧
    2 * floored spec ((activeIndices vs link.target.epoch).map (registeredBalance vs)).sum ≤
      3 * floored spec ((voters.map (registeredBalance vs)).sum)

/-- The real block and state behind a guest input: `hdr` is the block of the trusted root, `st` its state, and
the proofs of the input neither contain SHA-256 collisions with them nor are 64 levels deep. -/
structure RealChain (X : Ext) (spec : ChainSpec) (input : GuestInput) (hdr : Header) (st : BeaconState) :
    Prop where
  header_wf : hdr.WF
  state_wf : st.WF
  block_root : hdr.tree.root X = input.consensusState.finalized.root
  state_root : st.tree.root X = hdr.stateRoot
  finalized_past : st.finalizedEpoch ≤ st.slot / spec.slotsPerEpoch
  no_collision : NoCollision X input.beaconBlock hdr.tree ∧ NoCollision X input.beaconState st.tree ∧
    NoCollision X input.activeValidators (registryTree st.validators)
  no_wrap : NoWrap input.beaconBlock ∧ NoWrap input.beaconState ∧ NoWrap input.activeValidators

/-- The real block and state behind a guest input, as in `RealChain`, but instead of a bound on the depth of
the proofs: no leaf of the header, of the state and of the registry is the digest of a string hashed in
the corresponding proof, and all fields of the state have at most 57 levels (in the Electra and Fulu states
the deepest has 45). -/
structure RealChainDigests (X : Ext) (spec : ChainSpec) (input : GuestInput) (hdr : Header)
    (st : BeaconState) : Prop where
  header_wf : hdr.WF
  state_wf : st.WF
  block_root : hdr.tree.root X = input.consensusState.finalized.root
  state_root : st.tree.root X = hdr.stateRoot
  finalized_past : st.finalizedEpoch ≤ st.slot / spec.slotsPerEpoch
  shallow : ∀ name, (st.other name).depth ≤ 57
  no_collision : NoCollision X input.beaconBlock hdr.tree ∧ NoCollision X input.beaconState st.tree ∧
    NoCollision X input.activeValidators (registryTree st.validators)
  no_preimage : NoPreimage X input.beaconBlock hdr.tree ∧ NoPreimage X input.beaconState st.tree ∧
    NoPreimage X input.activeValidators (registryTree st.validators)

end Signal.Spec
