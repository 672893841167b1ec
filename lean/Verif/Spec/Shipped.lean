import Verif.Spec.Signing
import Verif.Spec.EndToEnd
import Verif.Model.Networks

/-!
# Independent specification: what a journal of a shipped guest says about the real chain

All constants are numbers here.
-/

namespace Signal.Spec

/-- The specifications that the two guests are built with, with the signing root of the consensus specification. -/
def mainnetOf (X : Ext) : ChainSpec := mainnetSpec (Signing.signingRoot X.sha256)
def sepoliaOf (X : Ext) : ChainSpec := sepoliaSpec (Signing.signingRoot X.sha256)

/-- The owner of the key has signed the data of one of the attestations, for this link, made in a slot of the target epoch (of 32 slots), under the
attester domain of the fork version and the chain's genesis validators root. -/
def SignedFor (X : Ext) (signed : Bytes → Bytes → Prop) (version genesisValidatorsRoot key : Bytes) (atts : List Attestation) (link : Link) :
    Prop :=
  ∃ a ∈ atts, linkOf a = link ∧ a.data.slot / 32 = link.target.epoch ∧ a.data.index = 0 ∧ WfVoteData a.data ∧
    signed key ((Duty.vote a.data version genesisValidatorsRoot).message X)

/-- Validators `voters` carry the link with `percent` of the active balance: they are distinct, active in the target epoch and not slashed,
and each has signed a vote for the link with the key registered for them. Balances are in Gwei, and sums below one ETH count as one ETH. -/
structure CarriedBy (X : Ext) (signed : Bytes → Bytes → Prop) (percent : Nat) (version genesisValidatorsRoot : Bytes) (vs : List Validator)
    (atts : List Attestation) (link : Link) (voters : List Nat) : Prop where
  distinct : voters.Nodup
  active : ∀ i ∈ voters, i ∈ activeIndices vs link.target.epoch
  unslashed : ∀ i ∈ voters, ∀ v, vs[i]? = some v → v.slashed = false
  signed : ∀ i ∈ voters, SignedFor X signed version genesisValidatorsRoot (registeredKey vs i) atts link
  share : percent * max 1000000000 (balanceOf vs (activeIndices vs link.target.epoch)) ≤ 100 * max 1000000000 (balanceOf vs voters)

end Signal.Spec
