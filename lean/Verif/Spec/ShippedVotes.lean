import Verif.Spec.Shipped
import Verif.Spec.Shuffle
import Verif.Spec.Accept

/-!
# Independent specification: valid attestations, by the consensus specification

With the constants of mainnet and Sepolia as numbers: 32 slots per epoch, committees of 128 validators and at most 64 of them per slot,
90 rounds of shuffling, 65536 RANDAO mixes.
-/

namespace Signal.Spec

/-- `get_committee_count_per_slot`. -/
def committeeCount (active : List Nat) : Nat := max 1 (min 64 (active.length / 32 / 128))

/-- `get_beacon_committee(slot, index)` for the attesters of an epoch: `compute_committee` over its active validators with the seed
`hash(DOMAIN_BEACON_ATTESTER + epoch + mix)`. -/
def attesterCommittee (hash : Bytes → Bytes) (active : List Nat) (epoch : Nat) (mix : Root) (slot index : Nat) : List Nat :=
  computeCommittee hash 90 active (hash ([1, 0, 0, 0] ++ leBytes 8 epoch ++ mix)) (slot % 32 * committeeCount active + index)
    (committeeCount active * 32)

/-- The RANDAO mix that the input gives for the committees of an epoch, `get_randao_mix(epoch + 65536 - 1 - 1)`. -/
def mixOf (input : GuestInput) (epoch : Nat) : Option Root :=
  (input.patches.get? epoch).bind (fun p => p.randaoMixes.get? ((epoch + 65534) % 65536))

/-- The attestation is valid on a chain with registry `vs`, as in `process_attestation` of the consensus specification (Electra): it is
made in a slot of its target epoch, its bits fit the committees of that slot, `signers` are the attesting validators in ascending order,
there are some, and the aggregate signature over the data verifies for their registered keys. -/
structure ValidVote (X : Ext) (version genesisValidatorsRoot : Bytes) (vs : List Validator) (mix : Root) (e : AttestationElectra)
    (signers : List Nat) : Prop where
  slot : e.data.slot / 32 = e.data.target.epoch
  index : e.data.index = 0
  bits : GoodBits (attesterCommittee X.sha256 (activeIndices vs e.data.target.epoch) e.data.target.epoch mix e.data.slot)
    (committeeCount (activeIndices vs e.data.target.epoch)) e.committeeBits e.aggregationBits
  members : ∀ i, i ∈ signers ↔ i ∈ attesters
    (attesterCommittee X.sha256 (activeIndices vs e.data.target.epoch) e.data.target.epoch mix e.data.slot) e.committeeBits
    e.aggregationBits
  ascending : signers.Pairwise (· < ·)
  nonempty : signers ≠ []
  signature : ∃ keys, keys.map X.pkSerialize = signers.map (registeredKey vs) ∧
    X.fastAggregateVerify e.signature ((Duty.vote e.data version genesisValidatorsRoot).message X) keys = true

/-- The numbers that the program computes with for a link fit its machine words. -/
structure WithinWords (vs : List Validator) (epoch : Nat) (voters : List Nat) : Prop where
  mixes : epoch + 65536 < 2 ^ 64
  indices : ∀ i ∈ activeIndices vs epoch, i + 1 < 2 ^ 32
  votes : 3 * max 1000000000 (balanceOf vs voters) < 2 ^ 64
  total : 2 * max 1000000000 (balanceOf vs (activeIndices vs epoch)) < 2 ^ 64

/-- The attestations of the input for the link are all valid, and their unslashed signers have `percent` of the active balance. -/
def ValidlyCarried (X : Ext) (percent : Nat) (version genesisValidatorsRoot : Bytes) (vs : List Validator) (input : GuestInput)
    (link : Link) : Prop :=
  ∃ (mix : Root) (signers : Attestation → List Nat) (voters : List Nat), mixOf input link.target.epoch = some mix ∧
    (∀ a ∈ input.attestations, linkOf a = link → ∃ e, a = .electra e ∧ ValidVote X version genesisValidatorsRoot vs mix e (signers a)) ∧
    voters.Nodup ∧
    (∀ i, i ∈ voters ↔ (∃ a ∈ input.attestations, linkOf a = link ∧ i ∈ signers a) ∧ ∃ v, vs[i]? = some v ∧ v.slashed = false) ∧
    percent * max 1000000000 (balanceOf vs (activeIndices vs link.target.epoch)) ≤ 100 * max 1000000000 (balanceOf vs voters) ∧
    WithinWords vs link.target.epoch voters

/-- Whether a signature verifies depends on the keys as points of the curve, which their compressed form determines. -/
def KeysAsPoints (X : Ext) : Prop :=
  ∀ signature message keys keys', keys.map X.pkSerialize = keys'.map X.pkSerialize →
    X.fastAggregateVerify signature message keys = X.fastAggregateVerify signature message keys'

end Signal.Spec
