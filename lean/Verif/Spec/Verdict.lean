import Verif.Spec.Verify
import Verif.Spec.Preflight
import Verif.Model.Recorded

/-!
# Independent specification: when two readers lead to the same verdict
-/

namespace Signal.Spec

/-- Two readers that show `verify` the same chain, start and votes, and at the target epochs of the votes the same fork,
the same mix for the committees, and the same active validators up to balances and exits. -/
structure SameView (X : Ext) (R G : Reader) : Prop where
  spec : G.spec = R.spec
  start : G.consensusState = R.consensusState
  votes : G.attestations = R.attestations
  genesis : G.genesisValidatorsRoot = R.genesisValidatorsRoot
  fork : ∀ atts, R.attestations = .ok atts → ∀ a ∈ atts,
    G.fork a.data.target.epoch = R.fork a.data.target.epoch
  mix : ∀ atts, R.attestations = .ok atts → ∀ a ∈ atts,
    G.randaoMix a.data.target.epoch (seedMixIndex X R.spec a.data.target.epoch) =
      R.randaoMix a.data.target.epoch (seedMixIndex X R.spec a.data.target.epoch)
  validators : ∀ atts, R.attestations = .ok atts → ∀ a ∈ atts, ∀ l, R.activeValidators a.data.target.epoch = .ok l →
    ∃ l', G.activeValidators a.data.target.epoch = .ok l' ∧ identities l' = identities l

/-- With the balances of `active`, the voters reach the configured threshold and two thirds, and the numbers that are
compared fit into 64 bits. -/
structure EnoughWeight (cfg : Config) (spec : ChainSpec) (active : OMap ValidatorInfo) (voters : List Nat) : Prop where
  voters_fit : 3 * floored spec (weight active voters) < 2 ^ 64
  total_fits : 2 * floored spec (totalWeight active) < 2 ^ 64
  threshold : floored spec (totalWeight active) * cfg.justificationThresholdFactor ≤
    floored spec (weight active voters) * cfg.justificationThresholdQuotient
  two_thirds : 2 * floored spec (totalWeight active) ≤ 3 * floored spec (weight active voters)

/-- Two readers that give the same answers to everything `verify` asks for these votes. -/
structure SameAnswers (X : Ext) (R G : Reader) : Prop where
  spec : G.spec = R.spec
  start : G.consensusState = R.consensusState
  votes : G.attestations = R.attestations
  genesis : G.genesisValidatorsRoot = R.genesisValidatorsRoot
  fork : ∀ atts, R.attestations = .ok atts → ∀ a ∈ atts,
    G.fork a.data.target.epoch = R.fork a.data.target.epoch
  mix : ∀ atts, R.attestations = .ok atts → ∀ a ∈ atts,
    G.randaoMix a.data.target.epoch (seedMixIndex X R.spec a.data.target.epoch) =
      R.randaoMix a.data.target.epoch (seedMixIndex X R.spec a.data.target.epoch)
  validators : ∀ atts, R.attestations = .ok atts → ∀ a ∈ atts,
    G.activeValidators a.data.target.epoch = R.activeValidators a.data.target.epoch
  slot : ∀ atts, R.attestations = .ok atts → ∀ a ∈ atts,
    G.slotForBlock a.data.source.root = R.slotForBlock a.data.source.root

end Signal.Spec
