import Verif.Model.Verify
import Verif.Spec.Consensus
import Verif.Spec.Committee

/-!
# Independent specification of accepted votes and links

Uses the data types of the model, `OMap.get?` (lookup in the active set) and the external functions;
none of the functions of the model of `verify`.
-/

namespace Signal.Spec

/-- Effective balance of validator `i` in a set of validators (0 if absent). -/
def balance (vals : OMap ValidatorInfo) (i : Nat) : Nat :=
  ((vals.get? i).map (·.effectiveBalance)).getD 0

/-- Public key of validator `i` (empty if absent). -/
def pubkey (vals : OMap ValidatorInfo) (i : Nat) : Bytes :=
  ((vals.get? i).map (·.pubkey)).getD []

/-- Combined effective balance of some validators. -/
def weight (vals : OMap ValidatorInfo) (s : List Nat) : Nat := (s.map (balance vals)).sum

/-- Combined effective balance of all validators of a set. -/
def totalWeight (vals : OMap ValidatorInfo) : Nat := (vals.map (·.2.effectiveBalance)).sum

/-- Balances are floored at one effective-balance increment. -/
def floored (spec : ChainSpec) (w : Nat) : Nat := max w spec.effectiveBalanceIncrement

/-- The link an attestation votes for. -/
def linkOf (a : Attestation) : Link := ⟨a.data.source, a.data.target⟩

/-- The input `atts` consists of one block per link of `links`, in that order: each block is non-empty
and holds all votes of the input for its link; no link occurs twice. -/
structure Blocks (atts : List Attestation) (links : List Link) : Prop where
  nodup : links.Nodup
  nonempty : ∀ l ∈ links, ∃ a ∈ atts, linkOf a = l
  concat : atts = links.flatMap (fun l => atts.filter (fun a => decide (linkOf a = l)))

/-- `a` is a genuine vote of exactly `signers`, all of them in `active`: an Electra attestation with
index 0, made in its target epoch, whose aggregate signature verifies for the keys of `signers` over the
attestation data, under the attester domain of the fork at the target epoch. -/
structure Vote (X : Ext) (R : Reader) (active : OMap ValidatorInfo) (a : Attestation)
    (signers : List Nat) : Prop where
  signers_nonempty : signers ≠ []
  signers_ascending : signers.Pairwise (· < ·)
  signers_active : ∀ i ∈ signers, ∃ v, active.get? i = some v
  electra : ∃ e, a = .electra e ∧
    R.spec.slotsPerEpoch ≠ 0 ∧ e.data.slot / R.spec.slotsPerEpoch = e.data.target.epoch ∧
    e.data.index = 0 ∧
    ∃ fork root, R.fork e.data.target.epoch = .ok fork ∧ R.genesisValidatorsRoot = .ok root ∧
      X.fastAggregateVerify e.signature
        (R.spec.signingRoot e.data
          (X.computeDomain
            (if e.data.target.epoch < fork.epoch then fork.previousVersion else fork.currentVersion) root))
        (signers.map (pubkey active)) = true

/-- The signers are those selected by the bits of the attestation over the committees cut from a
shuffling `sh` of the active set, by the consensus specification. -/
def SelectedBy (sh : List Nat) (perSlot slotsPerEpoch : Nat) (a : Attestation) (signers : List Nat) :
    Prop :=
  ∀ e, a = .electra e →
    let committees := beaconCommittee sh perSlot slotsPerEpoch e.data.slot
    GoodBits committees perSlot e.committeeBits e.aggregationBits ∧
    ∀ i, i ∈ signers ↔ i ∈ attesters committees e.committeeBits e.aggregationBits

/-- The link is justified by `atts`: it is inside the window and fork range, every attestation is
a genuine vote of active validators, and the distinct unslashed voters meet the thresholds. -/
structure Justifies (X : Ext) (cfg : Config) (R : Reader) (trusted : Checkpoint) (link : Link)
    (atts : List Attestation) (active : OMap ValidatorInfo) (signers : Attestation → List Nat)
    (voters : List Nat) : Prop where
  fork_supported : cfg.minVersion ≤ R.spec.forkNameAtEpoch link.target.epoch ∧
    R.spec.forkNameAtEpoch link.target.epoch ≤ cfg.maxVersion
  lookahead : link.target.epoch ≤ trusted.epoch + cfg.epochLookaheadLimit
  active_set : ∃ l, R.activeValidators link.target.epoch = .ok l ∧ active = OMap.ofList l
  votes : ∀ a ∈ atts, Vote X R active a (signers a)
  voters_nodup : voters.Nodup
  voters_iff : ∀ i, i ∈ voters ↔
    (∃ a ∈ atts, i ∈ signers a) ∧ ∃ v, active.get? i = some v ∧ v.slashed = false
  threshold : floored R.spec (totalWeight active) * cfg.justificationThresholdFactor ≤
    floored R.spec (weight active voters) * cfg.justificationThresholdQuotient
  two_thirds : 2 * floored R.spec (totalWeight active) ≤ 3 * floored R.spec (weight active voters)

end Signal.Spec
