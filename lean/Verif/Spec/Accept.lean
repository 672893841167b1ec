import Verif.Spec.Verdict

/-!
# Independent specification: what an input must contain to be accepted

In terms of the reader's answers, the consensus specification and the external functions.
-/

namespace Signal.Spec

/-- `get_committee_count_per_slot` of the consensus specification. -/
def committeesPerSlot (spec : ChainSpec) (active : Nat) : Nat :=
  max 1 (min spec.maxCommitteesPerSlot (active / spec.slotsPerEpoch / spec.targetCommitteeSize))

/-- The setting: sensible constants of the chain, a shuffle that permutes, and active sets small enough for the machine
word (on the 32-bit guest, at mainnet constants, below `2^32 / 2048` validators). -/
structure Setting (X : Ext) (R : Reader) : Prop where
  committee_size : R.spec.targetCommitteeSize ≠ 0
  lookahead : R.spec.minSeedLookahead < R.spec.epochsPerHistoricalVector
  mixes : R.spec.epochsPerHistoricalVector ≤ 2 ^ 32
  mixes_word : R.spec.epochsPerHistoricalVector ∣ X.usizeMod
  shuffle : ∀ l seed sh, X.shuffleList l R.spec.shuffleRoundCount seed = some sh → sh.Perm l
  fits : ∀ e l, R.activeValidators e = .ok l →
    NoUsizeWrap X.usizeMod (OMap.ofList l).length (committeesPerSlot R.spec (OMap.ofList l).length)
      R.spec.slotsPerEpoch

/-- `sh` is the shuffled active set of epoch `e`, by `get_seed` and `compute_shuffled_index` of the consensus
specification; the epoch and the validators are small enough for machine words. -/
structure Shuffled (X : Ext) (R : Reader) (active : OMap ValidatorInfo) (e : Nat) (sh : List Nat) : Prop where
  epoch_fits : e + R.spec.epochsPerHistoricalVector < 2 ^ 64
  validators_fit : ∀ i v, (i, v) ∈ active → i + 1 < X.usizeMod
  shuffled : ∃ mix, R.randaoMix e
      ((e + R.spec.epochsPerHistoricalVector - R.spec.minSeedLookahead - 1) % R.spec.epochsPerHistoricalVector) =
        .ok (some mix) ∧
    X.shuffleList (active.map (·.1)) R.spec.shuffleRoundCount
      (X.sha256 (R.spec.domainBeaconAttester ++ leBytes 8 e ++ mix)) = some sh

/-- The votes `atts` carry the link: they are genuine, their signers are those their bits select in the committees of
the target epoch, and the unslashed signers have enough weight. -/
def Carries (X : Ext) (cfg : Config) (R : Reader) (trusted : Checkpoint) (link : Link) (atts : List Attestation) :
    Prop :=
  ∃ active signers voters sh,
    Justifies X cfg R trusted link atts active signers voters ∧
    EnoughWeight cfg R.spec active voters ∧
    Shuffled X R active link.target.epoch sh ∧
    ∀ a ∈ atts, SelectedBy sh (committeesPerSlot R.spec active.length) R.spec.slotsPerEpoch a (signers a)

/-- `a` is a genuine vote: of active validators of its target epoch, those its bits select in the committees. -/
def Genuine (X : Ext) (R : Reader) (a : Attestation) : Prop :=
  ∃ l signers sh, R.activeValidators a.data.target.epoch = .ok l ∧ Vote X R (OMap.ofList l) a signers ∧
    Shuffled X R (OMap.ofList l) a.data.target.epoch sh ∧
    SelectedBy sh (committeesPerSlot R.spec (OMap.ofList l).length) R.spec.slotsPerEpoch a signers

/-- The links make up exactly one new finalization, from `pre` to `post`; starting from the all-zero state a link to
epoch 1, which finalizes nothing new, may come first. -/
def FinalizesOnce (pre : ConsensusState) (links : List Link) (post : ConsensusState) : Prop :=
  ValidState pre ∧ post.finalized ≠ pre.finalized ∧
  (AtomicFinalization pre.currentJustified links (post.finalized, post.currentJustified) ∨
    pre = ⟨⟨0, List.replicate 32 0⟩, ⟨0, List.replicate 32 0⟩⟩ ∧
      ∃ b links', b.epoch = 1 ∧ links = ⟨pre.currentJustified, b⟩ :: links' ∧
        AtomicFinalization b links' (post.finalized, post.currentJustified))

/-- An acceptable input with result `(post, slot)`: the votes come in one block per link, the links finalize once, each
block carries its link, and the slot of the finalized block is known. -/
def Acceptable (X : Ext) (cfg : Config) (R : Reader) (post : ConsensusState) (slot : Nat) : Prop :=
  ∃ pre atts links, R.consensusState = .ok pre ∧ R.attestations = .ok atts ∧
    Blocks atts links ∧ FinalizesOnce pre links post ∧
    (∀ l ∈ links, Carries X cfg R pre.finalized l (atts.filter (fun a => decide (linkOf a = l)))) ∧
    R.slotForBlock post.finalized.root = .ok slot

end Signal.Spec
