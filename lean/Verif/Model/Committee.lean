import Verif.Model.Validator

/-!
# Model of core/src/committee_cache.rs and core/src/attestation.rs
-/

namespace Signal

/-- `committee_cache::Error` (core/src/committee_cache.rs:42-57). -/
inductive CommitteeError where
  | notInitialized
  | notInitializedAtEpoch (e : Nat)
  | zeroSlotsPerEpoch
  | insufficientValidators
  | unableToShuffle
  | tooManyValidators
  | shuffleIndexOutOfBounds (i : Nat)
  deriving Repr, DecidableEq

/-- `CommitteeCache` (core/src/committee_cache.rs:32-39). A `NonZeroUsize` position is the natural
number it holds. -/
structure CommitteeCache where
  initializedEpoch : Option Nat
  shuffling : List Nat
  shufflingPositions : List (Option Nat)
  committeesPerSlot : Nat
  slotsPerEpoch : Nat
  deriving Repr, DecidableEq

/-- The loop filling `shuffling_positions` (core/src/committee_cache.rs:102-107). `i` is the
enumeration index. -/
def fillPositions : List Nat → (i : Nat) → List (Option Nat) → Res CommitteeError (List (Option Nat))
  | [], _, pos => .ok pos
  | v :: vs, i, pos => do
    ensure (decide (v < pos.length)) (CommitteeError.shuffleIndexOutOfBounds v)
    fillPositions vs (i + 1) (pos.set v (some (i + 1)))

/-- `CommitteeCache::initialized` (core/src/committee_cache.rs:68-116). `usize::MAX` is
`usizeMod - 1`. Running out of memory for the positions is not modelled. -/
def CommitteeCache.initialized (X : Ext) (spec : ChainSpec) (seed : Bytes) (indices : List Nat)
    (committeesPerSlot : Nat) (epoch : Nat) : Res CommitteeError CommitteeCache := do
  ensure (decide (0 < committeesPerSlot)) CommitteeError.zeroSlotsPerEpoch
  let maxIndex ← okOr CommitteeError.insufficientValidators indices.max?
  let shuffling ← okOr CommitteeError.unableToShuffle
    (X.shuffleList indices spec.shuffleRoundCount seed)
  ensure (decide (maxIndex < X.usizeMod - 1)) CommitteeError.tooManyValidators
  let positions ← fillPositions shuffling 0 (List.replicate (maxIndex + 1) none)
  return { initializedEpoch := some epoch, shuffling, shufflingPositions := positions,
           committeesPerSlot, slotsPerEpoch := spec.slotsPerEpoch }

/-- lighthouse `compute_committee_index_in_epoch`:
`(slot.as_usize() % slots_per_epoch) * committees_per_slot + committee_index`, `usize` arithmetic. -/
def computeCommitteeIndexInEpoch (X : Ext) (slot slotsPerEpoch committeesPerSlot index : Nat) : Nat :=
  (slot % X.usizeMod % slotsPerEpoch * committeesPerSlot + index) % X.usizeMod

/-- lighthouse `epoch_committee_count`: `committees_per_slot * slots_per_epoch`. -/
def epochCommitteeCount (X : Ext) (committeesPerSlot slotsPerEpoch : Nat) : Nat :=
  (committeesPerSlot * slotsPerEpoch) % X.usizeMod

/-- lighthouse `compute_committee_range_in_epoch`, with wrapping `usize` products. -/
def computeCommitteeRangeInEpoch (X : Ext) (count index len : Nat) : Option (Nat × Nat) :=
  if count = 0 ∨ count ≤ index then none
  else some ((len * index) % X.usizeMod / count, (len * ((index + 1) % X.usizeMod)) % X.usizeMod / count)

namespace CommitteeCache

/-- `is_initialized_at` (core/src/committee_cache.rs:121-123). -/
def isInitializedAt (c : CommitteeCache) (epoch : Nat) : Bool :=
  decide (some epoch = c.initializedEpoch)

/-- `active_validator_count` (core/src/committee_cache.rs:175-177). -/
def activeValidatorCount (c : CommitteeCache) : Nat :=
  c.shuffling.length

/-- `epoch_committee_count` (core/src/committee_cache.rs:182-184). -/
def epochCount (X : Ext) (c : CommitteeCache) : Nat :=
  epochCommitteeCount X c.committeesPerSlot c.slotsPerEpoch

/-- `compute_committee` with `compute_committee_range` (core/src/committee_cache.rs:192-207):
`slice::get(range)` is `None` for an inverted or overlong range. -/
def computeCommittee (X : Ext) (c : CommitteeCache) (index : Nat) : Option (List Nat) :=
  match computeCommitteeRangeInEpoch X (c.epochCount X) index c.shuffling.length with
  | none => none
  | some (i, j) =>
    if i ≤ j ∧ j ≤ c.shuffling.length then some ((c.shuffling.drop i).take (j - i)) else none

/-- `get_beacon_committee` (core/src/committee_cache.rs:136-159). -/
def getBeaconCommittee (X : Ext) (spec : ChainSpec) (c : CommitteeCache) (slot index : Nat) :
    Res CommitteeError (List Nat) := do
  ensure c.initializedEpoch.isSome CommitteeError.notInitialized
  let e ← slotEpoch spec slot
  ensure (decide (c.initializedEpoch = some e)) (CommitteeError.notInitializedAtEpoch e)
  ensure (decide (index < c.committeesPerSlot)) (CommitteeError.shuffleIndexOutOfBounds index)
  assert (decide (c.slotsPerEpoch ≠ 0))
  okOr CommitteeError.unableToShuffle (c.computeCommittee X
    (computeCommitteeIndexInEpoch X slot c.slotsPerEpoch c.committeesPerSlot index))

/-- `get_beacon_committees_at_slot` (core/src/committee_cache.rs:164-170). -/
def getBeaconCommitteesAtSlot (X : Ext) (spec : ChainSpec) (c : CommitteeCache) (slot : Nat) :
    Res CommitteeError (List (List Nat)) := do
  ensure c.initializedEpoch.isSome CommitteeError.notInitialized
  mapRes (c.getBeaconCommittee X spec slot) (List.range c.committeesPerSlot)

/-- `shuffled_position` (core/src/committee_cache.rs:212-216). -/
def shuffledPosition (c : CommitteeCache) (validator : Nat) : Option Nat :=
  match c.shufflingPositions[validator]? with
  | some (some p) => some (p - 1)
  | _ => none

end CommitteeCache

/-- lighthouse `AttestationElectra::get_committee_indices`: positions of the set committee bits,
ascending. -/
def getCommitteeIndices (bits : List Bool) : List Nat :=
  (bits.zipIdx.filter (·.1)).map (·.2)

/-- The `filter_map` over one committee (core/src/attestation.rs:40-49), `i` the enumeration index:
the members whose aggregation bit is set; a missing bit aborts. The iterator is lazy, but is
fully consumed by `extend` once the non-emptiness assertion holds; if that fails the code aborts as
well. -/
def committeeAttesters (bits : List Bool) (offset : Nat) :
    List Nat → (i : Nat) → Res CommitteeError (List Nat)
  | [], _ => .ok []
  | v :: vs, i => do
    let bit ← expect bits[offset + i]?
    let rest ← committeeAttesters bits offset vs (i + 1)
    return if bit then v :: rest else rest

/-- The loop of `get_attesting_indices` over committee indices (core/src/attestation.rs:34-55). -/
def attestingLoop (X : Ext) (spec : ChainSpec) (cache : CommitteeCache) (a : AttestationElectra) :
    List Nat → (acc : OSet) → (offset : Nat) → Res CommitteeError (OSet × Nat)
  | [], acc, offset => .ok (acc, offset)
  | ci :: cis, acc, offset => do
    assert (decide (ci < cache.committeesPerSlot))
    let committee ← cache.getBeaconCommittee X spec a.data.slot ci
    let attesters ← committeeAttesters a.aggregationBits offset committee 0
    assert (decide (attesters ≠ []))
    attestingLoop X spec cache a cis (OSet.extend acc attesters) (offset + committee.length)

/-- `get_attesting_indices` (core/src/attestation.rs:25-58). `usize` offsets cannot overflow: they are bounded
by the number of bits. -/
def getAttestingIndices (X : Ext) (spec : ChainSpec) (a : AttestationElectra)
    (cache : CommitteeCache) : Res CommitteeError OSet := do
  let (s, offset) ← attestingLoop X spec cache a (getCommitteeIndices a.committeeBits) [] 0
  assert (decide (a.aggregationBits.length = offset))
  return s

end Signal
