import Verif.Model.Committee

/-!
# Model of core/src/verify.rs and of the provided methods of core/src/input_reader.rs
-/

namespace Signal

/-- Errors of input readers (their `Error` types; the texts are not modelled). -/
inductive ReaderError where
  | arith (e : ArithError)
  | other
  deriving Repr, DecidableEq

/-- The required methods of `InputReader` (core/src/input_reader.rs:24-58). -/
structure Reader where
  spec : ChainSpec
  genesisValidatorsRoot : Res ReaderError Root
  fork : Nat → Res ReaderError Fork
  activeValidators : Nat → Res ReaderError (List (Nat × ValidatorInfo))
  randaoMix : Nat → Nat → Res ReaderError (Option Root)
  attestations : Res ReaderError (List Attestation)
  consensusState : Res ReaderError ConsensusState
  slotForBlock : Root → Res ReaderError Nat

/-- `VerifyError` (core/src/verify.rs:29-59), without the texts. -/
inductive VerifyError where
  | emptyAttestation
  | invalidSignature
  | invalidFinalization (c : Checkpoint)
  | consensus (e : ConsensusError)
  | thresholdNotMet (attesting threshold : Nat)
  | committeeCache (e : CommitteeError)
  | stateReader
  | missingValidatorInfo (i : Nat)
  | unsupportedFork (f : Nat)
  | lighthouseTypes
  | lookaheadExceedsLimit (lookahead limit : Nat)
  | arith (e : ArithError)
  deriving Repr, DecidableEq

/-- `InputReader::get_randao_mix` (core/src/input_reader.rs:61-69). -/
def Reader.getRandaoMix (X : Ext) (R : Reader) (stateEpoch epoch : Nat) : Res ReaderError Root := do
  let idx ← (safeRem (epoch % X.usizeMod) R.spec.epochsPerHistoricalVector).mapErr ReaderError.arith
  let mix ← R.randaoMix stateEpoch (idx % 2 ^ 32)
  expect mix

/-- `InputReader::get_seed` (core/src/input_reader.rs:72-86). -/
def Reader.getSeed (X : Ext) (R : Reader) (epoch : Nat) (domain : Bytes) : Res ReaderError Bytes := do
  let a ← (safeAdd epoch R.spec.epochsPerHistoricalVector).mapErr ReaderError.arith
  let b ← (safeSub a R.spec.minSeedLookahead).mapErr ReaderError.arith
  let i ← (safeSub b 1).mapErr ReaderError.arith
  let mix ← R.getRandaoMix X epoch i
  return X.sha256 (domain ++ leBytes 8 epoch ++ mix)

/-- lighthouse `EthSpec::get_committee_count_per_slot`. -/
def committeeCountPerSlot (spec : ChainSpec) (activeCount : Nat) : Res VerifyError Nat := do
  let a ← (safeDiv activeCount spec.slotsPerEpoch).mapErr (fun _ => VerifyError.lighthouseTypes)
  let b ← (safeDiv a spec.targetCommitteeSize).mapErr (fun _ => VerifyError.lighthouseTypes)
  return max 1 (min spec.maxCommitteesPerSlot b)

/-- `compute_committees` (core/src/verify.rs:272-298). -/
def computeCommittees (X : Ext) (R : Reader) (active : OMap ValidatorInfo) (epoch : Nat) :
    Res VerifyError CommitteeCache := do
  let seed ← (R.getSeed X epoch R.spec.domainBeaconAttester).mapErr (fun _ => VerifyError.stateReader)
  let indices := active.keys
  let cps ← committeeCountPerSlot R.spec indices.length
  (CommitteeCache.initialized X R.spec seed indices cps epoch).mapErr VerifyError.committeeCache

/-- `is_valid_indexed_attestation` (core/src/verify.rs:237-269). -/
def isValidIndexedAttestation (X : Ext) (R : Reader) (validators : List ValidatorInfo)
    (data : AttestationData) (signature : Bytes) : Res VerifyError Bool := do
  if validators = [] then .err .emptyAttestation
  else
    let fork ← (R.fork data.target.epoch).mapErr (fun _ => VerifyError.stateReader)
    let root ← R.genesisValidatorsRoot.mapErr (fun _ => VerifyError.stateReader)
    let domain := getDomain X data.target.epoch fork root
    return X.fastAggregateVerify signature (R.spec.signingRoot data domain) (validators.map (·.pubkey))

/-- `process_attestation` (core/src/verify.rs:194-234). -/
def processAttestation (X : Ext) (R : Reader) (active : OMap ValidatorInfo)
    (committees : CommitteeCache) (attestation : Attestation) : Res VerifyError OSet := do
  match attestation with
  | .base _ => .panic
  | .electra a =>
    let e ← slotEpoch R.spec a.data.slot
    assert (decide (a.data.target.epoch = e))
    assert (decide (a.data.index = 0))
    let indices ← (getAttestingIndices X R.spec a committees).mapErr VerifyError.committeeCache
    let validators ← mapRes (fun i => okOr (VerifyError.missingValidatorInfo i) (active.get? i)) indices
    let valid ← isValidIndexedAttestation X R validators a.data a.signature
    ensure valid VerifyError.invalidSignature
    return indices

/-- The inner loop of `verify` collecting participants (core/src/verify.rs:115-120). -/
def collectParticipants (X : Ext) (R : Reader) (active : OMap ValidatorInfo)
    (committees : CommitteeCache) : List Attestation → OSet → Res VerifyError OSet
  | [], acc => .ok acc
  | a :: as, acc => do
    let indices ← processAttestation X R active committees a
    collectParticipants X R active committees as (OSet.extend acc indices)

/-- `validate_link` (core/src/verify.rs:167-191). -/
def validateLink (cfg : Config) (spec : ChainSpec) (trusted : Checkpoint) (link : Link) :
    Res VerifyError Unit := do
  let fork := spec.forkNameAtEpoch link.target.epoch
  ensure (cfg.isSupportedVersion fork) (VerifyError.unsupportedFork fork)
  let lookahead := satSub link.target.epoch trusted.epoch
  ensure (decide (lookahead ≤ cfg.epochLookaheadLimit))
    (VerifyError.lookaheadExceedsLimit lookahead cfg.epochLookaheadLimit)

/-- The threshold check (core/src/verify.rs:134-144). The products are exact in `u128`; the
threshold of the error message is truncated to `u64` and divides by the quotient. -/
def checkThreshold (cfg : Config) (target total : Nat) : Res VerifyError Unit :=
  let lhs := target * cfg.justificationThresholdQuotient
  let rhs := total * cfg.justificationThresholdFactor
  if rhs ≤ lhs then .ok ()
  else if cfg.justificationThresholdQuotient = 0 then .panic
  else .err (.thresholdNotMet target (rhs / cfg.justificationThresholdQuotient % U64))

/-- One iteration of the loop of `verify` (core/src/verify.rs:92-150). -/
def processGroup (X : Ext) (cfg : Config) (R : Reader) (trusted : Checkpoint) (state : ConsensusState)
    (link : Link) (attestations : List Attestation) : Res VerifyError ConsensusState := do
  ensure (decide (state.finalized = trusted)) (VerifyError.invalidFinalization state.finalized)
  validateLink cfg R.spec trusted link
  let targetEpoch := link.target.epoch
  let list ← (R.activeValidators targetEpoch).mapErr (fun _ => VerifyError.stateReader)
  let active := OMap.ofList list
  let committees ← computeCommittees X R active targetEpoch
  let participating ← collectParticipants X R active committees attestations []
  let validators ← mapRes (fun i => expect (active.get? i)) participating
  let targetBalance ←
    (getTotalBalance R.spec (validators.filter (fun v => !v.slashed))).mapErr VerifyError.arith
  let totalActive ← (getTotalBalance R.spec active.values).mapErr VerifyError.arith
  checkThreshold cfg targetBalance totalActive
  let t3 ← (safeMul targetBalance 3).mapErr VerifyError.arith
  let t2 ← (safeMul totalActive 2).mapErr VerifyError.arith
  assert (decide (t2 ≤ t3))
  let state' ← (state.stateTransition link).mapErr VerifyError.consensus
  assert state'.isValid
  return state'

/-- `itertools::chunk_by`: maximal runs of consecutive elements with equal keys. -/
def chunkBy {α κ : Type} [DecidableEq κ] (key : α → κ) : List α → List (κ × List α)
  | [] => []
  | a :: l =>
    match chunkBy key l with
    | [] => [(key a, [a])]
    | (k, g) :: rest => if key a = k then (k, a :: g) :: rest else (key a, [a]) :: (k, g) :: rest

/-- The link voted for by an attestation (core/src/verify.rs:90, 98-101). -/
def attLink (a : Attestation) : Link := ⟨a.data.source, a.data.target⟩

/-- The loop of `verify` over the groups (core/src/verify.rs:87-151). -/
def verifyLoop (X : Ext) (cfg : Config) (R : Reader) (trusted : Checkpoint) :
    ConsensusState → List (Link × List Attestation) → Res VerifyError ConsensusState
  | state, [] => .ok state
  | state, (link, atts) :: gs => do
    let state' ← processGroup X cfg R trusted state link atts
    verifyLoop X cfg R trusted state' gs

/-- `verify` (core/src/verify.rs:78-164). -/
def verify (X : Ext) (cfg : Config) (R : Reader) : Res VerifyError (ConsensusState × Nat) := do
  let state ← R.consensusState.unwrap
  let trusted := state.finalized
  let atts ← R.attestations.unwrap
  let state' ← verifyLoop X cfg R trusted state (chunkBy attLink atts)
  ensure (decide (state'.finalized ≠ trusted)) (VerifyError.invalidFinalization state'.finalized)
  let slot ← (R.slotForBlock state'.finalized.root).mapErr (fun _ => VerifyError.stateReader)
  return (state', slot)

end Signal
