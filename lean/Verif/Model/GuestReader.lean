import Verif.Model.Verify
import Verif.Model.Multiproof
import Verif.Model.Abi

/-!
# Model of core/src/input_reader/guest_input_reader.rs, core/src/guest_gindices.rs, core/src/bls.rs
# and methods/guest/src/lib.rs
-/

namespace Signal

/-! ## Generalized indices (core/src/guest_gindices.rs) -/

/-- `slot_gindex` (core/src/guest_gindices.rs:19-21). -/
def slotGindex : Nat := 66
/-- `finalized_checkpoint_epoch_gindex` (core/src/guest_gindices.rs:24-26). -/
def finalizedCheckpointEpochGindex : Nat := 168
/-- `genesis_validators_root_gindex` (core/src/guest_gindices.rs:29-31). -/
def genesisValidatorsRootGindex : Nat := 65
/-- `fork_previous_version_gindex` (core/src/guest_gindices.rs:34-36). -/
def forkPreviousVersionGindex : Nat := 268
/-- `fork_current_version_gindex` (core/src/guest_gindices.rs:39-41). -/
def forkCurrentVersionGindex : Nat := 269
/-- `fork_epoch_gindex` (core/src/guest_gindices.rs:44-46). -/
def forkEpochGindex : Nat := 270
/-- `validators_gindex` (core/src/guest_gindices.rs:49-51). -/
def validatorsGindex : Nat := 75
/-- `earliest_exit_epoch_gindex` (core/src/guest_gindices.rs:54-56). -/
def earliestExitEpochGindex : Nat := 95
/-- `earliest_consolidation_epoch_gindex` (core/src/guest_gindices.rs:59-61). -/
def earliestConsolidationEpochGindex : Nat := 97
/-- `state_root_gindex` (core/src/guest_gindices.rs:64-66). -/
def stateRootGindex : Nat := 11
/-- `block_slot_gindex` (core/src/guest_gindices.rs:69-71). -/
def blockSlotGindex : Nat := 8

/-- The common body of the validator index functions (core/src/guest_gindices.rs:74-120):
`(2199023255552u64 + (i as u64)) * 8u64 * (g / 8) + (g % 8)`, raw `u64` arithmetic. -/
def validatorFieldGindex (g i : Nat) : Nat :=
  wrapAdd (wrapMul (wrapMul (wrapAdd 2199023255552 i) 8) (g / 8)) (g % 8)

/-- `public_key_0_gindex` (core/src/guest_gindices.rs:74-78). -/
def publicKey0Gindex (i : Nat) : Nat := validatorFieldGindex 16 i
/-- `public_key_1_gindex` (core/src/guest_gindices.rs:81-85). -/
def publicKey1Gindex (i : Nat) : Nat := validatorFieldGindex 17 i
/-- `effective_balance_gindex` (core/src/guest_gindices.rs:88-92). -/
def effectiveBalanceGindex (i : Nat) : Nat := validatorFieldGindex 10 i
/-- `activation_eligibility_epoch_gindex` (core/src/guest_gindices.rs:95-99). -/
def activationEligibilityEpochGindex (i : Nat) : Nat := validatorFieldGindex 12 i
/-- `activation_epoch_gindex` (core/src/guest_gindices.rs:102-106). -/
def activationEpochGindex (i : Nat) : Nat := validatorFieldGindex 13 i
/-- `exit_epoch_gindex` (core/src/guest_gindices.rs:109-113). -/
def exitEpochGindex (i : Nat) : Nat := validatorFieldGindex 14 i
/-- `slashed_gindex` (core/src/guest_gindices.rs:116-120). -/
def slashedGindex (i : Nat) : Nat := validatorFieldGindex 11 i

/-! ## Chunks -/

/-- `u64_from_chunk::<Leftmost>` (core/src/input_reader/guest_input_reader.rs:554-569). -/
def u64FromChunk (node : Bytes) : Nat := ofLE (node.take 8)

/-- `bool_from_chunk` (core/src/input_reader/guest_input_reader.rs:572-579). -/
def boolFromChunk {ε : Type} (node : Bytes) : Res ε Bool := do
  assert ((node.drop 1).all (· == 0))
  if node.head? = some 0 then return false
  else if node.head? = some 1 then return true
  else .panic

/-- `has_compressed_chunks` (core/src/bls.rs:18-24). -/
def hasCompressedChunks (X : Ext) (pk chunk1 chunk2 : Bytes) : Bool :=
  let b := X.pkSerialize pk
  decide (b.take 32 = chunk1) &&
    decide ((b.drop 32).take 16 = chunk2.take 16) &&
    decide ((chunk2.drop 16).take 16 = List.replicate 16 0)

/-! ## Guest input -/

/-- `GuestInput` (core/src/input_reader/guest_input_reader.rs:42-83). -/
structure GuestInput where
  beaconBlock : Multiproof
  beaconState : Multiproof
  activeValidators : Multiproof
  publicKeys : List Bytes
  patches : OMap StatePatch
  consensusState : ConsensusState
  attestations : List Attestation
  blockSlotProofs : List Multiproof
  deriving DecidableEq

/-- `StateInfo` (core/src/input_reader/guest_input_reader.rs:107-116). -/
structure StateInfo where
  genesisValidatorsRoot : Root
  slot : Nat
  fork : Fork
  validatorsRoot : Root
  finalizedCheckpointEpoch : Nat
  earliestExitEpoch : Nat
  earliestConsolidationEpoch : Nat
  deriving Repr, DecidableEq

/-- `GuestReaderError` (core/src/input_reader/guest_input_reader.rs:118-130), without the texts. -/
inductive GuestReaderError where
  | sszMultiproof (e : ProofError)
  | config
  | arith (e : ArithError)
  deriving Repr, DecidableEq

/-- `extract_beacon_block_multiproof` (core/src/input_reader/guest_input_reader.rs:380-390). -/
def extractBeaconBlock (p : Multiproof) : Res ProofError Root := do
  let (stateRoot, rest) ← nextAssertGindex p.values stateRootGindex
  assert rest.isEmpty
  return stateRoot

/-- `extract_beacon_state_multiproof` (core/src/input_reader/guest_input_reader.rs:393-427). -/
def extractBeaconState (p : Multiproof) : Res ProofError StateInfo := do
  let (genesisValidatorsRoot, vs) ← nextAssertGindex p.values genesisValidatorsRootGindex
  let (slot, vs) ← nextAssertGindex vs slotGindex
  let (forkPreviousVersion, vs) ← nextAssertGindex vs forkPreviousVersionGindex
  let (forkCurrentVersion, vs) ← nextAssertGindex vs forkCurrentVersionGindex
  let (forkEpoch, vs) ← nextAssertGindex vs forkEpochGindex
  let (validatorsRoot, vs) ← nextAssertGindex vs validatorsGindex
  let (finalizedCheckpointEpoch, vs) ← nextAssertGindex vs finalizedCheckpointEpochGindex
  let (earliestExitEpoch, vs) ← nextAssertGindex vs earliestExitEpochGindex
  let (earliestConsolidationEpoch, vs) ← nextAssertGindex vs earliestConsolidationEpochGindex
  assert vs.isEmpty
  return {
    genesisValidatorsRoot := genesisValidatorsRoot
    slot := u64FromChunk slot
    fork := {
      previousVersion := forkPreviousVersion.take 4
      currentVersion := forkCurrentVersion.take 4
      epoch := u64FromChunk forkEpoch }
    validatorsRoot := validatorsRoot
    finalizedCheckpointEpoch := u64FromChunk finalizedCheckpointEpoch
    earliestExitEpoch := u64FromChunk earliestExitEpoch
    earliestConsolidationEpoch := u64FromChunk earliestConsolidationEpoch }

/-- `values.next().ok_or(MissingValue)?` followed by `assert_eq!(gindex, expected)`
(core/src/input_reader/guest_input_reader.rs:460-463, 474-500). -/
def nextExpecting (values : List (Nat × Bytes)) (gindex : Nat) :
    Res ProofError (Bytes × List (Nat × Bytes)) :=
  match values with
  | [] => .err .missingValue
  | (g, node) :: rest => if g = gindex then .ok (node, rest) else .panic

/-- The body of the `else` branch of the loop of `extract_validators_multiproof`
(core/src/input_reader/guest_input_reader.rs:457-511): one validator, and the values left. -/
def extractValidator (X : Ext) (pubkey : Bytes) (values : List (Nat × Bytes)) (i : Nat) :
    Res ProofError (ValidatorInfo × List (Nat × Bytes)) := do
  let (part1, values) ← nextExpecting values (publicKey0Gindex i)
  let (part2, values) ← nextExpecting values (publicKey1Gindex i)
  assert (hasCompressedChunks X pubkey part1 part2)
  let (effectiveBalance, values) ← nextExpecting values (effectiveBalanceGindex i)
  let (slashed, values) ← nextExpecting values (slashedGindex i)
  let slashed ← boolFromChunk slashed
  let (activationEligibilityEpoch, values) ←
    nextExpecting values (activationEligibilityEpochGindex i)
  let (activationEpoch, values) ← nextExpecting values (activationEpochGindex i)
  let (exitEpoch, values) ← nextExpecting values (exitEpochGindex i)
  return ({
    pubkey := pubkey
    effectiveBalance := u64FromChunk effectiveBalance
    slashed := slashed
    activationEligibilityEpoch := u64FromChunk activationEligibilityEpoch
    activationEpoch := u64FromChunk activationEpoch
    exitEpoch := u64FromChunk exitEpoch }, values)

/-- The loop of `extract_validators_multiproof` and the checks after it
(core/src/input_reader/guest_input_reader.rs:445-519). `fuel` bounds the number of iterations; every
iteration consumes a value, so `values.length + 1` is enough and running out is never observed
(`extractLoop_fuel`). The index is a natural number: a proof for more validators than a 32-bit `usize` can
count does not fit in the guest's memory. -/
def extractLoop (X : Ext) (currentEpoch : Nat) :
    (fuel : Nat) → List (Nat × Bytes) → List Bytes → Nat → OMap ValidatorInfo →
      Res ProofError (OMap ValidatorInfo)
  | 0, _, _, _, _ => .panic
  | fuel + 1, values, pubkeys, i, cache =>
    match values with
    | [] => .err .missingValue
    | (gindex, node) :: rest =>
      if gindex = 3 then do
        assert (decide (i = u64FromChunk node))
        assert rest.isEmpty
        return cache
      else if gindex = exitEpochGindex i then do
        assert (decide (u64FromChunk node ≤ currentEpoch))
        extractLoop X currentEpoch fuel rest pubkeys (i + 1) cache
      else
        match pubkeys with
        | [] => .panic
        | pubkey :: pubkeys => do
          let (info, values) ← extractValidator X pubkey ((gindex, node) :: rest) i
          extractLoop X currentEpoch fuel values pubkeys (i + 1) (OMap.insert cache i info)

/-- `extract_validators_multiproof` (core/src/input_reader/guest_input_reader.rs:434-520). -/
def extractValidators (X : Ext) (p : Multiproof) (publicKeys : List Bytes) (currentEpoch : Nat) :
    Res ProofError (OMap ValidatorInfo) :=
  extractLoop X currentEpoch (p.values.length + 1) p.values publicKeys 0 []

/-! ## Registry updates and state patches -/

/-- The body of the loop of `process_registry_updates`
(core/src/input_reader/guest_input_reader.rs:533-542). -/
def updateValidator (spec : ChainSpec) (finalizedEpoch currentEpoch activationEpoch : Nat)
    (v : ValidatorInfo) : ValidatorInfo :=
  let v := if v.isEligibleForActivationQueue spec then
    { v with activationEligibilityEpoch := satAdd currentEpoch 1 } else v
  if v.isEligibleForActivation spec finalizedEpoch then
    { v with activationEpoch := activationEpoch } else v

/-- `process_registry_updates` (core/src/input_reader/guest_input_reader.rs:525-543). -/
def processRegistryUpdates {ε : Type} (spec : ChainSpec) (registry : OMap ValidatorInfo)
    (finalizedEpoch currentEpoch : Nat) : Res ε (OMap ValidatorInfo) := do
  let activationEpoch ← (spec.computeActivationExitEpoch currentEpoch).unwrap
  return registry.map (fun e =>
    (e.1, updateValidator spec finalizedEpoch currentEpoch activationEpoch e.2))

/-- The loop over the epochs from the state's to the justified one
(core/src/input_reader/guest_input_reader.rs:191-203), `n` epochs starting at `epoch`. -/
def registryLoop {ε : Type} (spec : ChainSpec) (stateFinalizedEpoch trustedEpoch justifiedEpoch : Nat) :
    (n epoch : Nat) → OMap ValidatorInfo → Res ε (OMap ValidatorInfo)
  | 0, _, registry => .ok registry
  | n + 1, epoch, registry => do
    let finalizedEpoch := if epoch < justifiedEpoch then stateFinalizedEpoch else trustedEpoch
    let registry ← processRegistryUpdates spec registry finalizedEpoch epoch
    registryLoop spec stateFinalizedEpoch trustedEpoch justifiedEpoch n (epoch + 1) registry

/-- `get_balance_churn_limit` (core/src/input_reader/guest_input_reader.rs:545-552). -/
def getBalanceChurnLimit (spec : ChainSpec) (totalActiveBalance : Nat) : Res ArithError Nat := do
  let q ← safeDiv totalActiveBalance spec.churnLimitQuotient
  let churn := max spec.minPerEpochChurnLimitElectra q
  let r ← safeRem churn spec.effectiveBalanceIncrement
  safeSub churn r

/-- The patched exit of `idx` in the preceding patch, or the proven one
(core/src/input_reader/guest_input_reader.rs:288-292); `patch_epoch - 1` saturates. -/
def prevExitEpoch (patches : OMap StatePatch) (patchEpoch idx : Nat) (validator : ValidatorInfo) : Nat :=
  (((patches.get? (satSub patchEpoch 1)).bind (fun p => p.validatorExits.get? idx)).getD
    validator.exitEpoch)

/-- The inner loop of `validate_state_patches`
(core/src/input_reader/guest_input_reader.rs:277-311) over the sorted exits; returns the updated
`earliest_exit_epoch`. `+=`, `*` on `u64` wrap. -/
def validateExits {ε : Type} (spec : ChainSpec) (patches : OMap StatePatch)
    (validators : OMap ValidatorInfo) (patchEpoch churn : Nat) :
    List (Nat × Nat) → (earliest toConsume : Nat) → Res ε Nat
  | [], earliest, _ => .ok earliest
  | (idx, exitEpoch) :: exits, earliest, toConsume => do
    let validator ← expect (validators.get? idx)
    let prev := prevExitEpoch patches patchEpoch idx validator
    if prev = exitEpoch then
      validateExits spec patches validators patchEpoch churn exits earliest toConsume
    else
      assert (decide (prev = spec.farFutureEpoch))
      assert (decide (earliest ≤ exitEpoch))
      let toConsume := wrapAdd toConsume (wrapMul (satSub exitEpoch earliest) churn)
      assert (decide (validator.effectiveBalance ≤ toConsume))
      validateExits spec patches validators patchEpoch churn exits exitEpoch
        (toConsume - validator.effectiveBalance)

/-- The outer loop of `validate_state_patches`
(core/src/input_reader/guest_input_reader.rs:264-312). -/
def validatePatchLoop {ε : Type} (X : Ext) (spec : ChainSpec) (patches : OMap StatePatch)
    (validators : OMap ValidatorInfo) (trustedEpoch churn : Nat) :
    List (Nat × StatePatch) → (earliest : Nat) → Res ε Unit
  | [], _ => .ok ()
  | (patchEpoch, patch) :: rest, earliest => do
    assert (decide (trustedEpoch ≤ patchEpoch))
    let earliest ← validateExits spec patches validators patchEpoch churn
      (X.sortByEpoch patch.validatorExits) earliest churn
    validatePatchLoop X spec patches validators trustedEpoch churn rest earliest

/-- `validate_state_patches` (core/src/input_reader/guest_input_reader.rs:233-314). -/
def validateStatePatches (X : Ext) (spec : ChainSpec) (patches : OMap StatePatch) (trusted : Checkpoint)
    (state : StateInfo) (validators : OMap ValidatorInfo) : Res GuestReaderError Unit := do
  let active := (validators.filter (fun e => e.2.isActiveAt trusted.epoch)).map (·.2)
  let total ← (getTotalBalance spec active).mapErr GuestReaderError.arith
  let limit ← (getBalanceChurnLimit spec total).mapErr GuestReaderError.arith
  let churn ← (safeMul limit 2).mapErr GuestReaderError.arith
  let activationExit ← (spec.computeActivationExitEpoch trusted.epoch).mapErr GuestReaderError.arith
  let earliest := max (min state.earliestExitEpoch state.earliestConsolidationEpoch) activationExit
  validatePatchLoop X spec patches validators trusted.epoch churn patches earliest

/-! ## The reader -/

/-- `GuestInputReader` (core/src/input_reader/guest_input_reader.rs:85-105). `blockSlots` is a map keyed by
roots whose order is never observed: the latest insertion comes first. -/
structure GuestReader where
  spec : ChainSpec
  genesisValidatorsRoot : Root
  validators : OMap ValidatorInfo
  patches : OMap StatePatch
  consensusState : ConsensusState
  attestations : List Attestation
  blockSlots : List (Root × Nat)

/-- Building the map from block roots to slots
(core/src/input_reader/guest_input_reader.rs:209-219). -/
def blockSlotLoop (X : Ext) : List Multiproof → List (Root × Nat) → Res GuestReaderError (List (Root × Nat))
  | [], m => .ok m
  | p :: ps, m => do
    let root ← (p.calculateRoot X).mapErr GuestReaderError.sszMultiproof
    let (slot, _) ← (nextAssertGindex p.values blockSlotGindex).mapErr GuestReaderError.sszMultiproof
    blockSlotLoop X ps ((root, u64FromChunk slot) :: m)

/-- `into_reader` (core/src/input_reader/guest_input_reader.rs:149-231). -/
def GuestInput.intoReader (X : Ext) (spec : ChainSpec) (input : GuestInput) :
    Res GuestReaderError GuestReader := do
  let trusted := input.consensusState.finalized
  (input.beaconBlock.verify X trusted.root).mapErr GuestReaderError.sszMultiproof
  let stateRoot ← (extractBeaconBlock input.beaconBlock).mapErr GuestReaderError.sszMultiproof
  (input.beaconState.verify X stateRoot).mapErr GuestReaderError.sszMultiproof
  let state ← (extractBeaconState input.beaconState).mapErr GuestReaderError.sszMultiproof
  (input.activeValidators.verify X state.validatorsRoot).mapErr GuestReaderError.sszMultiproof
  let validators ← (extractValidators X input.activeValidators input.publicKeys trusted.epoch).mapErr
    GuestReaderError.sszMultiproof
  let stateEpoch ← slotEpoch spec state.slot
  ensure (decide (state.fork = spec.forkAtEpoch stateEpoch)) GuestReaderError.config
  let justifiedEpoch := input.consensusState.currentJustified.epoch
  let validators ← registryLoop spec state.finalizedCheckpointEpoch trusted.epoch justifiedEpoch
    (justifiedEpoch + 1 - stateEpoch) stateEpoch validators
  validateStatePatches X spec input.patches trusted state validators
  let blockSlots ← blockSlotLoop X input.blockSlotProofs []
  return {
    spec := spec
    genesisValidatorsRoot := state.genesisValidatorsRoot
    validators := validators
    patches := input.patches
    consensusState := input.consensusState
    attestations := input.attestations
    blockSlots := blockSlots }

namespace GuestReader

/-- The patch used for an epoch (core/src/input_reader/guest_input_reader.rs:337, 347). -/
def patchAt (r : GuestReader) (epoch : Nat) : StatePatch := (r.patches.get? epoch).getD .empty

/-- `active_validators` (core/src/input_reader/guest_input_reader.rs:333-344). -/
def activeValidators (r : GuestReader) (epoch : Nat) : OMap ValidatorInfo :=
  r.validators.filter (fun e => (r.patchAt epoch).isActiveValidator e.1 e.2 epoch)

/-- The implementation of `InputReader` (core/src/input_reader/guest_input_reader.rs:317-374). -/
def toReader (r : GuestReader) : Reader where
  spec := r.spec
  genesisValidatorsRoot := .ok r.genesisValidatorsRoot
  fork epoch := .ok (r.spec.forkAtEpoch epoch)
  activeValidators epoch := .ok (r.activeValidators epoch)
  randaoMix epoch index := .ok ((r.patchAt epoch).randaoMixes.get? index)
  attestations := .ok r.attestations
  consensusState := .ok r.consensusState
  slotForBlock root := okOr .other ((r.blockSlots.find? (fun e => decide (e.1 = root))).map (·.2))

end GuestReader

/-- The guest program `entry` (methods/guest/src/lib.rs:18-52) after deserialization: the journal bytes it
commits. All failures abort. The whole program, with deserialization, is `Wire.guestMain`. -/
def guestEntry {ε : Type} (X : Ext) (spec : ChainSpec) (cfg : Config) (input : GuestInput) : Res ε Bytes := do
  let reader ← (input.intoReader X spec).unwrap
  let (post, slot) ← (verify X cfg reader.toReader).unwrap
  return Abi.encodeJournal input.consensusState post slot

end Signal
