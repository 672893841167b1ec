import Verif.Model.Providers
import Verif.Model.HostSearch
import Verif.Model.GuestReader
import Verif.Model.Builder

/-!
# Model of the host's reader, its recording wrapper and the construction of the guest input
(host/src/input_reader/host_input_reader.rs:120-228, host/src/state_patch_builder.rs,
host/src/input_reader/preflight_input_reader.rs)

`ssz_rs` turns paths into generalized indices; the indices of the paths that are used are written out here.
-/

namespace Signal

/-- A beacon state as far as the host reads it. Only Electra and Fulu states: other versions make `to_input` fail
(host/src/input_reader/preflight_input_reader.rs:77-85). -/
structure HostState where
  beacon : Spec.BeaconState
  latestBlockHeader : Spec.Header
  randaoMixes : List Root

/-- The functions of a state that the providers use. Serialization plays no role here. -/
def hostStateOps (X : Ext) : StateOps HostState where
  slot s := s.beacon.slot
  genesisValidatorsRoot s := s.beacon.genesisValidatorsRoot
  latestBlockHeader s := s.latestBlockHeader
  hashTreeRoot s := s.beacon.tree.root X
  serialize _ := []
  deserialize _ := none

/-- `HostInputReader` (host/src/input_reader/host_input_reader.rs:71-79) after its construction. `provider` are
the answers of the state provider by slot, `headers` those of the node to `get_block_header`, `decompress` is
`PublicKey::deserialize`. As the provider answers the same all the time, the cache of active validators is left
out. -/
structure HostReader where
  spec : ChainSpec
  provider : Nat → Res ProviderError HostState
  genesisRoot : Res ProviderError Root
  headers : Root → Res HostError (Option Spec.Header)
  decompress : Bytes → Option Bytes
  consensusState : ConsensusState
  attestations : List Attestation

/-- `Validator::try_as_beacon_type` (host/src/conversions.rs:67-78). -/
def toValidatorInfo (decompress : Bytes → Option Bytes) (v : Spec.Validator) : Res HostError ValidatorInfo := do
  let pubkey ← okOr .conversion (decompress v.pubkey)
  return {
    pubkey := pubkey
    effectiveBalance := v.effectiveBalance
    slashed := v.slashed
    activationEligibilityEpoch := v.activationEligibilityEpoch
    activationEpoch := v.activationEpoch
    exitEpoch := v.exitEpoch }

namespace HostReader

/-- `state` (host/src/input_reader/host_input_reader.rs:126-128). -/
def state (r : HostReader) (epoch : Nat) : Res HostError HostState :=
  (stateAtEpoch r.spec.slotsPerEpoch r.provider epoch).mapErr (fun _ => .provider)

/-- `active_validators` (host/src/input_reader/host_input_reader.rs:172-198) with `is_active_validator` (lines
226-228). -/
def activeValidators (r : HostReader) (epoch : Nat) : Res HostError (List (Nat × ValidatorInfo)) := do
  let state ← r.state epoch
  mapRes (fun (v, i) => do
      let info ← toValidatorInfo r.decompress v
      return (i, info))
    (state.beacon.validators.zipIdx.filter
      (fun (v, _) => decide (v.activationEpoch ≤ epoch) && decide (epoch < v.exitEpoch)))

/-- `randao_mix` (host/src/input_reader/host_input_reader.rs:200-208). -/
def randaoMix (r : HostReader) (epoch idx : Nat) : Res HostError (Option Root) := do
  let state ← r.state epoch
  return state.randaoMixes[idx]?

/-- `fork` (host/src/input_reader/host_input_reader.rs:163-170). -/
def fork (r : HostReader) (epoch : Nat) : Res HostError Fork := do
  let state ← r.state epoch
  return state.beacon.fork

/-- `slot_for_block` (host/src/input_reader/host_input_reader.rs:218-223). -/
def slotForBlock (r : HostReader) (root : Root) : Res HostError Nat := do
  let header ← r.headers root
  let header ← okOr .blockMissing header
  return header.slot

/-- The implementation of `InputReader` (host/src/input_reader/host_input_reader.rs:151-224). -/
def toReader (r : HostReader) : Reader where
  spec := r.spec
  genesisValidatorsRoot := r.genesisRoot.mapErr (fun _ => .other)
  fork epoch := (r.fork epoch).mapErr (fun _ => .other)
  activeValidators epoch := (r.activeValidators epoch).mapErr (fun _ => .other)
  randaoMix epoch index := (r.randaoMix epoch index).mapErr (fun _ => .other)
  attestations := .ok r.attestations
  consensusState := .ok r.consensusState
  slotForBlock root := (r.slotForBlock root).mapErr (fun _ => .other)

end HostReader

/-! ## Recording -/

/-- What `PreflightInputReader` records (host/src/input_reader/preflight_input_reader.rs:37-44). `beacon_block_reads` is
a set ordered by the roots; here it is in the order of insertion, which only affects the order of the slot proofs. -/
structure PreflightLog where
  validatorEpochs : OSet
  mixEpochs : OMap OSet
  blockReads : List Root
  deriving DecidableEq

/-- `PreflightInputReader::new` (host/src/input_reader/preflight_input_reader.rs:52-61): nothing recorded. -/
def PreflightLog.empty : PreflightLog := ⟨[], [], []⟩

/-- The requests that are recorded. All others are passed on
(host/src/input_reader/preflight_input_reader.rs:204-214, 240-248). -/
inductive Query where
  | activeValidators (epoch : Nat)
  | randaoMix (epoch idx : Nat)
  | slotForBlock (root : Root)
  deriving DecidableEq

/-- One recorded request (host/src/input_reader/preflight_input_reader.rs:216-254). The answer is the one of the wrapped
reader; returned is the new record. -/
def preflightQuery (trustedEpoch : Nat) (r : HostReader) (log : PreflightLog) : Query → Res HostError PreflightLog
  | .activeValidators epoch => do
    assert (decide (trustedEpoch ≤ epoch))
    let _ ← r.activeValidators epoch
    return ⟨log.validatorEpochs.insert epoch, log.mixEpochs, log.blockReads⟩
  | .randaoMix epoch idx => do
    let mix ← r.randaoMix epoch idx
    let _ ← expect mix
    return ⟨log.validatorEpochs, log.mixEpochs.insert epoch (((log.mixEpochs.get? epoch).getD []).insert idx),
      log.blockReads⟩
  | .slotForBlock root => do
    let _ ← r.slotForBlock root
    return ⟨log.validatorEpochs, log.mixEpochs,
      if root ∈ log.blockReads then log.blockReads else log.blockReads ++ [root]⟩

/-- A sequence of recorded requests. -/
def preflightRun (trustedEpoch : Nat) (r : HostReader) : PreflightLog → List Query → Res HostError PreflightLog
  | log, [] => .ok log
  | log, q :: qs => do
    let log ← preflightQuery trustedEpoch r log q
    preflightRun trustedEpoch r log qs

/-! ## State patches -/

/-- Errors of `to_input`; the code uses `anyhow`. -/
inductive PreflightError where
  | provider (e : ProviderError)
  | host (e : HostError)
  | proof (e : ProofError)
  | invalidIndex
  | blockNotFound
  deriving Repr, DecidableEq

/-- `StatePatchBuilder` (host/src/state_patch_builder.rs:27-30). -/
structure PatchBuilder where
  state : HostState
  patch : StatePatch

/-- `StatePatchBuilder::randao_mix` (host/src/state_patch_builder.rs:40-48). -/
def PatchBuilder.randaoMix (b : PatchBuilder) (idx : Nat) : Res PreflightError PatchBuilder := do
  let mix ← okOr .invalidIndex b.state.randaoMixes[idx]?
  return ⟨b.state, ⟨b.patch.randaoMixes.insert idx mix, b.patch.validatorExits⟩⟩

/-- The loop `for idx in indices { patch.randao_mix(idx)?; }`
(host/src/input_reader/preflight_input_reader.rs:141-143). -/
def PatchBuilder.randaoMixes (b : PatchBuilder) : List Nat → Res PreflightError PatchBuilder
  | [] => .ok b
  | idx :: l => do
    let b ← b.randaoMix idx
    b.randaoMixes l

/-- The loop of `StatePatchBuilder::validator_diff` (host/src/state_patch_builder.rs:50-57): `idx` is the index of the
first pair. -/
def diffLoop : (idx : Nat) → List (Spec.Validator × Spec.Validator) → OMap Nat → OMap Nat
  | _, [], exits => exits
  | idx, (a, b) :: l, exits =>
    diffLoop (idx + 1) l (if a.exitEpoch ≠ b.exitEpoch then exits.insert idx a.exitEpoch else exits)

/-- `StatePatchBuilder::validator_diff` (host/src/state_patch_builder.rs:50-57). -/
def PatchBuilder.validatorDiff (b : PatchBuilder) (validators : List Spec.Validator) : PatchBuilder :=
  ⟨b.state, ⟨b.patch.randaoMixes, diffLoop 0 (b.state.beacon.validators.zip validators) b.patch.validatorExits⟩⟩

/-- `patch_builder` (host/src/input_reader/preflight_input_reader.rs:188-194). -/
def newPatchBuilder (r : HostReader) (epoch : Nat) : Res PreflightError PatchBuilder := do
  let state ← (stateAtEpoch r.spec.slotsPerEpoch r.provider epoch).mapErr PreflightError.provider
  return ⟨state, .empty⟩

/-- The patches with randao mixes (host/src/input_reader/preflight_input_reader.rs:137-144). -/
def mixPatches (r : HostReader) : List (Nat × OSet) → OMap PatchBuilder → Res PreflightError (OMap PatchBuilder)
  | [], m => .ok m
  | (epoch, indices) :: l, m => do
    let fresh ← newPatchBuilder r epoch
    let b ← ((m.get? epoch).getD fresh).randaoMixes indices
    mixPatches r l (m.insert epoch b)

/-- The patches with exits (host/src/input_reader/preflight_input_reader.rs:145-152). -/
def exitPatches (r : HostReader) (trustedEpoch : Nat) (validators : List Spec.Validator) :
    List Nat → OMap PatchBuilder → Res PreflightError (OMap PatchBuilder)
  | [], m => .ok m
  | epoch :: l, m =>
    if epoch ≠ trustedEpoch then do
      let fresh ← newPatchBuilder r epoch
      exitPatches r trustedEpoch validators l
        (m.insert epoch (((m.get? epoch).getD fresh).validatorDiff validators))
    else exitPatches r trustedEpoch validators l m

/-! ## Proofs -/

/-- Generalized index of field `f` of validator `i` in the registry: the registry is a list with limit `2^40`, a
validator a container with eight fields. -/
def validatorPath (i f : Nat) : Nat := (2 ^ 41 + i) * 8 + f

/-- The indices requested for one validator (host/src/input_reader/preflight_input_reader.rs:102-114): the exit epoch if
it has exited, else both chunks of the key and five fields. -/
def validatorRequest (trustedEpoch : Nat) (v : Spec.Validator) (i : Nat) : List Nat :=
  if v.exitEpoch ≤ trustedEpoch then [validatorPath i 6]
  else [2 * validatorPath i 0, 2 * validatorPath i 0 + 1, validatorPath i 2, validatorPath i 3, validatorPath i 4,
    validatorPath i 5, validatorPath i 6]

/-- The indices requested for the registry (host/src/input_reader/preflight_input_reader.rs:97-125), in the set of the
builder; 3 is the length. -/
def registryRequest (trustedEpoch : Nat) (validators : List Spec.Validator) : OSet :=
  OSet.extend [] (3 :: validators.zipIdx.flatMap (fun (v, i) => validatorRequest trustedEpoch v i))

/-- The keys of the validators that are included
(host/src/input_reader/preflight_input_reader.rs:94-95, 116-123). `active` is the iterator over the active validators. -/
def collectKeys (decompress : Bytes → Option Bytes) (trustedEpoch : Nat) :
    List (Spec.Validator × Nat) → (active : List (Nat × ValidatorInfo)) → Res PreflightError (List Bytes)
  | [], _ => .ok []
  | (v, i) :: l, active =>
    if v.exitEpoch ≤ trustedEpoch then collectKeys decompress trustedEpoch l active
    else
      match active with
      | (next, info) :: rest =>
        if next = i then do
          let keys ← collectKeys decompress trustedEpoch l rest
          return info.pubkey :: keys
        else do
          let key ← expect (decompress v.pubkey)
          let keys ← collectKeys decompress trustedEpoch l ((next, info) :: rest)
          return key :: keys
      | [] => do
        let key ← expect (decompress v.pubkey)
        let keys ← collectKeys decompress trustedEpoch l []
        return key :: keys

/-- The proof of the slot of one block (host/src/input_reader/preflight_input_reader.rs:158-174). -/
def slotProof (X : Ext) (order : List Nat → List Nat) (r : HostReader) (root : Root) :
    Res PreflightError Multiproof := do
  let header ← (r.headers root).mapErr PreflightError.host
  let header ← okOr .blockNotFound header
  let proof ← (build X order [8] header.tree).mapErr PreflightError.proof
  (proof.verify X root).mapErr PreflightError.proof
  return proof

/-- `to_input` (host/src/input_reader/preflight_input_reader.rs:63-186). `order` is the iteration order of the hash sets
of the proof builder. The code takes the record out of the reader, so that a second call would find
`validator_epochs` and `mix_epochs` empty; here it is a function of the record. -/
def toInput (X : Ext) (order : List Nat → List Nat) (r : HostReader) (trusted : Checkpoint) (log : PreflightLog) :
    Res PreflightError GuestInput := do
  let trustedState ← (stateAtCheckpoint X (hostStateOps X) r.spec.slotsPerEpoch r.provider trusted).mapErr
    PreflightError.provider
  let stateRoot := trustedState.beacon.tree.root X
  let block := { trustedState.latestBlockHeader with stateRoot := stateRoot }
  let beaconBlock ← (build X order [11] block.tree).mapErr PreflightError.proof
  (beaconBlock.verify X trusted.root).mapErr PreflightError.proof
  let beaconState ← (build X order [65, 66, 75, 95, 97, 168, 268, 269, 270] trustedState.beacon.tree).mapErr
    PreflightError.proof
  (beaconState.verify X stateRoot).mapErr PreflightError.proof
  let validators := trustedState.beacon.validators
  let active ← (r.activeValidators trusted.epoch).mapErr PreflightError.host
  let publicKeys ← collectKeys r.decompress trusted.epoch validators.zipIdx active
  let activeValidators ← (build X order (registryRequest trusted.epoch validators)
    (Spec.registryTree validators)).mapErr PreflightError.proof
  (activeValidators.verify X ((Spec.registryTree validators).root X)).mapErr PreflightError.proof
  let builders ← mixPatches r log.mixEpochs []
  let builders ← exitPatches r trusted.epoch validators log.validatorEpochs builders
  let blockSlotProofs ← mapRes (slotProof X order r) log.blockReads
  return {
    beaconBlock := beaconBlock
    beaconState := beaconState
    activeValidators := activeValidators
    publicKeys := publicKeys
    patches := builders.map (fun (epoch, b) => (epoch, b.patch))
    consensusState := r.consensusState
    attestations := r.attestations
    blockSlotProofs := blockSlotProofs }

end Signal
