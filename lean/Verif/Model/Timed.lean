import Verif.Model.Program

/-!
# Model of the preflight with answers that change from request to request
(host/src/bin/zkasper_cli.rs:372-415, host/src/input_reader/host_input_reader.rs:120-228,
host/src/input_reader/preflight_input_reader.rs, host/src/state_provider/cache_provider.rs)

`Model/Program.lean` takes what the state provider and the node answer during one call of `prepare_input` as functions that do not
change. Here every request has its own answer, and the caches of the program are part of the model: the states by slot
(`CacheStateProvider`), the active validators by epoch (`HostInputReader`) and the record of the preflight.
-/

namespace Signal.Timed
open Wire Program

/-! ## Computations that ask

`verify` (core/src/verify.rs) is written again over a reader whose answers depend on, and change, a state. `C78_unchanging` in
`Props/Timed.lean` shows that the whole of `prepare_input` is that of `Model/Program.lean` if the answers do not change. A run that fails ends the
call of `prepare_input`, so the state after a failure is not kept. -/

/-- A computation with a state. -/
abbrev Ask (S ε α : Type) := StateT S (Res ε) α

section
variable {S ε ε' α : Type}

/-- A step that asks for nothing. -/
def lift (r : Res ε α) : Ask S ε α := fun s => r >>= fun a => .ok (a, s)

/-- `Result::map_err` / the conversion done by `?`. -/
def mapErr (f : ε → ε') (m : Ask S ε α) : Ask S ε' α := fun s => (m s).mapErr f

end

/-- The required methods of `InputReader` (core/src/input_reader.rs:24-58), with a state. -/
structure Reader (S : Type) where
  spec : ChainSpec
  genesisValidatorsRoot : Ask S ReaderError Root
  fork : Nat → Ask S ReaderError Fork
  activeValidators : Nat → Ask S ReaderError (List (Nat × ValidatorInfo))
  randaoMix : Nat → Nat → Ask S ReaderError (Option Root)
  attestations : Res ReaderError (List Attestation)
  consensusState : Res ReaderError ConsensusState
  slotForBlock : Root → Ask S ReaderError Nat

section
variable {S : Type}

/-- `InputReader::get_randao_mix` (core/src/input_reader.rs:61-69). -/
def Reader.getRandaoMix (X : Ext) (R : Reader S) (stateEpoch epoch : Nat) : Ask S ReaderError Root := do
  let idx ← lift ((safeRem (epoch % X.usizeMod) R.spec.epochsPerHistoricalVector).mapErr ReaderError.arith)
  let mix ← R.randaoMix stateEpoch (idx % 2 ^ 32)
  lift (expect mix)

/-- `InputReader::get_seed` (core/src/input_reader.rs:72-86). -/
def Reader.getSeed (X : Ext) (R : Reader S) (epoch : Nat) (domain : Bytes) : Ask S ReaderError Bytes := do
  let a ← lift ((safeAdd epoch R.spec.epochsPerHistoricalVector).mapErr ReaderError.arith)
  let b ← lift ((safeSub a R.spec.minSeedLookahead).mapErr ReaderError.arith)
  let i ← lift ((safeSub b 1).mapErr ReaderError.arith)
  let mix ← R.getRandaoMix X epoch i
  return X.sha256 (domain ++ leBytes 8 epoch ++ mix)

/-- `compute_committees` (core/src/verify.rs:272-298). -/
def computeCommittees (X : Ext) (R : Reader S) (active : OMap ValidatorInfo) (epoch : Nat) : Ask S VerifyError CommitteeCache := do
  let seed ← mapErr (fun _ => VerifyError.stateReader) (R.getSeed X epoch R.spec.domainBeaconAttester)
  let cps ← lift (committeeCountPerSlot R.spec active.keys.length)
  lift ((CommitteeCache.initialized X R.spec seed active.keys cps epoch).mapErr VerifyError.committeeCache)

/-- `is_valid_indexed_attestation` (core/src/verify.rs:237-269). -/
def isValidIndexedAttestation (X : Ext) (R : Reader S) (validators : List ValidatorInfo) (data : AttestationData) (signature : Bytes) :
    Ask S VerifyError Bool :=
  if validators = [] then lift (.err .emptyAttestation)
  else do
    let fork ← mapErr (fun _ => VerifyError.stateReader) (R.fork data.target.epoch)
    let root ← mapErr (fun _ => VerifyError.stateReader) R.genesisValidatorsRoot
    return X.fastAggregateVerify signature (R.spec.signingRoot data (getDomain X data.target.epoch fork root)) (validators.map (·.pubkey))

/-- `process_attestation` (core/src/verify.rs:194-234). -/
def processAttestation (X : Ext) (R : Reader S) (active : OMap ValidatorInfo) (committees : CommitteeCache) :
    Attestation → Ask S VerifyError OSet
  | .base _ => lift .panic
  | .electra a => do
    let e ← lift (slotEpoch R.spec a.data.slot)
    lift (assert (decide (a.data.target.epoch = e)))
    lift (assert (decide (a.data.index = 0)))
    let indices ← lift ((getAttestingIndices X R.spec a committees).mapErr VerifyError.committeeCache)
    let validators ← lift (mapRes (fun i => okOr (VerifyError.missingValidatorInfo i) (active.get? i)) indices)
    let valid ← isValidIndexedAttestation X R validators a.data a.signature
    lift (ensure valid VerifyError.invalidSignature)
    return indices

/-- The inner loop of `verify` collecting participants (core/src/verify.rs:115-120). -/
def collectParticipants (X : Ext) (R : Reader S) (active : OMap ValidatorInfo) (committees : CommitteeCache) :
    List Attestation → OSet → Ask S VerifyError OSet
  | [], acc => lift (.ok acc)
  | a :: as, acc => do
    let indices ← processAttestation X R active committees a
    collectParticipants X R active committees as (OSet.extend acc indices)

/-- One iteration of the loop of `verify` (core/src/verify.rs:92-150). -/
def processGroup (X : Ext) (cfg : Config) (R : Reader S) (trusted : Checkpoint) (state : ConsensusState) (link : Link)
    (attestations : List Attestation) : Ask S VerifyError ConsensusState := do
  lift (ensure (decide (state.finalized = trusted)) (VerifyError.invalidFinalization state.finalized))
  lift (validateLink cfg R.spec trusted link)
  let list ← mapErr (fun _ => VerifyError.stateReader) (R.activeValidators link.target.epoch)
  let committees ← computeCommittees X R (OMap.ofList list) link.target.epoch
  let participating ← collectParticipants X R (OMap.ofList list) committees attestations []
  let validators ← lift (mapRes (fun i => expect ((OMap.ofList list).get? i)) participating)
  let targetBalance ← lift ((getTotalBalance R.spec (validators.filter (fun v => !v.slashed))).mapErr VerifyError.arith)
  let totalActive ← lift ((getTotalBalance R.spec (OMap.ofList list).values).mapErr VerifyError.arith)
  lift (checkThreshold cfg targetBalance totalActive)
  let t3 ← lift ((safeMul targetBalance 3).mapErr VerifyError.arith)
  let t2 ← lift ((safeMul totalActive 2).mapErr VerifyError.arith)
  lift (assert (decide (t2 ≤ t3)))
  let state' ← lift ((state.stateTransition link).mapErr VerifyError.consensus)
  lift (assert state'.isValid)
  return state'

/-- The loop of `verify` over the groups (core/src/verify.rs:87-151). -/
def verifyLoop (X : Ext) (cfg : Config) (R : Reader S) (trusted : Checkpoint) :
    ConsensusState → List (Link × List Attestation) → Ask S VerifyError ConsensusState
  | state, [] => lift (.ok state)
  | state, (link, atts) :: gs => do
    let state' ← processGroup X cfg R trusted state link atts
    verifyLoop X cfg R trusted state' gs

/-- `verify` (core/src/verify.rs:78-164). -/
def verify (X : Ext) (cfg : Config) (R : Reader S) : Ask S VerifyError (ConsensusState × Nat) := do
  let state ← lift R.consensusState.unwrap
  let atts ← lift R.attestations.unwrap
  let state' ← verifyLoop X cfg R state.finalized state (chunkBy attLink atts)
  lift (ensure (decide (state'.finalized ≠ state.finalized)) (VerifyError.invalidFinalization state'.finalized))
  let slot ← mapErr (fun _ => VerifyError.stateReader) (R.slotForBlock state'.finalized.root)
  return (state', slot)

end

/-! ## The outside and the session -/

/-- What the beacon node and the state provider answer during one call of `prepare_input`, request by request: `state k slot` is the
answer of the provider behind the cache to its `k`-th request, if that is for `slot`; `header k root` the answer to the `k`-th
`get_block_header`. `pick k` is the entry that the `k`-th iteration over the cache yields first. The requests before the preflight are as
in `Program.World`: none is repeated within its function. -/
structure Outside where
  state : Nat → Nat → Res ProviderError HostState
  header : Nat → Root → Res HostError (Option Spec.Header)
  pick : Nat → Nat
  boundaryBlock : Nat → Res HostError (Option Spec.Header)
  find : StateAnswers
  walk : StateAnswers
  getBlock : Nat → Res HostError (Option Block)
  decompress : Bytes → Option Bytes

/-- What the program keeps while it prepares an input: the states (`CacheStateProvider::cache`,
host/src/state_provider/cache_provider.rs:22-25), the active validators (`HostInputReader::validator_cache`,
host/src/input_reader/host_input_reader.rs:75) and the record of the preflight. The other fields count the requests. -/
structure Session where
  cache : StateCache HostState
  validators : List (Nat × List (Nat × ValidatorInfo))
  log : PreflightLog
  stateRequests : Nat
  headerRequests : Nat
  picks : Nat

/-- At the start nothing is kept. The commands in a loop pass a copy of a provider that is never asked itself
(host/src/bin/zkasper_cli.rs:188, 256, 335), so this is so in every round. -/
def Session.empty : Session := ⟨[], [], .empty, 0, 0, 0⟩

/-- `CacheStateProvider::state_at_slot` (host/src/state_provider/cache_provider.rs:51-60). -/
def stateAtSlot (o : Outside) (slot : Nat) : Ask Session ProviderError HostState := fun s =>
  match cacheStateAtSlot (o.state s.stateRequests) s.cache slot with
  | (.ok state, cache, asked) =>
    .ok (state, { s with cache := cache, stateRequests := s.stateRequests + if asked then 1 else 0 })
  | (.err e, _, _) => .err e
  | (.panic, _, _) => .panic

/-- `CacheStateProvider::genesis_validators_root` (host/src/state_provider/cache_provider.rs:42-48). -/
def genesisRoot (o : Outside) : Ask Session ProviderError Root := fun s =>
  match s.cache[o.pick s.picks % s.cache.length]? with
  | some (_, state) => .ok (state.beacon.genesisValidatorsRoot, { s with picks := s.picks + 1 })
  | none => (do
      let state ← stateAtSlot o 0
      return state.beacon.genesisValidatorsRoot : Ask Session ProviderError Root) s

/-- `StateProvider::state_at_epoch` (host/src/state_provider.rs:89-92). -/
def stateAtEpoch (spe : Nat) (o : Outside) (epoch : Nat) : Ask Session ProviderError HostState := stateAtSlot o (satMul epoch spe)

/-- `StateProvider::state_at_epoch_boundary` (host/src/state_provider.rs:54-70). -/
def stateAtEpochBoundary (spe : Nat) (o : Outside) (epoch : Nat) : Ask Session ProviderError HostState := do
  let state ← stateAtEpoch spe o epoch
  if state.latestBlockHeader.slot = state.beacon.slot then lift (.ok state)
  else stateAtSlot o state.latestBlockHeader.slot

/-- `StateProvider::state_at_checkpoint` (host/src/state_provider.rs:73-86). -/
def stateAtCheckpoint (X : Ext) (spe : Nat) (o : Outside) (c : Checkpoint) : Ask Session ProviderError HostState := do
  let state ← stateAtEpochBoundary spe o c.epoch
  let block := { state.latestBlockHeader with stateRoot := state.beacon.tree.root X }
  lift (ensure (decide (c.root = block.tree.root X)) .invalidCheckpoint)
  return state

/-! ## The host's reader -/

/-- `HostInputReader` (host/src/input_reader/host_input_reader.rs:71-79) after its construction, apart from what the session keeps. -/
structure Host where
  spec : ChainSpec
  outside : Outside
  consensusState : ConsensusState
  attestations : List Attestation

namespace Host

/-- `state` (host/src/input_reader/host_input_reader.rs:126-128). -/
def state (r : Host) (epoch : Nat) : Ask Session HostError HostState :=
  mapErr (fun _ => .provider) (stateAtEpoch r.spec.slotsPerEpoch r.outside epoch)

/-- `active_validators` (host/src/input_reader/host_input_reader.rs:172-198). -/
def activeValidators (r : Host) (epoch : Nat) : Ask Session HostError (List (Nat × ValidatorInfo)) := fun s =>
  match s.validators.lookup epoch with
  | some l => .ok (l, s)
  | none => (do
      let state ← r.state epoch
      let l ← lift (mapRes (fun (v, i) => do
          let info ← toValidatorInfo r.outside.decompress v
          return (i, info))
        (state.beacon.validators.zipIdx.filter
          (fun (v, _) => decide (v.activationEpoch ≤ epoch) && decide (epoch < v.exitEpoch))))
      modify (fun s => { s with validators := s.validators ++ [(epoch, l)] })
      return l : Ask Session HostError (List (Nat × ValidatorInfo))) s

/-- `randao_mix` (host/src/input_reader/host_input_reader.rs:200-208). -/
def randaoMix (r : Host) (epoch idx : Nat) : Ask Session HostError (Option Root) := do
  let state ← r.state epoch
  return state.randaoMixes[idx]?

/-- `fork` (host/src/input_reader/host_input_reader.rs:163-170). -/
def fork (r : Host) (epoch : Nat) : Ask Session HostError Fork := do
  let state ← r.state epoch
  return state.beacon.fork

/-- `get_block_header` of the node, one request. -/
def header (o : Outside) (root : Root) : Ask Session HostError (Option Spec.Header) := fun s =>
  o.header s.headerRequests root >>= fun h => .ok (h, { s with headerRequests := s.headerRequests + 1 })

/-- `slot_for_block` (host/src/input_reader/host_input_reader.rs:218-223). -/
def slotForBlock (r : Host) (root : Root) : Ask Session HostError Nat := do
  let header ← header r.outside root
  let header ← lift (okOr .blockMissing header)
  return header.slot

/-- `PreflightInputReader` as an `InputReader` (host/src/input_reader/preflight_input_reader.rs:197-255): the answers of the wrapped
reader (host/src/input_reader/host_input_reader.rs:151-224), recorded once they are there. -/
def recording (trustedEpoch : Nat) (r : Host) : Reader Session where
  spec := r.spec
  genesisValidatorsRoot := mapErr (fun _ => .other) (genesisRoot r.outside)
  fork epoch := mapErr (fun _ => .other) (r.fork epoch)
  activeValidators epoch := do
    lift (assert (decide (trustedEpoch ≤ epoch)))
    let l ← mapErr (fun _ => .other) (r.activeValidators epoch)
    modify (fun s => { s with log := ⟨s.log.validatorEpochs.insert epoch, s.log.mixEpochs, s.log.blockReads⟩ })
    return l
  randaoMix epoch idx := do
    let mix ← mapErr (fun _ => .other) (r.randaoMix epoch idx)
    let mix ← lift (expect mix)
    modify (fun s => { s with log := ⟨s.log.validatorEpochs,
      s.log.mixEpochs.insert epoch (((s.log.mixEpochs.get? epoch).getD []).insert idx), s.log.blockReads⟩ })
    return some mix
  attestations := .ok r.attestations
  consensusState := .ok r.consensusState
  slotForBlock root := do
    let slot ← mapErr (fun _ => .other) (r.slotForBlock root)
    modify (fun s => { s with log := ⟨s.log.validatorEpochs, s.log.mixEpochs,
      if root ∈ s.log.blockReads then s.log.blockReads else s.log.blockReads ++ [root]⟩ })
    return slot

end Host

/-! ## The input -/

/-- `patch_builder` (host/src/input_reader/preflight_input_reader.rs:188-194). -/
def newPatchBuilder (r : Host) (epoch : Nat) : Ask Session PreflightError PatchBuilder := do
  let state ← mapErr PreflightError.provider (stateAtEpoch r.spec.slotsPerEpoch r.outside epoch)
  return ⟨state, .empty⟩

/-- The patches with randao mixes (host/src/input_reader/preflight_input_reader.rs:137-144). -/
def mixPatches (r : Host) : List (Nat × OSet) → OMap PatchBuilder → Ask Session PreflightError (OMap PatchBuilder)
  | [], m => lift (.ok m)
  | (epoch, indices) :: l, m => do
    let fresh ← newPatchBuilder r epoch
    let b ← lift (((m.get? epoch).getD fresh).randaoMixes indices)
    mixPatches r l (m.insert epoch b)

/-- The patches with exits (host/src/input_reader/preflight_input_reader.rs:145-152). -/
def exitPatches (r : Host) (trustedEpoch : Nat) (validators : List Spec.Validator) :
    List Nat → OMap PatchBuilder → Ask Session PreflightError (OMap PatchBuilder)
  | [], m => lift (.ok m)
  | epoch :: l, m =>
    if epoch ≠ trustedEpoch then do
      let fresh ← newPatchBuilder r epoch
      exitPatches r trustedEpoch validators l (m.insert epoch (((m.get? epoch).getD fresh).validatorDiff validators))
    else exitPatches r trustedEpoch validators l m

/-- The proof of the slot of one block (host/src/input_reader/preflight_input_reader.rs:158-174): the header is asked for again. -/
def slotProof (X : Ext) (order : List Nat → List Nat) (r : Host) (root : Root) : Ask Session PreflightError Multiproof := do
  let header ← mapErr PreflightError.host (Host.header r.outside root)
  let header ← lift (okOr .blockNotFound header)
  let proof ← lift ((build X order [8] header.tree).mapErr PreflightError.proof)
  lift ((proof.verify X root).mapErr PreflightError.proof)
  return proof

/-- The loop over the recorded roots (host/src/input_reader/preflight_input_reader.rs:158-174). -/
def slotProofs (X : Ext) (order : List Nat → List Nat) (r : Host) : List Root → Ask Session PreflightError (List Multiproof)
  | [] => lift (.ok [])
  | root :: l => do
    let p ← slotProof X order r root
    let ps ← slotProofs X order r l
    return p :: ps

/-- `to_input` (host/src/input_reader/preflight_input_reader.rs:63-186). -/
def toInput (X : Ext) (order : List Nat → List Nat) (r : Host) (trusted : Checkpoint) : Ask Session PreflightError GuestInput := do
  let trustedState ← mapErr PreflightError.provider (stateAtCheckpoint X r.spec.slotsPerEpoch r.outside trusted)
  let stateRoot := trustedState.beacon.tree.root X
  let block := { trustedState.latestBlockHeader with stateRoot := stateRoot }
  let beaconBlock ← lift ((build X order [11] block.tree).mapErr PreflightError.proof)
  lift ((beaconBlock.verify X trusted.root).mapErr PreflightError.proof)
  let beaconState ← lift ((build X order [65, 66, 75, 95, 97, 168, 268, 269, 270] trustedState.beacon.tree).mapErr
    PreflightError.proof)
  lift ((beaconState.verify X stateRoot).mapErr PreflightError.proof)
  let validators := trustedState.beacon.validators
  let active ← mapErr PreflightError.host (r.activeValidators trusted.epoch)
  let publicKeys ← lift (collectKeys r.outside.decompress trusted.epoch validators.zipIdx active)
  let activeValidators ← lift ((build X order (registryRequest trusted.epoch validators)
    (Spec.registryTree validators)).mapErr PreflightError.proof)
  lift ((activeValidators.verify X ((Spec.registryTree validators).root X)).mapErr PreflightError.proof)
  let log ← (fun s => .ok (s.log, { s with log := { s.log with mixEpochs := [] } }) : Ask Session PreflightError PreflightLog)
  let builders ← mixPatches r log.mixEpochs []
  let log' ← (fun s => .ok (s.log, { s with log := { s.log with validatorEpochs := [] } }) : Ask Session PreflightError PreflightLog)
  let builders ← exitPatches r trusted.epoch validators log'.validatorEpochs builders
  let log'' ← (fun s => .ok (s.log, s) : Ask Session PreflightError PreflightLog)
  let blockSlotProofs ← slotProofs X order r log''.blockReads
  return {
    beaconBlock := beaconBlock
    beaconState := beaconState
    activeValidators := activeValidators
    publicKeys := publicKeys
    patches := builders.map (fun (epoch, b) => (epoch, b.patch))
    consensusState := r.consensusState
    attestations := r.attestations
    blockSlotProofs := blockSlotProofs }

/-- The second half of `prepare_input` (host/src/bin/zkasper_cli.rs:401-414) without the serialization. -/
def preflight (X : Ext) (order : List Nat → List Nat) (cfg : Config) (r : Host) (trusted : Checkpoint) :
    Ask Session PreflightRunError (GuestInput × ConsensusState × ConsensusState × Nat) := do
  let (post, slot) ← mapErr PreflightRunError.verify (verify X cfg (r.recording trusted.epoch))
  let input ← mapErr PreflightRunError.input (toInput X order r trusted)
  return (input, input.consensusState, post, slot)

/-! ## The program -/

/-- The trusted checkpoint (host/src/bin/zkasper_cli.rs:379-391). -/
def trustedCheckpoint (X : Ext) (spec : ChainSpec) (o : Outside) (finalizedEpoch : Nat) : Ask Session PrepareError Checkpoint := do
  let trustedState ← mapErr PrepareError.provider (stateAtEpochBoundary spec.slotsPerEpoch o finalizedEpoch)
  let block ← lift ((o.boundaryBlock trustedState.latestBlockHeader.slot).mapErr PrepareError.host)
  let block ← lift (okOr PrepareError.blockNotFound block)
  lift (assert (decide (block.stateRoot = trustedState.beacon.tree.root X)))
  return ⟨finalizedEpoch, block.tree.root X⟩

/-- The reader that `HostInputReader::new` makes (host/src/input_reader/host_input_reader.rs:81-118). Its provider is a copy of the one
asked before, with what that has cached. -/
def Outside.reader (o : Outside) (spec : ChainSpec) (state : ConsensusState) (attestations : List Attestation) : Host :=
  ⟨spec, o, state, attestations⟩

/-- `prepare_input` (host/src/bin/zkasper_cli.rs:372-415). `none` means that the bound on the requests of a search was reached. -/
def prepare (W : WireExt) (X : Ext) (order : List Nat → List Nat) (spec : ChainSpec) (cfg : Config) (bound : Nat) (o : Outside)
    (finalizedEpoch : Nat) : Option (Res PrepareError Prepared) :=
  match trustedCheckpoint X spec o finalizedEpoch .empty with
  | .panic => some .panic
  | .err e => some (.err e)
  | .ok (trusted, s) =>
    match hostSearch spec.slotsPerEpoch o.find o.walk o.getBlock trusted bound with
    | none => none
    | some .panic => some .panic
    | some (.err e) => some (.err (.host e))
    | some (.ok (state, _, _, attestations)) => some (do
      let ((input, pre, post, slot), _) ← (preflight X order cfg (o.reader spec state attestations) trusted s).mapErr .preflight
      return ⟨encodeInput W input, pre, post, slot⟩)

/-- `Command::Verify` (host/src/bin/zkasper_cli.rs:186-211): the post state it reports. -/
def verifyCommand (W : WireExt) (Xh Xg : Ext) (order : List Nat → List Nat) (spec : ChainSpec) (cfg : Config) (bound : Nat)
    (r0vm : Bool) (o : Outside) (trustedEpoch : Nat) : Option (Res VerifyCommandError ConsensusState) :=
  (prepare W Xh order spec cfg bound o trustedEpoch).map (fun r => do
    let p ← r.mapErr .prepare
    (runVerify W Xh Xg spec cfg p.pre p.inputBytes r0vm).mapErr .run)

/-- One pass of the loop of `build-input`. -/
structure Pass where
  head : Res HostError Nat
  outside : Outside

/-- The loop of `Command::BuildInput` (host/src/bin/zkasper_cli.rs:230-299), see `Program.buildLoop`. -/
def buildLoop (W : WireExt) (X : Ext) (order : List Nat → List Nat) (spec : ChainSpec) (cfg : Config) (bound : Nat) (continuous : Bool) :
    (finalizedEpoch : Nat) → List Pass → List FileOp × Outcome
  | _, [] => ([], .running)
  | epoch, pass :: passes =>
    match pass.head with
    | .panic => ([], .aborted)
    | .err _ => ([], .failed)
    | .ok head =>
      if head < (epoch + 1) % U64 then buildLoop W X order spec cfg bound continuous epoch passes
      else
        match prepare W X order spec cfg bound pass.outside epoch with
        | none => ([], .running)
        | some .panic => ([], .aborted)
        | some (.err _) => ([], .failed)
        | some (.ok p) =>
          if continuous then
            let r := buildLoop W X order spec cfg bound continuous p.post.finalized.epoch passes
            (roundOps epoch p ++ r.1, r.2)
          else (roundOps epoch p, .done)

/-- The loop of `run_sync` (host/src/bin/zkasper_cli.rs:331-369), see `Program.syncLoop`. -/
def syncLoop (W : WireExt) (Xh Xg : Ext) (order : List Nat → List Nat) (spec : ChainSpec) (cfg : Config) (bound : Nat) (r0vm : Bool) :
    (state : ConsensusState) → List Outside → List LogLine × Outcome
  | _, [] => ([], .running)
  | state, o :: os =>
    match prepare W Xh order spec cfg bound o state.finalized.epoch with
    | none => ([], .running)
    | some .panic => ([], .aborted)
    | some (.err _) => ([], .failed)
    | some (.ok p) =>
      match runVerify W Xh Xg spec cfg p.pre p.inputBytes r0vm with
      | .panic => ([], .aborted)
      | .ok new =>
        let r := syncLoop W Xh Xg order spec cfg bound r0vm p.post os
        (⟨state, p.post, if new ≠ p.post then .mismatch p.post new else .ok⟩ :: r.1, r.2)
      | .err e =>
        let r := syncLoop W Xh Xg order spec cfg bound r0vm p.post os
        (⟨state, p.post, .failed e⟩ :: r.1, r.2)

end Signal.Timed
