import Verif.Model.Gindices
import Verif.Model.Preflight

/-!
# Model of the registration of paths with the proof builder
(ssz-multiproofs/src/builder.rs:33-75) and of the paths that the host registers
-/

namespace Signal
open Gen

/-- A `Path` of `ssz_rs`: fields and places, at the end maybe `PathElement::Length`. -/
inductive ReqPath where
  | part (path : List PathElem)
  | lengthOf (path : List PathElem)
  deriving Repr, DecidableEq

/-- The type at the end of a path. -/
def typeAt : Schema → List PathElem → Option Schema
  | s, [] => some s
  | s, p :: ps => match step s p with
    | some (_, _, s') => typeAt s' ps
    | none => none

/-- `T::generalized_index` of `ssz_rs` (external, called in ssz-multiproofs/src/builder.rs:56), by the SSZ specification: the length of
a list is the right child of the list. `none` for an error. -/
def reqIndex (s : Schema) : ReqPath → Option Nat
  | .part path => gindex s path
  | .lengthOf path => match typeAt s path with
    | some (.list _ _) => (gindex s path).map (fun g => 2 * g + 1)
    | _ => none

/-- `MultiproofBuilder` (ssz-multiproofs/src/builder.rs:33-36). -/
structure ProofBuilder where
  gindices : OSet
  deriving Repr, DecidableEq

namespace ProofBuilder

/-- `new`, `default` (ssz-multiproofs/src/builder.rs:38-49). -/
def new : ProofBuilder := ⟨[]⟩

/-- `with_path` (ssz-multiproofs/src/builder.rs:54-58). -/
def withPath {ε : Type} (b : ProofBuilder) (s : Schema) (q : ReqPath) : Res ε ProofBuilder := do
  let g ← expect (reqIndex s q)
  return ⟨b.gindices.insert g⟩

/-- `with_gindex` (ssz-multiproofs/src/builder.rs:62-65). -/
def withGindex (b : ProofBuilder) (g : Nat) : ProofBuilder := ⟨b.gindices.insert g⟩

/-- `with_gindices` (ssz-multiproofs/src/builder.rs:68-74). -/
def withGindices (b : ProofBuilder) (gs : List Nat) : ProofBuilder := ⟨b.gindices.extend gs⟩

/-- `build` (ssz-multiproofs/src/builder.rs:78-121). -/
def build (b : ProofBuilder) (X : Ext) (order : List Nat → List Nat) (T : Spec.Tree) : Res ProofError Multiproof :=
  Signal.build X order b.gindices T

end ProofBuilder

/-- One call on the builder. -/
inductive Registration where
  | path (s : Schema) (q : ReqPath)
  | gindex (g : Nat)
  | gindices (gs : List Nat)

/-- The calls one after the other. -/
def ProofBuilder.register {ε : Type} : List Registration → ProofBuilder → Res ε ProofBuilder
  | [], b => .ok b
  | .path s q :: rs, b => do
    let b ← b.withPath s q
    register rs b
  | .gindex g :: rs, b => register rs (b.withGindex g)
  | .gindices gs :: rs, b => register rs (b.withGindices gs)

/-! ## The paths of the host -/

/-- The block's state root (host/src/input_reader/preflight_input_reader.rs:70-71). -/
def blockRegistrations : List Registration := [.path headerSchema (.part [.field "state_root"])]

/-- `build_state_multiproof` (host/src/input_reader/preflight_input_reader.rs:257-273). -/
def stateRegistrations (s : Schema) : List Registration :=
  [.path s (.part [.field "genesis_validators_root"]), .path s (.part [.field "slot"]), .path s (.part [.field "fork", .field "previous_version"]),
   .path s (.part [.field "fork", .field "current_version"]), .path s (.part [.field "fork", .field "epoch"]), .path s (.part [.field "validators"]),
   .path s (.part [.field "finalized_checkpoint", .field "epoch"]), .path s (.part [.field "earliest_exit_epoch"]),
   .path s (.part [.field "earliest_consolidation_epoch"])]

/-- One turn of the loop over the validators (host/src/input_reader/preflight_input_reader.rs:102-114). -/
def validatorRegistrations (trustedEpoch : Nat) (v : Spec.Validator) (i : Nat) : List Registration :=
  if v.exitEpoch ≤ trustedEpoch then [.path registrySchema (.part [.index i, .field "exit_epoch"])]
  else [.path registrySchema (.part [.index i, .field "public_key", .index 0]), .path registrySchema (.part [.index i, .field "public_key", .index 47]),
    .path registrySchema (.part [.index i, .field "effective_balance"]), .path registrySchema (.part [.index i, .field "slashed"]),
    .path registrySchema (.part [.index i, .field "activation_eligibility_epoch"]), .path registrySchema (.part [.index i, .field "activation_epoch"]),
    .path registrySchema (.part [.index i, .field "exit_epoch"])]

/-- The registry (host/src/input_reader/preflight_input_reader.rs:97-125). -/
def registryRegistrations (trustedEpoch : Nat) (validators : List Spec.Validator) : List Registration :=
  .path registrySchema (.lengthOf []) :: validators.zipIdx.flatMap (fun (v, i) => validatorRegistrations trustedEpoch v i)

/-- The slot of a block (host/src/input_reader/preflight_input_reader.rs:168-169). -/
def slotRegistrations : List Registration := [.path headerSchema (.part [.field "slot"])]

/-- The type of a state: `BeaconState::Electra` or `BeaconState::Fulu` (host/src/input_reader/preflight_input_reader.rs:77-79). -/
def schemaOf (s : Spec.BeaconState) : Schema := stateSchema (if s.fulu then Spec.fuluFields else Spec.electraFields)

/-- A proof for registered paths. -/
def proofFor (X : Ext) (order : List Nat → List Nat) (rs : List Registration) (T : Spec.Tree) : Res PreflightError Multiproof := do
  let b ← ProofBuilder.register rs .new
  (b.build X order T).mapErr PreflightError.proof

/-- The proof of the slot of one block, by paths (host/src/input_reader/preflight_input_reader.rs:158-174). -/
def slotProofByPath (X : Ext) (order : List Nat → List Nat) (r : HostReader) (root : Root) : Res PreflightError Multiproof := do
  let header ← (r.headers root).mapErr PreflightError.host
  let header ← okOr .blockNotFound header
  let proof ← proofFor X order slotRegistrations header.tree
  (proof.verify X root).mapErr PreflightError.proof
  return proof

/-- `to_input` (host/src/input_reader/preflight_input_reader.rs:63-186), by paths. -/
def toInputByPath (X : Ext) (order : List Nat → List Nat) (r : HostReader) (trusted : Checkpoint) (log : PreflightLog) :
    Res PreflightError GuestInput := do
  let trustedState ← (stateAtCheckpoint X (hostStateOps X) r.spec.slotsPerEpoch r.provider trusted).mapErr
    PreflightError.provider
  let stateRoot := trustedState.beacon.tree.root X
  let block := { trustedState.latestBlockHeader with stateRoot := stateRoot }
  let beaconBlock ← proofFor X order blockRegistrations block.tree
  (beaconBlock.verify X trusted.root).mapErr PreflightError.proof
  let beaconState ← proofFor X order (stateRegistrations (schemaOf trustedState.beacon)) trustedState.beacon.tree
  (beaconState.verify X stateRoot).mapErr PreflightError.proof
  let validators := trustedState.beacon.validators
  let active ← (r.activeValidators trusted.epoch).mapErr PreflightError.host
  let publicKeys ← collectKeys r.decompress trusted.epoch validators.zipIdx active
  let activeValidators ← proofFor X order (registryRegistrations trusted.epoch validators) (Spec.registryTree validators)
  (activeValidators.verify X ((Spec.registryTree validators).root X)).mapErr PreflightError.proof
  let builders ← mixPatches r log.mixEpochs []
  let builders ← exitPatches r trusted.epoch validators log.validatorEpochs builders
  let blockSlotProofs ← mapRes (slotProofByPath X order r) log.blockReads
  return {
    beaconBlock := beaconBlock
    beaconState := beaconState
    activeValidators := activeValidators
    publicKeys := publicKeys
    patches := builders.map (fun (epoch, b) => (epoch, b.patch))
    consensusState := r.consensusState
    attestations := r.attestations
    blockSlotProofs := blockSlotProofs }

end Signal
