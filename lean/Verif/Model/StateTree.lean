import Verif.Model.Preflight
import Verif.Spec.StateTree

/-!
# Model of what the host reads of a stored state

`hash_tree_root` of `ssz_rs` (external) is the root of the tree of `Spec/StateTree`.
-/

namespace Signal.StateSsz

/-- A number (host/src/beacon_state.rs:483-674). -/
def num : Option Val → Nat
  | some (.bytes b) => ofLE b
  | _ => 0

/-- Bytes (host/src/beacon_state.rs:483-674). -/
def raw : Option Val → Bytes
  | some (.bytes b) => b
  | _ => []

/-- A truth value (host/src/beacon_state.rs:554-563). -/
def flag : Option Val → Bool
  | some (.bool b) => b
  | _ => false

/-- The elements of a list or the fields of a container (host/src/beacon_state.rs:483-674). -/
def items : Option Val → List Val
  | some (.seq l) => l
  | _ => []

/-- A validator of the registry (host/src/beacon_state.rs:554-563). -/
def validatorOf (v : Val) : Spec.Validator where
  pubkey := raw (items (some v))[0]?
  withdrawalCredentials := raw (items (some v))[1]?
  effectiveBalance := num (items (some v))[2]?
  slashed := flag (items (some v))[3]?
  activationEligibilityEpoch := num (items (some v))[4]?
  activationEpoch := num (items (some v))[5]?
  exitEpoch := num (items (some v))[6]?
  withdrawableEpoch := num (items (some v))[7]?

/-- The tree of a field, by its name. -/
def State.fieldTree (s : State) (name : String) : Spec.Tree :=
  match s.variant.fields.find? (·.1 == name), s.field name with
  | some f, some v => Spec.valTree f.2 v
  | _, _ => .leaf zeroRoot

/-- What the host uses of a state since Electra (host/src/beacon_state.rs:483-674, host/src/input_reader/host_input_reader.rs:120-228). -/
def State.host (s : State) : HostState where
  beacon := {
    fulu := s.variant == .fulu
    genesisValidatorsRoot := raw (s.field "genesis_validators_root")
    slot := num (s.field "slot")
    fork := {
      previousVersion := raw (items (s.field "fork"))[0]?
      currentVersion := raw (items (s.field "fork"))[1]?
      epoch := num (items (s.field "fork"))[2]? }
    validators := (items (s.field "validators")).map validatorOf
    finalizedEpoch := num (items (s.field "finalized_checkpoint"))[0]?
    finalizedRoot := raw (items (s.field "finalized_checkpoint"))[1]?
    earliestExitEpoch := num (s.field "earliest_exit_epoch")
    earliestConsolidationEpoch := num (s.field "earliest_consolidation_epoch")
    other := s.fieldTree }
  latestBlockHeader := {
    slot := num (items (s.field "latest_block_header"))[0]?
    proposerIndex := num (items (s.field "latest_block_header"))[1]?
    parentRoot := raw (items (s.field "latest_block_header"))[2]?
    stateRoot := raw (items (s.field "latest_block_header"))[3]?
    bodyRoot := raw (items (s.field "latest_block_header"))[4]? }
  randaoMixes := (items (s.field "randao_mixes")).map fun v => raw (some v)

/-- What the providers use of states (host/src/state_provider.rs:42-95). The order in which the forks are tried is a parameter. -/
def stateOps (X : Ext) (order : List Variant) : StateOps State where
  slot s := s.host.beacon.slot
  genesisValidatorsRoot s := s.host.beacon.genesisValidatorsRoot
  latestBlockHeader s := s.host.latestBlockHeader
  hashTreeRoot s := (Spec.stateTree s).root X
  serialize s := (encodeState s).getD []
  deserialize := decodeState order

end Signal.StateSsz
