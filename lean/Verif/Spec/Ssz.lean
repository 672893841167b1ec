import Verif.Spec.Merkle

/-!
# Independent specification: SSZ Merkle trees of block headers, beacon states and the registry

After the SSZ specification: a container is the tree of its fields padded with zero chunks to a power of
two; a list is the tree of its elements padded to the limit, next to its length.
-/

namespace Signal.Spec

/-- The perfect tree of depth `d` whose `i`-th subtree at depth `d` is `f i`. -/
def perfect : (d : Nat) → (Nat → Tree) → Tree
  | 0, f => f 0
  | d + 1, f => .node (perfect d f) (perfect d (fun i => f (2 ^ d + i)))

/-- A container with at most `2^d` fields. -/
def container (d : Nat) (fields : List Tree) : Tree :=
  perfect d (fun i => fields.getD i (.leaf zeroRoot))

/-- SSZ chunk of a `uint64`. -/
def u64Chunk (n : Nat) : Bytes := leBytes 8 n ++ List.replicate 24 0

/-- SSZ chunk of a `boolean`. -/
def boolChunk (b : Bool) : Bytes := (if b then 1 else 0) :: List.replicate 31 0

/-- SSZ chunk of a 4-byte version. -/
def versionChunk (v : Bytes) : Bytes := v ++ List.replicate 28 0

/-- `Validator` of the consensus specification; `pubkey` is the compressed key of 48 bytes. -/
structure Validator where
  pubkey : Bytes
  withdrawalCredentials : Bytes
  effectiveBalance : Nat
  slashed : Bool
  activationEligibilityEpoch : Nat
  activationEpoch : Nat
  exitEpoch : Nat
  withdrawableEpoch : Nat

namespace Validator

/-- The values have the widths of their SSZ types. -/
structure WF (v : Validator) : Prop where
  pubkey : v.pubkey.length = 48
  withdrawalCredentials : v.withdrawalCredentials.length = 32
  effectiveBalance : v.effectiveBalance < 2 ^ 64
  activationEligibilityEpoch : v.activationEligibilityEpoch < 2 ^ 64
  activationEpoch : v.activationEpoch < 2 ^ 64
  exitEpoch : v.exitEpoch < 2 ^ 64

/-- Tree of a 48-byte key: two chunks, the second one padded. -/
def pubkeyTree (pk : Bytes) : Tree :=
  .node (.leaf (pk.take 32)) (.leaf (pk.drop 32 ++ List.replicate 16 0))

/-- Tree of a validator. -/
def tree (v : Validator) : Tree :=
  container 3 [
    pubkeyTree v.pubkey,
    .leaf v.withdrawalCredentials,
    .leaf (u64Chunk v.effectiveBalance),
    .leaf (boolChunk v.slashed),
    .leaf (u64Chunk v.activationEligibilityEpoch),
    .leaf (u64Chunk v.activationEpoch),
    .leaf (u64Chunk v.exitEpoch),
    .leaf (u64Chunk v.withdrawableEpoch)]

/-- Activity by the consensus specification. -/
def activeAt (v : Validator) (epoch : Nat) : Prop := v.activationEpoch ≤ epoch ∧ epoch < v.exitEpoch

end Validator

/-- Tree of the validator registry, a list with limit `2^40`. -/
def registryTree (vs : List Validator) : Tree :=
  .node (perfect 40 (fun i => match vs[i]? with
    | some v => v.tree
    | none => .leaf zeroRoot)) (.leaf (u64Chunk vs.length))

/-- The registry is a possible one. -/
structure RegistryWF (vs : List Validator) : Prop where
  limit : vs.length ≤ 2 ^ 40
  wf : ∀ v ∈ vs, v.WF

/-- Field names of the Electra beacon state in order. -/
def electraFields : List String := [
  "genesis_time", "genesis_validators_root", "slot", "fork", "latest_block_header", "block_roots",
  "state_roots", "historical_roots", "eth1_data", "eth1_data_votes", "eth1_deposit_index",
  "validators", "balances", "randao_mixes", "slashings", "previous_epoch_participation",
  "current_epoch_participation", "justification_bits", "previous_justified_checkpoint",
  "current_justified_checkpoint", "finalized_checkpoint", "inactivity_scores",
  "current_sync_committee", "next_sync_committee", "latest_execution_payload_header",
  "next_withdrawal_index", "next_withdrawal_validator_index", "historical_summaries",
  "deposit_requests_start_index", "deposit_balance_to_consume", "exit_balance_to_consume",
  "earliest_exit_epoch", "consolidation_balance_to_consume", "earliest_consolidation_epoch",
  "pending_deposits", "pending_partial_withdrawals", "pending_consolidations"]

/-- Field names of the Fulu beacon state in order. -/
def fuluFields : List String := electraFields ++ ["proposer_lookahead"]

/-- A beacon state: the fields that are used and the trees of all others. -/
structure BeaconState where
  fulu : Bool
  genesisValidatorsRoot : Root
  slot : Nat
  fork : Fork
  validators : List Validator
  finalizedEpoch : Nat
  finalizedRoot : Root
  earliestExitEpoch : Nat
  earliestConsolidationEpoch : Nat
  /-- Tree of any other field, by name. -/
  other : String → Tree

namespace BeaconState

/-- Tree of a field. -/
def field (s : BeaconState) (name : String) : Tree :=
  if name = "genesis_validators_root" then .leaf s.genesisValidatorsRoot
  else if name = "slot" then .leaf (u64Chunk s.slot)
  else if name = "fork" then
    container 2 [.leaf (versionChunk s.fork.previousVersion), .leaf (versionChunk s.fork.currentVersion),
      .leaf (u64Chunk s.fork.epoch)]
  else if name = "validators" then registryTree s.validators
  else if name = "finalized_checkpoint" then
    container 1 [.leaf (u64Chunk s.finalizedEpoch), .leaf s.finalizedRoot]
  else if name = "earliest_exit_epoch" then .leaf (u64Chunk s.earliestExitEpoch)
  else if name = "earliest_consolidation_epoch" then .leaf (u64Chunk s.earliestConsolidationEpoch)
  else s.other name

/-- Tree of the state: 37 (Electra) or 38 (Fulu) fields, padded to 64. -/
def tree (s : BeaconState) : Tree :=
  container 6 ((if s.fulu then fuluFields else electraFields).map s.field)

/-- The values have the widths of their SSZ types. -/
structure WF (s : BeaconState) : Prop where
  genesisValidatorsRoot : s.genesisValidatorsRoot.length = 32
  slot : s.slot < 2 ^ 64
  previousVersion : s.fork.previousVersion.length = 4
  currentVersion : s.fork.currentVersion.length = 4
  forkEpoch : s.fork.epoch < 2 ^ 64
  validators : RegistryWF s.validators
  finalizedEpoch : s.finalizedEpoch < 2 ^ 64
  finalizedRoot : s.finalizedRoot.length = 32
  earliestExitEpoch : s.earliestExitEpoch < 2 ^ 64
  earliestConsolidationEpoch : s.earliestConsolidationEpoch < 2 ^ 64
  other : ∀ name, (s.other name).Chunked

end BeaconState

/-- `BeaconBlockHeader`. -/
structure Header where
  slot : Nat
  proposerIndex : Nat
  parentRoot : Root
  stateRoot : Root
  bodyRoot : Root

namespace Header

/-- Tree of a header. Its root is the block root. -/
def tree (h : Header) : Tree :=
  container 3 [.leaf (u64Chunk h.slot), .leaf (u64Chunk h.proposerIndex), .leaf h.parentRoot,
    .leaf h.stateRoot, .leaf h.bodyRoot]

/-- The values have the widths of their SSZ types. -/
structure WF (h : Header) : Prop where
  slot : h.slot < 2 ^ 64
  parentRoot : h.parentRoot.length = 32
  stateRoot : h.stateRoot.length = 32
  bodyRoot : h.bodyRoot.length = 32

end Header

end Signal.Spec
