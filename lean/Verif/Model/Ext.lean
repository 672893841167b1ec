import Verif.Model.ConsensusState

/-!
# External code and the types it works on

Everything the repository calls but does not define. Functions are parameters of the model:
theorems quantify over all of them.
-/

namespace Signal

/-- External functions. The length fields are the Rust return types (`[u8; 32]`, `[u8; 48]`). -/
structure Ext where
  /-- `sha2::Sha256` digest of the concatenated updates. -/
  sha256 : Bytes → Bytes
  sha256_length : ∀ b, (sha256 b).length = 32
  /-- Largest `Vec::with_capacity` request for stack nodes the allocator grants; larger ones abort
  (capacity overflow / out of memory). -/
  stackCapacity : Nat
  /-- `usize` modulus of the target: `2^32` on the riscv32 guest, `2^64` on the host. -/
  usizeMod : Nat
  /-- `PublicKey::serialize`: the compressed form of a public key (keys are represented by their
  uncompressed bytes). -/
  pkSerialize : Bytes → Bytes
  pkSerialize_length : ∀ k, (pkSerialize k).length = 48
  /-- `swap_or_not_shuffle::shuffle_list(indices, rounds, seed, false)`. -/
  shuffleList : List Nat → Nat → Bytes → Option (List Nat)
  /-- `AggregateSignature::eth_fast_aggregate_verify(signature, message, pubkeys)`. -/
  fastAggregateVerify : Bytes → Bytes → List Bytes → Bool
  /-- `ChainSpec::compute_domain(Domain::BeaconAttester, fork_version, genesis_validators_root)`. -/
  computeDomain : Bytes → Root → Bytes
  /-- `sorted_unstable_by_key(|v| v.1)` on pairs: some ordering of the entries by their second component. -/
  sortByEpoch : List (Nat × Nat) → List (Nat × Nat)
  sortByEpoch_perm : ∀ l, (sortByEpoch l).Perm l
  sortByEpoch_sorted : ∀ l, (sortByEpoch l).Pairwise (fun a b => a.2 ≤ b.2)

/-- `beacon_types::Fork`. -/
structure Fork where
  previousVersion : Bytes
  currentVersion : Bytes
  epoch : Nat
  deriving Repr, DecidableEq

/-- lighthouse `Fork::get_fork_version`. -/
def Fork.versionAt (f : Fork) (epoch : Nat) : Bytes :=
  if epoch < f.epoch then f.previousVersion else f.currentVersion

/-- `beacon_types::AttestationData`. -/
structure AttestationData where
  slot : Nat
  index : Nat
  beaconBlockRoot : Root
  source : Checkpoint
  target : Checkpoint
  deriving Repr, DecidableEq

/-- `beacon_types::AttestationElectra`. The signature is its byte encoding. -/
structure AttestationElectra where
  aggregationBits : List Bool
  data : AttestationData
  committeeBits : List Bool
  signature : Bytes
  deriving Repr, DecidableEq

/-- `beacon_types::AttestationBase`, the form before Electra. -/
structure AttestationBase where
  aggregationBits : List Bool
  data : AttestationData
  signature : Bytes
  deriving Repr, DecidableEq

/-- `beacon_types::Attestation`. -/
inductive Attestation where
  | base (a : AttestationBase)
  | electra (a : AttestationElectra)
  deriving Repr, DecidableEq

/-- `Attestation::data`. -/
def Attestation.data : Attestation → AttestationData
  | .base a => a.data
  | .electra a => a.data

/-- The part of `beacon_types::ChainSpec` and of the `EthSpec` constants that is used. -/
structure ChainSpec where
  slotsPerEpoch : Nat
  epochsPerHistoricalVector : Nat
  farFutureEpoch : Nat
  effectiveBalanceIncrement : Nat
  minActivationBalance : Nat
  maxSeedLookahead : Nat
  minSeedLookahead : Nat
  shuffleRoundCount : Nat
  minPerEpochChurnLimitElectra : Nat
  churnLimitQuotient : Nat
  maxCommitteesPerSlot : Nat
  targetCommitteeSize : Nat
  /-- `get_domain_constant(Domain::BeaconAttester)`, 4 bytes little-endian. -/
  domainBeaconAttester : Bytes
  /-- `fork_name_at_epoch`; fork names are ordered and numbered
  (Base 0, Altair 1, Bellatrix 2, Capella 3, Deneb 4, Electra 5, Fulu 6). -/
  forkNameAtEpoch : Nat → Nat
  /-- `fork_at_epoch`. -/
  forkAtEpoch : Nat → Fork
  /-- `SignedRoot::signing_root` of attestation data under a domain. -/
  signingRoot : AttestationData → Bytes → Root

/-- lighthouse `Slot::epoch` (`safe_div(slots_per_epoch).expect(..)`; division by zero aborts). -/
def slotEpoch {ε : Type} (spec : ChainSpec) (slot : Nat) : Res ε Nat :=
  if spec.slotsPerEpoch = 0 then .panic else .ok (slot / spec.slotsPerEpoch)

/-- lighthouse `ChainSpec::compute_activation_exit_epoch`:
`epoch.safe_add(1)?.safe_add(self.max_seed_lookahead)`. -/
def ChainSpec.computeActivationExitEpoch (spec : ChainSpec) (epoch : Nat) : Res ArithError Nat := do
  let e ← safeAdd epoch 1
  safeAdd e spec.maxSeedLookahead

/-- lighthouse `ChainSpec::get_domain(epoch, Domain::BeaconAttester, fork, root)`. -/
def getDomain (X : Ext) (epoch : Nat) (fork : Fork) (genesisValidatorsRoot : Root) : Bytes :=
  X.computeDomain (fork.versionAt epoch) genesisValidatorsRoot

end Signal
