import Verif.Model.Ext

/-!
# Model of the signing root of an attestation

The message whose signature `is_valid_indexed_attestation` checks: `get_domain` and `signing_root` (called at core/src/verify.rs:252-262).
Both are code of external crates (lighthouse `types`, `tree_hash`), written out here as programs over a hash function.
-/

namespace Signal.Signing

variable (hash : Bytes → Bytes)

/-- `ethereum_hashing::ZERO_HASHES`: the root of an empty tree of the given depth (external; called by core/src/verify.rs:262). -/
def zeroHash : Nat → Bytes
  | 0 => zeroRoot
  | d + 1 => hash (zeroHash d ++ zeroHash d)

/-- `tree_hash::MerkleHasher`: the root of the tree of depth `d` over some leaves, filled up with empty trees (external; called by
core/src/verify.rs:262). The hasher works leaf by leaf; this is the same computation from the root down. -/
def merkleize : (d : Nat) → List Bytes → Bytes
  | 0, leaves => leaves.headD zeroRoot
  | d + 1, leaves =>
    if leaves = [] then zeroHash hash (d + 1)
    else hash (merkleize d (leaves.take (2 ^ d)) ++ merkleize d (leaves.drop (2 ^ d)))

/-- Fill a value of at most 32 bytes up to a chunk: `tree_hash_root` of basic types (external; called by core/src/verify.rs:262). -/
def chunk (b : Bytes) : Bytes := b ++ List.replicate (32 - b.length) 0

/-- `Checkpoint::tree_hash_root` (external; called by core/src/verify.rs:262). -/
def checkpointRoot (c : Checkpoint) : Root := merkleize hash 1 [chunk (leBytes 8 c.epoch), c.root]

/-- `AttestationData::tree_hash_root` (external; called by core/src/verify.rs:262). -/
def dataRoot (d : AttestationData) : Root :=
  merkleize hash 3 [chunk (leBytes 8 d.slot), chunk (leBytes 8 d.index), d.beaconBlockRoot, checkpointRoot hash d.source,
    checkpointRoot hash d.target]

/-- `SigningData { object_root, domain }.tree_hash_root()` (external; called by core/src/verify.rs:262). -/
def signingData (objectRoot domain : Bytes) : Root := merkleize hash 1 [objectRoot, domain]

/-- `SignedRoot::signing_root` of attestation data (external; called at core/src/verify.rs:262). -/
def signingRoot (d : AttestationData) (domain : Bytes) : Root := signingData hash (dataRoot hash d) domain

/-- `ChainSpec::compute_fork_data_root` (external; called by core/src/verify.rs:252-261). -/
def forkDataRoot (version : Bytes) (genesisValidatorsRoot : Root) : Root :=
  merkleize hash 1 [chunk version, genesisValidatorsRoot]

/-- `ChainSpec::compute_domain` (external; called by core/src/verify.rs:252-261): the four bytes of the domain type and the first 28 of the
root of the fork data. -/
def computeDomain (domainType version : Bytes) (genesisValidatorsRoot : Root) : Bytes :=
  domainType ++ (forkDataRoot hash version genesisValidatorsRoot).take 28

/-- `Domain::BeaconAttester` as four little-endian bytes (external; named at core/src/verify.rs:254). -/
def beaconAttester : Bytes := [1, 0, 0, 0]

end Signal.Signing
