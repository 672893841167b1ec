import Verif.Spec.Ssz
import Verif.Spec.Slashing
import Verif.Spec.Chain
import Verif.Model.Signing

/-!
# Independent specification: what validators sign

After the SSZ specification and `compute_signing_root`, `compute_domain` of the consensus specification.
-/

namespace Signal.Spec

/-- Tree of a `Checkpoint`. -/
def checkpointTree (c : Checkpoint) : Tree := container 1 [.leaf (u64Chunk c.epoch), .leaf c.root]

/-- Tree of `AttestationData`. -/
def dataTree (d : AttestationData) : Tree :=
  container 3 [.leaf (u64Chunk d.slot), .leaf (u64Chunk d.index), .leaf d.beaconBlockRoot, checkpointTree d.source,
    checkpointTree d.target]

/-- Tree of `ForkData`. -/
def forkDataTree (version genesisValidatorsRoot : Bytes) : Tree :=
  container 1 [.leaf (versionChunk version), .leaf genesisValidatorsRoot]

/-- `compute_domain`. -/
def domainOf (X : Ext) (domainType version genesisValidatorsRoot : Bytes) : Bytes :=
  domainType ++ ((forkDataTree version genesisValidatorsRoot).root X).take 28

/-- What a validator may sign: attestation data, or any other object under another domain; always for a fork version and the genesis
validators root of a chain. -/
inductive Duty where
  | vote (data : AttestationData) (version genesisValidatorsRoot : Bytes)
  | other (object : Tree) (domainType version genesisValidatorsRoot : Bytes)

/-- The attestation data has the widths of its type. -/
structure WfVoteData (d : AttestationData) : Prop where
  slot : d.slot < 2 ^ 64
  index : d.index < 2 ^ 64
  block : d.beaconBlockRoot.length = 32
  source : WfCheckpoint d.source
  target : WfCheckpoint d.target

namespace Duty

/-- The values have the widths of their types, and only votes are signed under the attester domain. -/
def WF : Duty → Prop
  | vote d version gvr => WfVoteData d ∧ version.length = 4 ∧ gvr.length = 32
  | other object domainType version gvr =>
    object.Chunked ∧ domainType.length = 4 ∧ domainType ≠ [1, 0, 0, 0] ∧ version.length = 4 ∧ gvr.length = 32

/-- The object signed. -/
def object : Duty → Tree
  | vote d _ _ => dataTree d
  | other object _ _ _ => object

/-- Version and genesis validators root of the chain signed for. -/
def forkData : Duty → Tree
  | vote _ version gvr => forkDataTree version gvr
  | other _ _ version gvr => forkDataTree version gvr

/-- The domain signed under. -/
def domain (X : Ext) : Duty → Bytes
  | vote _ version gvr => domainOf X [1, 0, 0, 0] version gvr
  | other _ domainType version gvr => domainOf X domainType version gvr

/-- `compute_signing_root`: the root of `SigningData`. -/
def message (X : Ext) (x : Duty) : Bytes := (Tree.node x.object (.leaf (x.domain X))).root X

/-- SHA-256 does not confuse the two: no two strings hashed in computing the messages have the same digest, and the fork data have not the same first
28 bytes. -/
structure Distinguished (X : Ext) (x y : Duty) : Prop where
  message : NoCollisionOn X ((Tree.node x.object (.leaf (x.domain X))).hashed X ++ (Tree.node y.object (.leaf (y.domain X))).hashed X)
  fork_data : (x.forkData.root X).take 28 = (y.forkData.root X).take 28 → x.forkData = y.forkData

end Duty

/-- Aggregate signatures cannot be forged: one verifies only if the owner of each key has signed the message. Keys are compared in their
compressed form. -/
def Unforgeable (X : Ext) (signed : Bytes → Bytes → Prop) : Prop :=
  ∀ signature message keys, X.fastAggregateVerify signature message keys = true → ∀ k ∈ keys, signed (X.pkSerialize k) message

/-- The owner of the key has signed nothing but the duties listed. -/
def OnlySigned (X : Ext) (signed : Bytes → Bytes → Prop) (key : Bytes) (duties : List Duty) : Prop :=
  (∀ x ∈ duties, x.WF) ∧ ∀ m, signed key m → ∃ x ∈ duties, m = x.message X

/-- No two of the votes for the same chain are slashable. -/
def NotSlashable (duties : List Duty) : Prop :=
  ∀ d v d' v' g, Duty.vote d v g ∈ duties → Duty.vote d' v' g ∈ duties →
    ¬ Slashable ⟨d.source, d.target⟩ ⟨d'.source, d'.target⟩

/-- The votes of a list of attestations, for a chain with the given genesis validators root. -/
def countedVotes (spec : ChainSpec) (genesisValidatorsRoot : Root) (atts : List Attestation) : List Duty :=
  atts.map (fun a => .vote a.data
    (if a.data.target.epoch < (spec.forkAtEpoch a.data.target.epoch).epoch
      then (spec.forkAtEpoch a.data.target.epoch).previousVersion
      else (spec.forkAtEpoch a.data.target.epoch).currentVersion) genesisValidatorsRoot)

/-- The owner of the key follows the protocol: all they sign are duties without slashable votes, which SHA-256 does not confuse with the
votes given. -/
def FollowsProtocol (X : Ext) (signed : Bytes → Bytes → Prop) (key : Bytes) (votes : List Duty) : Prop :=
  ∃ duties, OnlySigned X signed key duties ∧ NotSlashable duties ∧ ∀ x ∈ duties, ∀ y ∈ votes, Duty.Distinguished X y x

/-- The external functions that make up the message are the programs of `Verif/Model/Signing.lean`. -/
structure RealSigning (X : Ext) (spec : ChainSpec) : Prop where
  domain : ∀ version root, X.computeDomain version root = Signing.computeDomain X.sha256 Signing.beaconAttester version root
  root : ∀ data domain, spec.signingRoot data domain = Signing.signingRoot X.sha256 data domain

end Signal.Spec
