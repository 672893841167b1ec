import Verif.Model.Program

/-!
# Model of the beacon client (host/src/beacon_client.rs)

The client as a function of what comes back over HTTP: one reply for each request. The answers of the node that the other models take as
given (`Program.World`) are made of such replies here.
-/

namespace Signal.Client

/-- The identifiers of blocks and states that the programs use. -/
inductive Id where
  | head
  | slot (n : Nat)
  | root (r : Root)
  deriving Repr, DecidableEq

/-- The requests (the paths of host/src/beacon_client.rs:221, 237, 250, 269). -/
inductive Request where
  | header (id : Id)
  | block (id : Id)
  | state (id : Id)
  | finality (id : Id)
  deriving Repr, DecidableEq

/-- What comes of a request: the URL cannot be formed, nothing comes back (no connection, timeout, failing middleware), or a response
with a status and a body. Redirects have been followed. A body that breaks off is one that does not decode. -/
inductive Reply where
  | badUrl
  | noResponse
  | response (status : Nat) (body : Bytes)
  deriving Repr, DecidableEq

/-- `Error` (host/src/beacon_client.rs:35-46), without the variant of SSZ errors, which these functions do not make. `http` carries the `status()` of the error, which is there only if the error was made by
`error_for_status`. -/
inductive ClientError where
  | url
  | http (status : Option Nat)
  | middleware
  | versionMismatch
  deriving Repr, DecidableEq

/-- The JSON decoders (external). `stateAs v` decodes the field `data` as a state of version `v`, `version` the field `version`;
versions are numbered from 0 (Phase0) to 6 (Fulu), and the names of `ethereum_consensus::Fork` and of the host's `Version` are taken to
be the same. A block comes with the header of the same root. -/
structure Decoders (σ : Type) where
  header : Bytes → Option (Root × Spec.Header)
  block : Bytes → Option (Spec.Header × Block)
  version : Bytes → Option Nat
  stateAs : Nat → Bytes → Option σ
  /-- previous justified, current justified, finalized -/
  finality : Bytes → Option (Checkpoint × Checkpoint × Checkpoint)

/-- reqwest `Response::error_for_status`: client and server errors. -/
def isErrorStatus (status : Nat) : Bool := decide (400 ≤ status ∧ status ≤ 599)

/-- `get_json` (host/src/beacon_client.rs:206-211). -/
def getJson {α : Type} (decode : Bytes → Option α) : Reply → Res ClientError α
  | .badUrl => .err .url
  | .noResponse => .err .middleware
  | .response status body =>
    if isErrorStatus status then .err (.http (some status))
    else match decode body with
      | none => .err (.http none)
      | some a => .ok a

/-- The match on `NOT_FOUND` (host/src/beacon_client.rs:222-229, 238-245). -/
def foundOr {α : Type} : Res ClientError α → Res ClientError (Option α)
  | .ok a => .ok (some a)
  | .err (.http (some 404)) => .ok none
  | .err e => .err e
  | .panic => .panic

variable {σ : Type} (D : Decoders σ) (node : Request → Reply)

/-- `get_block_header` (host/src/beacon_client.rs:217-230) through `ChainReader` (host/src/beacon_client.rs:283-289): the `root` of the
response is not used. -/
def getBlockHeader (id : Id) : Res ClientError (Option Spec.Header) := do
  let resp ← foundOr (getJson D.header (node (.header id)))
  return resp.map Prod.snd

/-- `get_block` (host/src/beacon_client.rs:236-246). -/
def getBlock (id : Id) : Res ClientError (Option (Spec.Header × Block)) :=
  foundOr (getJson D.block (node (.block id)))

/-- The decoder of states (host/src/beacon_state.rs:713-742): the newest version that fits. -/
def decodeState (body : Bytes) : Option (Nat × σ) :=
  [6, 5, 4, 3, 2, 1, 0].findSome? (fun v => (D.stateAs v body).map (fun s => (v, s)))

/-- The decoder of a `VersionedResponse` (host/src/beacon_client.rs:88-93). -/
def decodeVersioned (body : Bytes) : Option (Nat × Nat × σ) :=
  match D.version body, decodeState D body with
  | some version, some (v, s) => some (version, v, s)
  | _, _ => none

/-- `get_beacon_state` (host/src/beacon_client.rs:249-262). -/
def getBeaconState (id : Id) : Res ClientError σ :=
  match getJson (decodeVersioned D) (node (.state id)) with
  | .ok (version, v, s) => if version ≠ v then .err .versionMismatch else .ok s
  | .err e => .err e
  | .panic => .panic

/-- `get_consensus_state` (host/src/beacon_client.rs:265-273, 295-301). -/
def getConsensusState (id : Id) : Res ClientError ConsensusState := do
  let (_, currentJustified, finalized) ← getJson D.finality (node (.finality id))
  ConsensusState.new currentJustified finalized

/-- The finalized epoch of the head, as `build-input` asks for it (host/src/bin/zkasper_cli.rs:236-240). -/
def finalizedEpochOfHead : Res ClientError Nat := do
  let (_, _, finalized) ← getJson D.finality (node (.finality .head))
  return finalized.epoch

/-- The `anyhow` error that the readers make of the client's. -/
def asHost {α : Type} (r : Res ClientError α) : Res HostError α := r.mapErr (fun _ => .node)

/-- The replies of the node during the parts of one call of `prepare_input`; a node may answer differently from part to part. -/
structure Replies where
  boundary : Request → Reply
  find : Request → Reply
  walk : Request → Reply
  blocks : Request → Reply
  headers : Request → Reply

/-- The answers that `prepare_input` works with, made of the replies of the node (host/src/bin/zkasper_cli.rs:379-402). -/
def world (D : Decoders HostState) (r : Replies) (provider : Nat → Res ProviderError HostState) (genesisRoot : Res ProviderError Root)
    (decompress : Bytes → Option Bytes) : Program.World where
  provider := provider
  genesisRoot := genesisRoot
  boundaryBlock slot := do
    let block ← asHost (getBlock D r.boundary (.slot slot))
    return block.map Prod.fst
  find slot := asHost (getConsensusState D r.find (.slot slot))
  walk slot := asHost (getConsensusState D r.walk (.slot slot))
  getBlock slot := do
    let block ← asHost (getBlock D r.blocks (.slot slot))
    return block.map Prod.snd
  headers root := asHost (getBlockHeader D r.headers (.root root))
  decompress := decompress

/-- The replies of the node, and the answers of the state provider and of the decompression, during one pass of `build-input`. -/
structure NodePass where
  head : Request → Reply
  replies : Replies
  provider : Nat → Res ProviderError HostState
  genesisRoot : Res ProviderError Root
  decompress : Bytes → Option Bytes

/-- A pass of the loop of `build-input` (host/src/bin/zkasper_cli.rs:234-240) against a node. -/
def NodePass.pass (D : Decoders HostState) (n : NodePass) : Program.Pass where
  head := asHost (finalizedEpochOfHead D n.head)
  world := world D n.replies n.provider n.genesisRoot n.decompress

/-- The answer to `get_beacon_state` that the persistent provider uses (host/src/state_provider/persistant_api_provider.rs:57-60). -/
def apiAnswer (slot : Nat) : Option σ :=
  match getBeaconState D node (.slot slot) with
  | .ok s => some s
  | _ => none

end Signal.Client
