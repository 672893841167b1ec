import Verif.Model.Wire

/-!
# Model of the command line program (host/src/bin/zkasper_cli.rs)

The commands `verify`, `sync` and `build-input` as functions of what the beacon node and the state provider answer, with the files and
the log they write.
-/

namespace Signal.Program
open Wire

/-- What the beacon node and the state provider answer during one call of `prepare_input`. `boundaryBlock` are the answers to the first
`get_block` (host/src/bin/zkasper_cli.rs:381-384): of the block only the header plays a role, a block has the hash tree root of its
header (external). `find`, `walk` and `getBlock` are the answers during `HostInputReader::new`, the others those during the preflight. -/
structure World where
  provider : Nat → Res ProviderError HostState
  genesisRoot : Res ProviderError Root
  boundaryBlock : Nat → Res HostError (Option Spec.Header)
  find : StateAnswers
  walk : StateAnswers
  getBlock : Nat → Res HostError (Option Block)
  headers : Root → Res HostError (Option Spec.Header)
  decompress : Bytes → Option Bytes

/-- Why `prepare_input` fails. The program uses `anyhow`; the texts are not modelled. -/
inductive PrepareError where
  | provider (e : ProviderError)
  | host (e : HostError)
  | blockNotFound
  | preflight (e : PreflightRunError)
  deriving Repr, DecidableEq

/-- The trusted checkpoint (host/src/bin/zkasper_cli.rs:379-391). -/
def trustedCheckpoint (X : Ext) (spec : ChainSpec) (w : World) (finalizedEpoch : Nat) : Res PrepareError Checkpoint := do
  let trustedState ← (stateAtEpochBoundary (hostStateOps X) spec.slotsPerEpoch w.provider finalizedEpoch).mapErr .provider
  let block ← (w.boundaryBlock trustedState.latestBlockHeader.slot).mapErr .host
  let block ← okOr .blockNotFound block
  assert (decide (block.stateRoot = trustedState.beacon.tree.root X))
  return ⟨finalizedEpoch, block.tree.root X⟩

/-- The reader that `HostInputReader::new` makes (host/src/input_reader/host_input_reader.rs:81-118) of the state and the votes it has
found. -/
def World.reader (w : World) (spec : ChainSpec) (state : ConsensusState) (attestations : List Attestation) : HostReader where
  spec := spec
  provider := w.provider
  genesisRoot := w.genesisRoot
  headers := w.headers
  decompress := w.decompress
  consensusState := state
  attestations := attestations

/-- What `prepare_input` returns: the bytes of the input, the pre state, the post state and the finalized slot. -/
structure Prepared where
  inputBytes : Bytes
  pre : ConsensusState
  post : ConsensusState
  finalizedSlot : Nat
  deriving DecidableEq

/-- `prepare_input` (host/src/bin/zkasper_cli.rs:372-415). `none` means that the bound on the requests of a search was reached.
`order` is the iteration order of the hash sets of the proof builder. -/
def prepare (W : WireExt) (X : Ext) (order : List Nat → List Nat) (spec : ChainSpec) (cfg : Config) (bound : Nat) (w : World)
    (finalizedEpoch : Nat) : Option (Res PrepareError Prepared) :=
  match trustedCheckpoint X spec w finalizedEpoch with
  | .panic => some .panic
  | .err e => some (.err e)
  | .ok trusted =>
    match hostSearch spec.slotsPerEpoch w.find w.walk w.getBlock trusted bound with
    | none => none
    | some .panic => some .panic
    | some (.err e) => some (.err (.host e))
    | some (.ok (state, _, _, attestations)) => some (do
      let (input, pre, post, slot) ← (preflight X order cfg (w.reader spec state attestations) trusted).mapErr .preflight
      return ⟨encodeInput W input, pre, post, slot⟩)

/-! ## `verify` -/

/-- Why the command `verify` fails. -/
inductive VerifyCommandError where
  | prepare (e : PrepareError)
  | run (e : RunError)
  deriving Repr, DecidableEq

/-- `Command::Verify` (host/src/bin/zkasper_cli.rs:186-211): the post state it reports. -/
def verifyCommand (W : WireExt) (Xh Xg : Ext) (order : List Nat → List Nat) (spec : ChainSpec) (cfg : Config) (bound : Nat)
    (r0vm : Bool) (w : World) (trustedEpoch : Nat) : Option (Res VerifyCommandError ConsensusState) :=
  (prepare W Xh order spec cfg bound w trustedEpoch).map (fun r => do
    let p ← r.mapErr .prepare
    (runVerify W Xh Xg spec cfg p.pre p.inputBytes r0vm).mapErr .run)

/-! ## `build-input` -/

/-- The files of `build-input` (host/src/bin/zkasper_cli.rs:266-281), by the epoch in their names. -/
inductive FileName where
  | input (epoch : Nat)
  | journal (epoch : Nat)
  deriving Repr, DecidableEq

/-- What the program does to the files: `File::create`, which also empties a file that exists, and `write_all` behind what was written
so far. Creating the directories is left out. -/
inductive FileOp where
  | create (file : FileName)
  | write (file : FileName) (data : Bytes)
  deriving Repr, DecidableEq

/-- The content of the files; `none` if there is no such file. -/
abbrev Files := FileName → Option Bytes

/-- One operation. -/
def FileOp.apply (fs : Files) : FileOp → Files
  | .create f => fun g => if g = f then some [] else fs g
  | .write f data => fun g => if g = f then some ((fs f).getD [] ++ data) else fs g

/-- A sequence of operations. -/
def applyOps (fs : Files) (ops : List FileOp) : Files := ops.foldl FileOp.apply fs

/-- The operations that have been done when the program is killed (or fails to write) after `k` operations and, if the next one writes,
`n` bytes of it. What the operating system has not yet written when the machine itself fails is not modelled. -/
def interrupted (ops : List FileOp) (k n : Nat) : List FileOp :=
  ops.take k ++
    match ops[k]? with
    | some (.write f data) => [.write f (data.take n)]
    | _ => []

/-- The operations of one round (host/src/bin/zkasper_cli.rs:262-289). -/
def roundOps (epoch : Nat) (p : Prepared) : List FileOp :=
  [.create (.input epoch), .create (.journal epoch), .write (.input epoch) (Frame.encodeInputStdin p.inputBytes),
    .write (.journal epoch) (Abi.encodeJournal p.pre p.post p.finalizedSlot)]

/-- One pass of the loop: the finalized epoch of the head, as the node gives it, and the answers after that. -/
structure Pass where
  head : Res HostError Nat
  world : World

/-- How the loop stands. -/
inductive Outcome where
  | running
  | failed
  | aborted
  | done
  deriving Repr, DecidableEq

/-- The loop of `Command::BuildInput` (host/src/bin/zkasper_cli.rs:230-299) for a number of passes: the operations on the files, and how
it stands after that. The sum in the comparison wraps (the type is `u64` and the release profile does not check overflow). -/
def buildLoop (W : WireExt) (X : Ext) (order : List Nat → List Nat) (spec : ChainSpec) (cfg : Config) (bound : Nat) (continuous : Bool) :
    (finalizedEpoch : Nat) → List Pass → List FileOp × Outcome
  | _, [] => ([], .running)
  | epoch, pass :: passes =>
    match pass.head with
    | .panic => ([], .aborted)
    | .err _ => ([], .failed)
    | .ok head =>
      if head < (epoch + 1) % U64 then buildLoop W X order spec cfg bound continuous epoch passes
      else
        match prepare W X order spec cfg bound pass.world epoch with
        | none => ([], .running)
        | some .panic => ([], .aborted)
        | some (.err _) => ([], .failed)
        | some (.ok p) =>
          if continuous then
            let r := buildLoop W X order spec cfg bound continuous p.post.finalized.epoch passes
            (roundOps epoch p ++ r.1, r.2)
          else (roundOps epoch p, .done)

/-! ## `sync` -/

/-- The message of a line of the log (host/src/bin/zkasper_cli.rs:343-357). -/
inductive Message where
  | ok
  | mismatch (expected got : ConsensusState)
  | failed (e : RunError)
  deriving Repr, DecidableEq

/-- A line of the log (host/src/bin/zkasper_cli.rs:490-494). -/
structure LogLine where
  before : ConsensusState
  after : ConsensusState
  message : Message
  deriving Repr, DecidableEq

/-- The loop of `run_sync` (host/src/bin/zkasper_cli.rs:331-369) for a number of passes: the lines of the log, and how it stands after
that. -/
def syncLoop (W : WireExt) (Xh Xg : Ext) (order : List Nat → List Nat) (spec : ChainSpec) (cfg : Config) (bound : Nat) (r0vm : Bool) :
    (state : ConsensusState) → List World → List LogLine × Outcome
  | _, [] => ([], .running)
  | state, w :: ws =>
    match prepare W Xh order spec cfg bound w state.finalized.epoch with
    | none => ([], .running)
    | some .panic => ([], .aborted)
    | some (.err _) => ([], .failed)
    | some (.ok p) =>
      match runVerify W Xh Xg spec cfg p.pre p.inputBytes r0vm with
      | .panic => ([], .aborted)
      | .ok new =>
        let r := syncLoop W Xh Xg order spec cfg bound r0vm p.post ws
        (⟨state, p.post, if new ≠ p.post then .mismatch p.post new else .ok⟩ :: r.1, r.2)
      | .err e =>
        let r := syncLoop W Xh Xg order spec cfg bound r0vm p.post ws
        (⟨state, p.post, .failed e⟩ :: r.1, r.2)

/-- `run_sync` (host/src/bin/zkasper_cli.rs:305-370): `initial` is the answer for the start slot. -/
def runSync (W : WireExt) (Xh Xg : Ext) (order : List Nat → List Nat) (spec : ChainSpec) (cfg : Config) (bound : Nat) (r0vm : Bool)
    (initial : Res HostError ConsensusState) (ws : List World) : List LogLine × Outcome :=
  match initial with
  | .panic => ([], .aborted)
  | .err _ => ([], .failed)
  | .ok state => syncLoop W Xh Xg order spec cfg bound r0vm state ws

end Signal.Program
