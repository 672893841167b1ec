import Verif.Model.HostSearch

/-!
# Model of the input builder of the command line program (host/src/bin/zkasper_cli.rs:230-299, 372-415)
-/

namespace Signal

/-- Why `prepare_input` fails. The program uses `anyhow`; the texts are not modelled. -/
inductive CliError where
  | boundary
  | host (e : HostError)
  | preflight (e : VerifyError)
  deriving Repr, DecidableEq

/-- `prepare_input` (host/src/bin/zkasper_cli.rs:372-415): the pre state, the post state and the finalized slot of the
input it builds. `boundaryRoot` is the root of the block at the epoch boundary (lines 379-391). `reader` is the reader
of the preflight for a trusted checkpoint; its consensus state and attestations are the ones that
`HostInputReader::new` has found (host/src/input_reader/host_input_reader.rs:200-215). Not modelled: the construction of
the input from the recorded requests (`to_input`) and its serialization. -/
def prepareInput (X : Ext) (cfg : Config) (spe : Nat) (ask : StateAnswers)
    (getBlock : Nat → Res HostError (Option Block)) (boundaryRoot : Nat → Option Root) (reader : Checkpoint → Reader)
    (finalizedEpoch bound : Nat) : Option (Res CliError (ConsensusState × ConsensusState × Nat)) :=
  match boundaryRoot finalizedEpoch with
  | none => some (.err .boundary)
  | some root =>
    let trusted : Checkpoint := ⟨finalizedEpoch, root⟩
    match hostSearch spe ask ask getBlock trusted bound with
    | none => none
    | some .panic => some .panic
    | some (.err e) => some (.err (.host e))
    | some (.ok (state, _, _, attestations)) =>
      match verify X cfg { reader trusted with consensusState := .ok state, attestations := .ok attestations } with
      | .panic => some .panic
      | .err e => some (.err (.preflight e))
      | .ok (post, slot) => some (.ok (state, post, slot))

/-- The loop of `BuildInput` in continuous mode (host/src/bin/zkasper_cli.rs:234-299): the pre state, post state and
slot of the journal of each round, up to the first round that fails or does not end. Waiting for the chain to make
progress (lines 236-251) is not modelled. -/
def buildInputs (X : Ext) (cfg : Config) (spe : Nat) (ask : StateAnswers)
    (getBlock : Nat → Res HostError (Option Block)) (boundaryRoot : Nat → Option Root) (reader : Checkpoint → Reader)
    (bound : Nat) : (rounds finalizedEpoch : Nat) → List (ConsensusState × ConsensusState × Nat)
  | 0, _ => []
  | rounds + 1, finalizedEpoch =>
    match prepareInput X cfg spe ask getBlock boundaryRoot reader finalizedEpoch bound with
    | some (.ok (pre, post, slot)) =>
      (pre, post, slot) :: buildInputs X cfg spe ask getBlock boundaryRoot reader bound rounds post.finalized.epoch
    | _ => []

end Signal
