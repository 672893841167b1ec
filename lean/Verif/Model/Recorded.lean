import Verif.Model.Preflight

/-!
# Model of the preflight run: `verify` over the recording reader, then the input
(host/src/bin/zkasper_cli.rs:401-408, host/src/input_reader/preflight_input_reader.rs:197-255)
-/

namespace Signal

/-- The answers of `PreflightInputReader` (host/src/input_reader/preflight_input_reader.rs:197-255): those of the wrapped
reader, except that it aborts on validators before the trusted epoch and on a missing mix. What it records is
modelled separately (`preflightQuery`, `verifyQueries`). -/
def preflightReader (trustedEpoch : Nat) (R : Reader) : Reader where
  spec := R.spec
  genesisValidatorsRoot := R.genesisValidatorsRoot
  fork := R.fork
  activeValidators epoch := do
    assert (decide (trustedEpoch ≤ epoch))
    R.activeValidators epoch
  randaoMix epoch idx := do
    let mix ← R.randaoMix epoch idx
    let mix ← expect mix
    return some mix
  attestations := R.attestations
  consensusState := R.consensusState
  slotForBlock := R.slotForBlock

/-- The index `get_seed` and `get_randao_mix` ask for (core/src/input_reader.rs:61-78), for an epoch where the checked
arithmetic succeeds. -/
def seedMixIndex (X : Ext) (spec : ChainSpec) (epoch : Nat) : Nat :=
  (epoch + spec.epochsPerHistoricalVector - spec.minSeedLookahead - 1) % X.usizeMod %
    spec.epochsPerHistoricalVector % 2 ^ 32

/-- What a successful `verify` asks of the recording reader, in order: for each group of votes the active validators
(core/src/verify.rs:107) and the mix for the seed (line 111, 281, core/src/input_reader.rs:78), and at the end the
slot of the finalized block (line 161). -/
def verifyQueries (X : Ext) (spec : ChainSpec) (attestations : List Attestation) (finalizedRoot : Root) : List Query :=
  (chunkBy attLink attestations).flatMap (fun (link, _) =>
    [.activeValidators link.target.epoch, .randaoMix link.target.epoch (seedMixIndex X spec link.target.epoch)]) ++
  [.slotForBlock finalizedRoot]

/-- Why the preflight fails (the program uses `anyhow`). -/
inductive PreflightRunError where
  | verify (e : VerifyError)
  | host (e : HostError)
  | input (e : PreflightError)
  deriving Repr, DecidableEq

/-- The second half of `prepare_input` (host/src/bin/zkasper_cli.rs:401-414) without the serialization: verify with the
recording reader, then make the input of what it has recorded. -/
def preflight (X : Ext) (order : List Nat → List Nat) (cfg : Config) (r : HostReader) (trusted : Checkpoint) :
    Res PreflightRunError (GuestInput × ConsensusState × ConsensusState × Nat) := do
  let (post, slot) ← (verify X cfg (preflightReader trusted.epoch r.toReader)).mapErr PreflightRunError.verify
  let log ← (preflightRun trusted.epoch r .empty
    (verifyQueries X r.spec r.attestations post.finalized.root)).mapErr PreflightRunError.host
  let input ← (toInput X order r trusted log).mapErr PreflightRunError.input
  return (input, input.consensusState, post, slot)

end Signal
