import Verif.Model.ConsensusState

/-!
# Model of core/src/abi.rs, of the ABI functions of core/src/consensus_state.rs and of the stdin frame

The Solidity ABI encoding of the structs of core/src/abi.rs:20-35 is static: one 32-byte word per
field, in order. `alloy-sol-types` 1.3.0 is external; its behaviour for these types (words are
read in sequence, too short input is an error, trailing bytes and the high bytes of a
`uint64` word are ignored by the non-validating `abi_decode`) is taken as described here.
-/

namespace Signal.Abi

/-- Error of `alloy_sol_types` decoding. -/
inductive AbiError where
  | overrun
  | custom (e : ConsensusError)
  deriving Repr, DecidableEq

/-- ABI word of a `uint64`: big-endian, left padded to 32 bytes (external `alloy_sol_types`). -/
def encodeU64 (n : Nat) : Bytes := List.replicate 24 0 ++ beBytes 8 n

/-- Non-validating read of a `uint64` word: the low 8 bytes (external `alloy_sol_types`). -/
def decodeU64 (w : Bytes) : Nat := ofBE (w.drop 24)

/-- Take the next 32-byte word, `Overrun` error if there is none (external `alloy_sol_types`). -/
def nextWord (data : Bytes) : Res AbiError (Bytes × Bytes) :=
  if 32 ≤ data.length then .ok (data.take 32, data.drop 32) else .err .overrun

/-- `Checkpoint` (core/src/abi.rs:21-24) and its conversion (38-54): epoch word, then root. -/
def encodeCheckpoint (c : Checkpoint) : Bytes := encodeU64 c.epoch ++ c.root

/-- Decoding of `Checkpoint` (core/src/abi.rs:21-24, 47-54). -/
def decodeCheckpoint (data : Bytes) : Res AbiError (Checkpoint × Bytes) := do
  let (w, data) ← nextWord data
  let (r, data) ← nextWord data
  return (⟨decodeU64 w, r⟩, data)

/-- `State` (core/src/abi.rs:26-29, 57-64): justified first, then finalized. -/
def encodeState (s : ConsensusState) : Bytes :=
  encodeCheckpoint s.currentJustified ++ encodeCheckpoint s.finalized

/-- `abi_encoded_size` (core/src/consensus_state.rs:201-204). -/
def abiEncodedSize : Nat := 128

/-- `ConsensusState::abi_encode` (core/src/consensus_state.rs:208-211): asserts validity. -/
def abiEncode (s : ConsensusState) : Res Empty Bytes := do
  assert s.isValid
  return encodeState s

/-- `TryFrom<State> for ConsensusState` (core/src/abi.rs:67-75): `new` asserts validity *before*
the `ensure!`. -/
def tryFromState (cj fin : Checkpoint) : Res ConsensusError ConsensusState := do
  let state ← ConsensusState.new cj fin
  ensure state.isValid ConsensusError.invalidState
  return state

/-- `ConsensusState::abi_decode` (core/src/consensus_state.rs:215-220). -/
def abiDecode (data : Bytes) : Res AbiError ConsensusState := do
  let (cj, data) ← decodeCheckpoint data
  let (fin, _) ← decodeCheckpoint data
  (tryFromState cj fin).mapErr AbiError.custom

/-- `Journal::new(..).encode()` (core/src/abi.rs:31-35, 77-92). No validity assertion here. -/
def encodeJournal (pre post : ConsensusState) (finalizedSlot : Nat) : Bytes :=
  encodeState pre ++ encodeState post ++ encodeU64 finalizedSlot

/-- How the CLI reads a journal back (host/src/bin/zkasper_cli.rs:444-449): split after the size of a
state and decode both parts. `split_at` aborts if the journal is too short. -/
def cliReadJournal (journal : Bytes) : Res AbiError (ConsensusState × ConsensusState) := do
  assert (decide (abiEncodedSize ≤ journal.length))
  let pre ← abiDecode (journal.take abiEncodedSize)
  let post ← abiDecode (journal.drop abiEncodedSize)
  return (pre, post)

end Signal.Abi

namespace Signal.Frame

/-- `encode_input_stdin` (host/src/bin/zkasper_cli.rs:461-476): `len as u32` truncates. -/
def encodeInputStdin (input : Bytes) : Bytes := leBytes 4 (input.length % 2 ^ 32) ++ input

/-- `env::read_frame` as used by methods/guest/src/lib.rs:22 (external `risc0_zkvm`): a `u32`
little-endian length, then that many bytes; `none` when the stream is too short. -/
def readFrame (stream : Bytes) : Option Bytes :=
  if stream.length < 4 then none
  else
    let len := ofLE (stream.take 4)
    let rest := stream.drop 4
    if len ≤ rest.length then some (rest.take len) else none

end Signal.Frame
