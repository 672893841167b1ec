import Verif.Model.GuestReader
import Verif.Model.Recorded

/-!
# Model of the serialized guest input

`bincode::serialize(&input)` (host/src/bin/zkasper_cli.rs:406), `bincode::deserialize` (methods/guest/src/lib.rs:26,
host/src/bin/zkasper_cli.rs:426-427), the derived `Serialize`/`Deserialize` of `GuestInput`
(core/src/input_reader/guest_input_reader.rs:40-83), `Multiproof` (ssz-multiproofs/src/multiproof.rs:34-51),
`StatePatch` (core/src/state_patch.rs:22-28), `ConsensusState` (core/src/consensus_state.rs:26-30) and the helpers of
core/src/serde_utils.rs.

The format is that of the free functions of `bincode` 1.3.3: integers little-endian of fixed width, `usize` and lengths
as `u64`, fields and elements one after the other, no tags; `deserialize` ignores bytes after the value. A decoder takes
the remaining bytes and gives a value and the bytes after it, or `none` for an error. `word` is the number of values of
`usize` on the machine that decodes: `2^64` for the host, `2^32` for the guest; a `usize` or a length that does not fit is
an error (`cast_u64_to_usize` and serde's `usize::deserialize`, both external).
-/

namespace Signal.Wire

/-- The parts of the format that are external and stay abstract. `encodeBits`/`decodeBits` is the serde format of
`BitVec<u32, Lsb0>` of the crate `bitvec` (ssz-multiproofs/src/multiproof.rs:41-45). `encodeAttestation` and
`decodeAttestation` is the SSZ form of `AttestationOnDisk` (core/src/serde_utils.rs:72-96). `keyValid` tells whether
`PublicKey::deserialize_uncompressed` accepts the 96 bytes (core/src/serde_utils.rs:33-40). -/
structure WireExt where
  encodeBits : List Bool → Bytes
  decodeBits : (word : Nat) → Bytes → Option (List Bool × Bytes)
  encodeAttestation : Attestation → Bytes
  decodeAttestation : Bytes → Option Attestation
  keyValid : Bytes → Bool

/-- A decoder: the value and the rest of the bytes, or `none` for an error. -/
def Decoder (α : Type) := Bytes → Option (α × Bytes)

/-- Decoders run one after the other; the first error ends them. -/
instance : Monad Decoder where
  pure a := fun b => some (a, b)
  bind d f := fun b =>
    match d b with
    | none => none
    | some (x, rest) => f x rest

/-- Fail unless the condition holds. -/
def check (c : Bool) : Decoder Unit := fun b => if c then some ((), b) else none

/-! ## Elements of the format (external `bincode` 1.3.3) -/

/-- Take exactly `n` bytes. -/
def take (n : Nat) : Decoder Bytes := fun b => if n ≤ b.length then some (b.take n, b.drop n) else none

/-- `u64`, little-endian. -/
def encodeU64 (n : Nat) : Bytes := leBytes 8 n
/-- `u64`, little-endian. -/
def decodeU64 : Decoder Nat := do return ofLE (← take 8)

/-- `u32`, little-endian. -/
def encodeU32 (n : Nat) : Bytes := leBytes 4 n
/-- `u32`, little-endian. -/
def decodeU32 : Decoder Nat := do return ofLE (← take 4)

/-- `usize`, and the length of a sequence, a map or a byte string: a `u64` that must fit. -/
def decodeUsize (word : Nat) : Decoder Nat := do
  let n ← decodeU64
  check (decide (n < word))
  return n

/-- A byte string: its length, then the bytes. -/
def encodeBytes (x : Bytes) : Bytes := encodeU64 x.length ++ x
/-- A byte string: its length, then the bytes. -/
def decodeBytes (word : Nat) : Decoder Bytes := do
  let n ← decodeUsize word
  take n

/-- `B256`: a byte string; `alloy_primitives` accepts only length 32. -/
def decodeRoot (word : Nat) : Decoder Root := do
  let x ← decodeBytes word
  check (decide (x.length = 32))
  return x

/-- `n` values one after the other. -/
def decodeN {α : Type} (d : Decoder α) : Nat → Decoder (List α)
  | 0 => return []
  | n + 1 => do
    let x ← d
    let xs ← decodeN d n
    return x :: xs

/-- A sequence: the number of elements, then the elements. -/
def encodeSeq {α : Type} (e : α → Bytes) (l : List α) : Bytes := encodeU64 l.length ++ (l.map e).flatten
/-- A sequence: the number of elements, then the elements. -/
def decodeSeq {α : Type} (word : Nat) (d : Decoder α) : Decoder (List α) := do
  let n ← decodeUsize word
  decodeN d n

/-- Key and value of an entry of a map. -/
def decodeEntry {α β : Type} (dk : Decoder α) (dv : Decoder β) : Decoder (α × β) := do
  let k ← dk
  let v ← dv
  return (k, v)

/-- A `BTreeMap`: the number of entries, then key and value of each entry, in the order of the keys. -/
def encodeMap {V : Type} (ek : Nat → Bytes) (ev : V → Bytes) (m : OMap V) : Bytes :=
  encodeSeq (fun p => ek p.1 ++ ev p.2) m
/-- A `BTreeMap`: the entries may come in any order; of several entries with the same key the last remains. -/
def decodeMap {V : Type} (word : Nat) (dk : Decoder Nat) (dv : Decoder V) : Decoder (OMap V) := do
  let l ← decodeSeq word (decodeEntry dk dv)
  return OMap.ofList l

/-! ## The types of the guest input -/

/-- `Multiproof` (ssz-multiproofs/src/multiproof.rs:34-49). -/
def encodeMultiproof (W : WireExt) (p : Multiproof) : Bytes :=
  encodeBytes p.data ++ (W.encodeBits p.valueMask ++ (W.encodeBits p.descriptor ++ encodeU64 p.maxStackDepth))

/-- `Multiproof` (ssz-multiproofs/src/multiproof.rs:34-49). -/
def decodeMultiproof (W : WireExt) (word : Nat) : Decoder Multiproof := do
  let data ← decodeBytes word
  let valueMask ← W.decodeBits word
  let descriptor ← W.decodeBits word
  let maxStackDepth ← decodeUsize word
  return ⟨data, valueMask, descriptor, maxStackDepth⟩

/-- `UncompressedPublicKey` (core/src/serde_utils.rs:33-40): 96 bytes without a length, then the check of the key. -/
def decodeKey (W : WireExt) : Decoder Bytes := do
  let x ← take 96
  check (W.keyValid x)
  return x

/-- `StatePatch` (core/src/state_patch.rs:22-28): `RandaoMixIndex` is `u32`, `ValidatorIndex` is `usize`. -/
def encodePatch (p : StatePatch) : Bytes :=
  encodeMap encodeU32 encodeBytes p.randaoMixes ++ encodeMap encodeU64 encodeU64 p.validatorExits

/-- `StatePatch` (core/src/state_patch.rs:22-28). -/
def decodePatch (word : Nat) : Decoder StatePatch := do
  let mixes ← decodeMap word decodeU32 (decodeRoot word)
  let exits ← decodeMap word (decodeUsize word) decodeU64
  return ⟨mixes, exits⟩

/-- `Checkpoint` (core/src/lib.rs:150-165): epoch, then root. -/
def encodeCheckpoint (c : Checkpoint) : Bytes := encodeU64 c.epoch ++ encodeBytes c.root

/-- `Checkpoint` (core/src/lib.rs:167-181). -/
def decodeCheckpoint (word : Nat) : Decoder Checkpoint := do
  let epoch ← decodeU64
  let root ← decodeRoot word
  return ⟨epoch, root⟩

/-- `ConsensusState` (core/src/consensus_state.rs:26-30). -/
def encodeState (s : ConsensusState) : Bytes :=
  encodeCheckpoint s.currentJustified ++ encodeCheckpoint s.finalized

/-- `ConsensusState` (core/src/consensus_state.rs:26-30): derived, so the validity of the state is not checked. -/
def decodeState (word : Nat) : Decoder ConsensusState := do
  let currentJustified ← decodeCheckpoint word
  let finalized ← decodeCheckpoint word
  return ⟨currentJustified, finalized⟩

/-- `DiskAttestation` (core/src/serde_utils.rs:72-83): the SSZ bytes as a byte string. -/
def encodeDiskAttestation (W : WireExt) (a : Attestation) : Bytes := encodeBytes (W.encodeAttestation a)

/-- The value of a computation that may fail. -/
def lift {α : Type} (o : Option α) : Decoder α := fun b => o.map (·, b)

/-- `DiskAttestation` (core/src/serde_utils.rs:85-98). -/
def decodeDiskAttestation (W : WireExt) (word : Nat) : Decoder Attestation := do
  let x ← decodeBytes word
  lift (W.decodeAttestation x)

/-- `bincode::serialize(&input)` (host/src/bin/zkasper_cli.rs:406) for `GuestInput`
(core/src/input_reader/guest_input_reader.rs:40-83). -/
def encodeInput (W : WireExt) (input : GuestInput) : Bytes :=
  encodeMultiproof W input.beaconBlock ++ (encodeMultiproof W input.beaconState ++
    (encodeMultiproof W input.activeValidators ++ (encodeSeq id input.publicKeys ++
      (encodeMap encodeU64 encodePatch input.patches ++ (encodeState input.consensusState ++
        (encodeSeq (encodeDiskAttestation W) input.attestations ++
          encodeSeq (encodeMultiproof W) input.blockSlotProofs))))))

/-- The value and the rest of the bytes read by `bincode::deserialize` for `GuestInput`
(core/src/input_reader/guest_input_reader.rs:40-83). -/
def readInput (W : WireExt) (word : Nat) : Decoder GuestInput := do
  let beaconBlock ← decodeMultiproof W word
  let beaconState ← decodeMultiproof W word
  let activeValidators ← decodeMultiproof W word
  let publicKeys ← decodeSeq word (decodeKey W)
  let patches ← decodeMap word decodeU64 (decodePatch word)
  let consensusState ← decodeState word
  let attestations ← decodeSeq word (decodeDiskAttestation W word)
  let blockSlotProofs ← decodeSeq word (decodeMultiproof W word)
  return ⟨beaconBlock, beaconState, activeValidators, publicKeys, patches, consensusState, attestations,
    blockSlotProofs⟩

/-- `bincode::deserialize::<GuestInput>` (methods/guest/src/lib.rs:26): bytes after the value are ignored. -/
def decodeInput (W : WireExt) (word : Nat) (b : Bytes) : Option GuestInput := (readInput W word b).map Prod.fst

/-! ## The guest program and the host's check of it -/

/-- The whole guest program `entry` (methods/guest/src/lib.rs:18-52) as a function of its standard input: the journal
it commits. The log output is not modelled. -/
def guestMain {ε : Type} (W : WireExt) (X : Ext) (spec : ChainSpec) (cfg : Config) (stdin : Bytes) : Res ε Bytes := do
  let frame ← expect (Frame.readFrame stdin)
  let input ← expect (decodeInput W X.usizeMod frame)
  guestEntry X spec cfg input

/-- Why `run_verify` fails (host/src/bin/zkasper_cli.rs:417-458). The program uses `anyhow`; the texts are not
modelled. -/
inductive RunError where
  | deserialize
  | input (e : GuestReaderError)
  | host (e : VerifyError)
  | guest
  | journal (e : Abi.AbiError)
  | mismatch
  deriving Repr, DecidableEq

/-- `execute_guest_program` (host/src/bin/zkasper_cli.rs:478-488): the input is framed in the same way as the file
(`ExecutorEnvBuilder::write_frame`, external), and an abort of the guest is an error. -/
def executeGuest (W : WireExt) (X : Ext) (spec : ChainSpec) (cfg : Config) (inputBytes : Bytes) : Res RunError Bytes :=
  match guestMain (ε := Empty) W X spec cfg (Frame.encodeInputStdin inputBytes) with
  | .ok journal => .ok journal
  | .err e => nomatch e
  | .panic => .err .guest

/-- `run_verify` (host/src/bin/zkasper_cli.rs:417-458) on the host `Xh`, with the guest on the machine `Xg`.
`r0vm` tells whether the mode is `ExecMode::R0vm`; the other two modes do the same. -/
def runVerify (W : WireExt) (Xh Xg : Ext) (spec : ChainSpec) (cfg : Config) (preState : ConsensusState)
    (inputBytes : Bytes) (r0vm : Bool) : Res RunError ConsensusState := do
  let input ← okOr .deserialize (decodeInput W Xh.usizeMod inputBytes)
  let reader ← (input.intoReader Xh spec).mapErr .input
  let (post, _) ← (verify Xh cfg reader.toReader).mapErr .host
  if r0vm then
    let journal ← executeGuest W Xg spec cfg inputBytes
    let (guestPre, guestPost) ← (Abi.cliReadJournal journal).mapErr .journal
    ensure (decide (guestPost = post)) RunError.mismatch
    ensure (decide (guestPre = preState)) RunError.mismatch
    return post
  else return post

end Signal.Wire
