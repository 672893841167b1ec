import Verif.Model.AttestationSsz
import Verif.Model.Providers

/-!
# Model of the byte form of beacon states

`ssz_rs::serialize` and `ssz_rs::deserialize` (external), which write and read the files of states (host/src/state_provider/file_provider.rs:51, 90-91),
by the SSZ specification: a decoder that accepts nothing but encodings. The types of the states of the seven forks are those of
host/src/beacon_state.rs:105-434; the containers from the crate `ethereum_consensus` are those of the consensus specifications.
-/

namespace Signal.StateSsz
open Ssz

/-- The SSZ types that occur in states (host/src/beacon_state.rs:105-301). Numbers, roots and the like are `bytes`: their bytes are their encoding. -/
inductive Typ where
  | bytes (n : Nat)
  | bool
  | bitvector (n : Nat)
  | bitlist (limit : Nat)
  | vector (n : Nat) (elem : Typ)
  | list (limit : Nat) (elem : Typ)
  | container (fields : List Typ)

/-- Values of these types. -/
inductive Val where
  | bytes (b : Bytes)
  | bool (b : Bool)
  | bits (l : List Bool)
  | seq (l : List Val)

mutual
/-- The length of the encoding if it is the same for all values of the type (`is_variable_size` and `size_hint` of `ssz_rs`, external; for
host/src/beacon_state.rs:105-301). -/
def Typ.size : Typ → Option Nat
  | .bytes n => some n
  | .bool => some 1
  | .bitvector n => some ((n + 7) / 8)
  | .bitlist _ => none
  | .vector n elem => elem.size.map (n * ·)
  | .list _ _ => none
  | .container fields => Typ.sizes fields

/-- The sum over the fields of a container (host/src/beacon_state.rs:105-301). -/
def Typ.sizes : List Typ → Option Nat
  | [] => some 0
  | t :: ts => do
    let n ← t.size
    let m ← Typ.sizes ts
    return n + m
end

/-- The length of the first part of a composite value: the fixed-size parts, and four bytes for each of the others. A part is the question whether it has
fixed size, and its bytes. (`serialize_composite` of `ssz_rs`, external; host/src/state_provider/file_provider.rs:51.) -/
def headLength : List (Bool × Bytes) → Nat
  | [] => 0
  | (true, b) :: ps => b.length + headLength ps
  | (false, _) :: ps => 4 + headLength ps

/-- The first part; `offset` is where the next of the others will be (host/src/state_provider/file_provider.rs:51). -/
def heads (offset : Nat) : List (Bool × Bytes) → Bytes
  | [] => []
  | (true, b) :: ps => b ++ heads offset ps
  | (false, b) :: ps => leBytes 4 offset ++ heads (offset + b.length) ps

/-- The others (host/src/state_provider/file_provider.rs:51). -/
def tails : List (Bool × Bytes) → Bytes
  | [] => []
  | (true, _) :: ps => tails ps
  | (false, b) :: ps => b ++ tails ps

/-- A composite value from its parts; an error if it is too long for the offsets (host/src/state_provider/file_provider.rs:51). -/
def assemble (parts : List (Bool × Bytes)) : Option Bytes :=
  let b := heads (headLength parts) parts ++ tails parts
  if b.length < 2 ^ 32 then some b else none

mutual
/-- `ssz_rs::serialize` (external; host/src/state_provider/file_provider.rs:51). -/
def encode : Typ → Val → Option Bytes
  | .bytes n, .bytes b => if b.length = n then some b else none
  | .bool, .bool b => some [if b then 1 else 0]
  | .bitvector n, .bits l => if l.length = n then some (leBytes ((n + 7) / 8) (bitsNat l)) else none
  | .bitlist limit, .bits l => if l.length ≤ limit then some (encodeBitlist l) else none
  | .vector n elem, .seq l =>
    if l.length = n then do
      let bs ← l.mapM (encode elem)
      assemble (bs.map (elem.size.isSome, ·))
    else none
  | .list limit elem, .seq l =>
    if l.length ≤ limit then do
      let bs ← l.mapM (encode elem)
      assemble (bs.map (elem.size.isSome, ·))
    else none
  | .container fields, .seq l => do
    let parts ← encodeFields fields l
    assemble parts
  | _, _ => none

/-- The parts of a container (host/src/state_provider/file_provider.rs:51). -/
def encodeFields : List Typ → List Val → Option (List (Bool × Bytes))
  | [], [] => some []
  | t :: ts, v :: vs => do
    let b ← encode t v
    let parts ← encodeFields ts vs
    return (t.size.isSome, b) :: parts
  | _, _ => none
end

/-- What the first part of a composite value says: bytes of fixed size, or an offset (`deserialize` of `ssz_rs`, external;
host/src/state_provider/file_provider.rs:90-91). -/
def readHeads : List (Option Nat) → Bytes → Option (List (Bytes ⊕ Nat))
  | [], _ => some []
  | some n :: sizes, b =>
    if b.length < n then none
    else do
      let rest ← readHeads sizes (b.drop n)
      return .inl (b.take n) :: rest
  | none :: sizes, b =>
    if b.length < 4 then none
    else do
      let rest ← readHeads sizes (b.drop 4)
      return .inr (ofLE (b.take 4)) :: rest

/-- The parts themselves, and where the first of those behind the first part begins. A part ends where the next begins, and offsets do not decrease
(host/src/state_provider/file_provider.rs:90-91). -/
def readTails (b : Bytes) : List (Bytes ⊕ Nat) → Option (List Bytes × Nat)
  | [] => some ([], b.length)
  | .inl x :: ps => do
    let (l, stop) ← readTails b ps
    return (x :: l, stop)
  | .inr start :: ps => do
    let (l, stop) ← readTails b ps
    if start ≤ stop then return ((b.drop start).take (stop - start) :: l, start) else none

/-- Where the first offset should point to (host/src/state_provider/file_provider.rs:90-91). -/
def headSize (sizes : List (Option Nat)) : Nat := (sizes.map (·.getD 4)).sum

/-- The parts of a composite value; all bytes must be used (host/src/state_provider/file_provider.rs:90-91). -/
def split (sizes : List (Option Nat)) (b : Bytes) : Option (List Bytes) := do
  let pieces ← readHeads sizes b
  let (l, start) ← readTails b pieces
  if start = headSize sizes then return l else none

/-- The number of elements of a list: by the length, or by the first offset (host/src/state_provider/file_provider.rs:90-91). -/
def count (elem : Typ) (b : Bytes) : Option Nat :=
  match elem.size with
  | some n => if n = 0 ∨ b.length % n ≠ 0 then none else some (b.length / n)
  | none =>
    if b = [] then some 0
    else if b.length < 4 ∨ ofLE (b.take 4) % 4 ≠ 0 ∨ ofLE (b.take 4) = 0 then none
    else some (ofLE (b.take 4) / 4)

mutual
/-- `ssz_rs::deserialize` (external; host/src/state_provider/file_provider.rs:90-91). -/
def decode : Typ → Bytes → Option Val
  | .bytes n, b => if b.length = n then some (.bytes b) else none
  | .bool, b => if b = [0] then some (.bool false) else if b = [1] then some (.bool true) else none
  | .bitvector n, b =>
    if b.length = (n + 7) / 8 ∧ ofLE b < 2 ^ n then some (.bits ((List.range n).map (ofLE b).testBit)) else none
  | .bitlist limit, b => (decodeBitlist limit b).map .bits
  | .vector n elem, b => do
    let parts ← split (List.replicate n elem.size) b
    let l ← parts.mapM (decode elem)
    return .seq l
  | .list limit elem, b => do
    let n ← count elem b
    if limit < n then none
    else do
      let parts ← split (List.replicate n elem.size) b
      let l ← parts.mapM (decode elem)
      return .seq l
  | .container fields, b => do
    let parts ← split (fields.map Typ.size) b
    let l ← decodeFields fields parts
    return .seq l

/-- The fields of a container (host/src/state_provider/file_provider.rs:90-91). -/
def decodeFields : List Typ → List Bytes → Option (List Val)
  | [], [] => some []
  | t :: ts, b :: bs => do
    let v ← decode t b
    let vs ← decodeFields ts bs
    return v :: vs
  | _, _ => none
end

/-! ## The types of the states -/

/-- `u64` (host/src/beacon_state.rs:105-301). -/
abbrev u64 : Typ := .bytes 8
/-- `Root`, `Bytes32` (host/src/beacon_state.rs:105-301). -/
abbrev b32 : Typ := .bytes 32

/-- `Fork` (external; host/src/beacon_state.rs:154). -/
def forkTyp : Typ := .container [.bytes 4, .bytes 4, u64]
/-- `BeaconBlockHeader` (external; host/src/beacon_state.rs:155). -/
def headerTyp : Typ := .container [u64, u64, b32, b32, b32]
/-- `Eth1Data` (external; host/src/beacon_state.rs:159). -/
def eth1Typ : Typ := .container [b32, u64, b32]
/-- `Validator` (external; host/src/beacon_state.rs:163). -/
def validatorTyp : Typ := .container [.bytes 48, b32, u64, .bool, u64, u64, u64, u64]
/-- `Checkpoint` (external; host/src/beacon_state.rs:174-176). -/
def checkpointTyp : Typ := .container [u64, b32]
/-- `SyncCommittee` (external; host/src/beacon_state.rs:179-180). -/
def syncCommitteeTyp : Typ := .container [.vector 512 (.bytes 48), .bytes 48]
/-- `HistoricalSummary` (external; host/src/beacon_state.rs:187). -/
def summaryTyp : Typ := .container [b32, b32]
/-- `AttestationData` (external; in `PendingAttestation`, host/src/beacon_state.rs:587-612). -/
def attestationDataTyp : Typ := .container [u64, u64, b32, checkpointTyp, checkpointTyp]
/-- `PendingAttestation` (external; host/src/beacon_state.rs:587-612). -/
def pendingAttestationTyp : Typ := .container [.bitlist 2048, attestationDataTyp, u64, u64]
/-- `DepositReceipt` (host/src/beacon_state.rs:109-118). -/
def depositTyp : Typ := .container [.bytes 48, b32, u64, .bytes 96, u64]
/-- `PendingPartialWithdrawal` (host/src/beacon_state.rs:123-130). -/
def withdrawalTyp : Typ := .container [u64, u64, u64]
/-- `PendingConsolidation` (external; host/src/beacon_state.rs:203). -/
def consolidationTyp : Typ := .container [u64, u64]

/-- The fields all versions of `ExecutionPayloadHeader` begin with (external; host/src/beacon_state.rs:181-182). -/
def payloadFields : List Typ :=
  [b32, .bytes 20, b32, b32, .bytes 256, b32, u64, u64, u64, u64, .list 32 (.bytes 1), b32, b32, b32]

/-- `ExecutionPayloadHeader` of Bellatrix, Capella, and Deneb and later (external; host/src/beacon_state.rs:181-182). -/
def bellatrixHeaderTyp : Typ := .container payloadFields
/-- See `bellatrixHeaderTyp` (host/src/beacon_state.rs:181-182). -/
def capellaHeaderTyp : Typ := .container (payloadFields ++ [b32])
/-- See `bellatrixHeaderTyp` (host/src/beacon_state.rs:181-182). -/
def denebHeaderTyp : Typ := .container (payloadFields ++ [b32, u64, u64])

/-- The fields that all states begin with (host/src/beacon_state.rs:150-169). -/
def commonFields : List (String × Typ) :=
  [("genesis_time", u64), ("genesis_validators_root", b32), ("slot", u64), ("fork", forkTyp), ("latest_block_header", headerTyp),
   ("block_roots", .vector 8192 b32), ("state_roots", .vector 8192 b32), ("historical_roots", .list (2 ^ 24) b32), ("eth1_data", eth1Typ),
   ("eth1_data_votes", .list 2048 eth1Typ), ("eth1_deposit_index", u64), ("validators", .list (2 ^ 40) validatorTyp),
   ("balances", .list (2 ^ 40) u64), ("randao_mixes", .vector 65536 b32), ("slashings", .vector 8192 u64)]

/-- The fields on finality that all states have (host/src/beacon_state.rs:174-177). -/
def finalityFields : List (String × Typ) :=
  [("justification_bits", .bitvector 4), ("previous_justified_checkpoint", checkpointTyp), ("current_justified_checkpoint", checkpointTyp),
   ("finalized_checkpoint", checkpointTyp)]

/-- The fields since Altair (host/src/beacon_state.rs:170-180). -/
def altairFields : List (String × Typ) :=
  commonFields ++ [("previous_epoch_participation", .list (2 ^ 40) (.bytes 1)), ("current_epoch_participation", .list (2 ^ 40) (.bytes 1))] ++
  finalityFields ++ [("inactivity_scores", .list (2 ^ 40) u64), ("current_sync_committee", syncCommitteeTyp),
    ("next_sync_committee", syncCommitteeTyp)]

/-- The fields since Capella (host/src/beacon_state.rs:150-187). -/
def capellaFields (header : Typ) : List (String × Typ) :=
  altairFields ++ [("latest_execution_payload_header", header), ("next_withdrawal_index", u64), ("next_withdrawal_validator_index", u64),
    ("historical_summaries", .list (2 ^ 24) summaryTyp)]

/-- The fields of Electra (host/src/beacon_state.rs:150-204). -/
def electraFields : List (String × Typ) :=
  capellaFields denebHeaderTyp ++
  [("deposit_requests_start_index", u64), ("deposit_balance_to_consume", u64), ("exit_balance_to_consume", u64), ("earliest_exit_epoch", u64),
   ("consolidation_balance_to_consume", u64), ("earliest_consolidation_epoch", u64), ("pending_deposits", .list (2 ^ 27) depositTyp),
   ("pending_partial_withdrawals", .list (2 ^ 27) withdrawalTyp), ("pending_consolidations", .list (2 ^ 18) consolidationTyp)]

/-- The variants of the enum `BeaconState` in order (host/src/beacon_state.rs:316-434). -/
inductive Variant where
  | phase0 | altair | bellatrix | capella | deneb | electra | fulu
  deriving Repr, DecidableEq

/-- The fields of a state (host/src/beacon_state.rs:332-434). -/
def Variant.fields : Variant → List (String × Typ)
  | .phase0 => commonFields ++
    [("previous_epoch_attestations", .list 4096 pendingAttestationTyp), ("current_epoch_attestations", .list 4096 pendingAttestationTyp)] ++
    finalityFields
  | .altair => altairFields
  | .bellatrix => altairFields ++ [("latest_execution_payload_header", bellatrixHeaderTyp)]
  | .capella => capellaFields capellaHeaderTyp
  | .deneb => capellaFields denebHeaderTyp
  | .electra => electraFields
  | .fulu => electraFields ++ [("proposer_lookahead", .vector 64 u64)]

/-- The type of a state (host/src/beacon_state.rs:332-434). -/
def Variant.typ (f : Variant) : Typ := .container (f.fields.map Prod.snd)

/-- `BeaconState` (host/src/beacon_state.rs:316-434). -/
structure State where
  variant : Variant
  value : Val

/-- A field of a state, as by the functions of host/src/beacon_state.rs:483-674, which name it in every variant. -/
def State.field (s : State) (name : String) : Option Val :=
  match s.value with
  | .seq l => do
    let i ← s.variant.fields.findIdx? (·.1 == name)
    l[i]?
  | _ => none

/-- `slot` (host/src/beacon_state.rs:494-504). -/
def State.slot (s : State) : Nat :=
  match s.field "slot" with
  | some (.bytes b) => ofLE b
  | _ => 0

/-- `ssz_rs::serialize` of a state (host/src/state_provider/file_provider.rs:51): that of the variant, without a mark (`#[ssz(transparent)]`,
host/src/beacon_state.rs:314). -/
def encodeState (s : State) : Option Bytes := encode s.variant.typ s.value

/-- `ssz_rs::deserialize` of a state (host/src/state_provider/file_provider.rs:90-91): the variants are tried one after the other
(`#[ssz(transparent)]`, host/src/beacon_state.rs:314). The order is a parameter. -/
def decodeState : List Variant → Bytes → Option State
  | [], _ => none
  | f :: fs, b =>
    match decode f.typ b with
    | some v => some ⟨f, v⟩
    | none => decodeState fs b

end Signal.StateSsz
