import Verif.Spec.StateSsz
import Verif.Spec.Ssz

/-!
# Independent specification: the layout of the files of states

The places in bytes, counted out by hand from the containers of the consensus specifications with the mainnet preset.
-/

namespace Signal.Spec
open StateSsz

/-- Some of the bytes of a file. -/
def bytesAt (file : Bytes) (place length : Nat) : Bytes := (file.drop place).take length

/-- A number of 64 bits. -/
def numAt (file : Bytes) (place : Nat) : Nat := ofLE (bytesAt file place 8)

/-- The place of a field of variable size, which is noted in four bytes. -/
def offsetAt (file : Bytes) (place : Nat) : Nat := ofLE (bytesAt file place 4)

/-- The fields of all states up to the slashings: name, place, and length, or none if the place of the field is noted there. -/
def commonLayout : List (String × Nat × Option Nat) :=
  [("genesis_time", 0, some 8), ("genesis_validators_root", 8, some 32), ("slot", 40, some 8), ("fork", 48, some 16),
   ("latest_block_header", 64, some 112), ("block_roots", 176, some 262144), ("state_roots", 262320, some 262144), ("historical_roots", 524464, none),
   ("eth1_data", 524468, some 72), ("eth1_data_votes", 524540, none), ("eth1_deposit_index", 524544, some 8), ("validators", 524552, none),
   ("balances", 524556, none), ("randao_mixes", 524560, some 2097152), ("slashings", 2621712, some 65536)]

/-- The fields on finality. -/
def finalityLayout : List (String × Nat × Option Nat) :=
  [("justification_bits", 2687256, some 1), ("previous_justified_checkpoint", 2687257, some 40), ("current_justified_checkpoint", 2687297, some 40),
   ("finalized_checkpoint", 2687337, some 40)]

/-- The fields of Altair. -/
def altairLayout : List (String × Nat × Option Nat) :=
  commonLayout ++ [("previous_epoch_participation", 2687248, none), ("current_epoch_participation", 2687252, none)] ++ finalityLayout ++
  [("inactivity_scores", 2687377, none), ("current_sync_committee", 2687381, some 24624), ("next_sync_committee", 2712005, some 24624)]

/-- The fields of Capella. -/
def capellaLayout : List (String × Nat × Option Nat) :=
  altairLayout ++ [("latest_execution_payload_header", 2736629, none), ("next_withdrawal_index", 2736633, some 8),
    ("next_withdrawal_validator_index", 2736641, some 8), ("historical_summaries", 2736649, none)]

/-- The fields of Electra. -/
def electraLayout : List (String × Nat × Option Nat) :=
  capellaLayout ++ [("deposit_requests_start_index", 2736653, some 8), ("deposit_balance_to_consume", 2736661, some 8),
    ("exit_balance_to_consume", 2736669, some 8), ("earliest_exit_epoch", 2736677, some 8), ("consolidation_balance_to_consume", 2736685, some 8),
    ("earliest_consolidation_epoch", 2736693, some 8), ("pending_deposits", 2736701, none), ("pending_partial_withdrawals", 2736705, none),
    ("pending_consolidations", 2736709, none)]

/-- The fields of a state. -/
def layout : Variant → List (String × Nat × Option Nat)
  | .phase0 => commonLayout ++ [("previous_epoch_attestations", 2687248, none), ("current_epoch_attestations", 2687252, none)] ++ finalityLayout
  | .altair => altairLayout
  | .bellatrix => altairLayout ++ [("latest_execution_payload_header", 2736629, none)]
  | .capella => capellaLayout
  | .deneb => capellaLayout
  | .electra => electraLayout
  | .fulu => electraLayout ++ [("proposer_lookahead", 2736713, some 512)]

/-- The length of the part of a file that has the fields of fixed size and the places of the others. -/
def fixedLength : Variant → Nat
  | .phase0 => 2687377
  | .altair => 2736629
  | .bellatrix => 2736633
  | .capella => 2736653
  | .deneb => 2736653
  | .electra => 2736713
  | .fulu => 2737225

/-- A validator: 121 bytes. -/
def validatorAt (file : Bytes) (place : Nat) : Validator where
  pubkey := bytesAt file place 48
  withdrawalCredentials := bytesAt file (place + 48) 32
  effectiveBalance := numAt file (place + 80)
  slashed := bytesAt file (place + 88) 1 == [1]
  activationEligibilityEpoch := numAt file (place + 89)
  activationEpoch := numAt file (place + 97)
  exitEpoch := numAt file (place + 105)
  withdrawableEpoch := numAt file (place + 113)

/-- The registry, which the balances follow. -/
def validatorsAt (file : Bytes) : List Validator :=
  (List.range ((offsetAt file 524556 - offsetAt file 524552) / 121)).map fun i => validatorAt file (offsetAt file 524552 + 121 * i)

/-- The mixes. -/
def mixesAt (file : Bytes) : List Root := (List.range 65536).map fun i => bytesAt file (524560 + 32 * i) 32

/-- The header of the latest block. -/
def headerAt (file : Bytes) : Header where
  slot := numAt file 64
  proposerIndex := numAt file 72
  parentRoot := bytesAt file 80 32
  stateRoot := bytesAt file 112 32
  bodyRoot := bytesAt file 144 32

end Signal.Spec
