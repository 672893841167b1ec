import Verif.Model.GuestReader

/-!
# Model of the generator of indices (host/src/bin/gen_gindices.rs)
-/

namespace Signal.Gen

/-- The SSZ types that occur on the generator's paths. `opaque` is a type below which no path goes. -/
inductive Schema where
  | opaque
  | bytes (length : Nat)
  | container (fields : List (String × Schema))
  | list (limit : Nat) (elem : Schema)

/-- `ssz_rs::PathElement`. -/
inductive PathElem where
  | field (name : String)
  | index (i : Nat)
  deriving Repr, DecidableEq

/-- Exponent of the least power of two that is not below `n` (`get_power_of_two_ceil` of `ssz_rs`, external). -/
def depthFor (n : Nat) : Nat := if n ≤ 1 then 0 else Nat.log2 (n - 1) + 1

/-- `chunk_count` of `ssz_rs` (external): used in host/src/bin/gen_gindices.rs:98. -/
def chunkCount : Schema → Nat
  | .opaque => 1
  | .bytes n => (n + 31) / 32
  | .container fs => fs.length
  | .list limit _ => limit

/-- One step of a path: the number of levels down, the place there and the type there. Elements of a list are below the left child of
the list. `none` where the path does not exist. -/
def step : Schema → PathElem → Option (Nat × Nat × Schema)
  | .container fs, .field name => do
    let i ← fs.findIdx? (fun f => f.1 == name)
    let f ← fs[i]?
    return (depthFor fs.length, i, f.2)
  | .bytes n, .index j => if j < n then some (depthFor ((n + 31) / 32), j / 32, .opaque) else none
  | .list limit elem, .index j => if j < limit then some (depthFor limit + 1, j, elem) else none
  | _, _ => none

/-- `generalized_index` of `ssz_rs` (external, called in host/src/bin/gen_gindices.rs:95, 206), by the SSZ specification:
`root = root * base * 2^depth + position` for each element of the path. -/
def gindexFrom (root : Nat) : Schema → List PathElem → Option Nat
  | _, [] => some root
  | s, p :: ps => match step s p with
    | some (d, i, s') => gindexFrom (root * 2 ^ d + i) s' ps
    | none => none

/-- `gen_gindices` (host/src/bin/gen_gindices.rs:201-209). -/
def gindex (s : Schema) (path : List PathElem) : Option Nat := gindexFrom 1 s path

/-- The body of a generated validator function (host/src/bin/gen_gindices.rs:133-135), without the bounds of `u64`. -/
def template (base chunks g i : Nat) : Nat := (base + i) * chunks * (g / chunks) + g % chunks

/-- `BeaconBlockHeader` (external). -/
def headerSchema : Schema :=
  .container [("slot", .opaque), ("proposer_index", .opaque), ("parent_root", .opaque), ("state_root", .opaque), ("body_root", .opaque)]

/-- `Validator` (external). -/
def validatorSchema : Schema :=
  .container [("public_key", .bytes 48), ("withdrawal_credentials", .opaque), ("effective_balance", .opaque), ("slashed", .opaque),
    ("activation_eligibility_epoch", .opaque), ("activation_epoch", .opaque), ("exit_epoch", .opaque), ("withdrawable_epoch", .opaque)]

/-- `List<Validator, VALIDATOR_REGISTRY_LIMIT>` (host/src/bin/gen_gindices.rs:95). -/
def registrySchema : Schema := .list (2 ^ 40) validatorSchema

/-- The type of a state's field by its name. -/
def stateFieldSchema (name : String) : Schema :=
  if name = "fork" then .container [("previous_version", .opaque), ("current_version", .opaque), ("epoch", .opaque)]
  else if name = "finalized_checkpoint" then .container [("epoch", .opaque), ("root", .opaque)]
  else if name = "validators" then registrySchema
  else .opaque

/-- A state with the given fields. -/
def stateSchema (names : List String) : Schema := .container (names.map (fun n => (n, stateFieldSchema n)))

/-- The paths of `beacon_gindices` (host/src/bin/gen_gindices.rs:162-199), with the functions generated for them. -/
def statePaths : List (List PathElem × Nat) :=
  [([.field "slot"], slotGindex),
   ([.field "finalized_checkpoint", .field "epoch"], finalizedCheckpointEpochGindex),
   ([.field "genesis_validators_root"], genesisValidatorsRootGindex),
   ([.field "fork", .field "previous_version"], forkPreviousVersionGindex),
   ([.field "fork", .field "current_version"], forkCurrentVersionGindex),
   ([.field "fork", .field "epoch"], forkEpochGindex),
   ([.field "validators"], validatorsGindex),
   ([.field "earliest_exit_epoch"], earliestExitEpochGindex),
   ([.field "earliest_consolidation_epoch"], earliestConsolidationEpochGindex)]

/-- The paths of `block_gindices` (host/src/bin/gen_gindices.rs:147-159). -/
def blockPaths : List (List PathElem × Nat) :=
  [([.field "state_root"], stateRootGindex), ([.field "slot"], blockSlotGindex)]

/-- The paths of `validators_gindices` (host/src/bin/gen_gindices.rs:101-118). -/
def validatorPaths : List (List PathElem × (Nat → Nat)) :=
  [([.field "public_key", .index 0], publicKey0Gindex), ([.field "public_key", .index 47], publicKey1Gindex),
   ([.field "effective_balance"], effectiveBalanceGindex), ([.field "activation_eligibility_epoch"], activationEligibilityEpochGindex),
   ([.field "activation_epoch"], activationEpochGindex), ([.field "exit_epoch"], exitEpochGindex), ([.field "slashed"], slashedGindex)]

end Signal.Gen
