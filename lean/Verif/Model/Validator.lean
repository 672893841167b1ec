import Verif.Model.Ext
import Verif.Model.OMap

/-!
# Model of `ValidatorInfo` (core/src/lib.rs), `StatePatch` (core/src/state_patch.rs) and
# `Config` (core/src/config.rs)
-/

namespace Signal

/-- `ValidatorInfo` (core/src/lib.rs:62-70). A public key is represented by its uncompressed bytes. -/
structure ValidatorInfo where
  pubkey : Bytes
  effectiveBalance : Nat
  slashed : Bool
  activationEligibilityEpoch : Nat
  activationEpoch : Nat
  exitEpoch : Nat
  deriving Repr, DecidableEq

namespace ValidatorInfo

/-- `is_eligible_for_activation_queue` (core/src/lib.rs:81-84). -/
def isEligibleForActivationQueue (v : ValidatorInfo) (spec : ChainSpec) : Bool :=
  decide (v.activationEligibilityEpoch = spec.farFutureEpoch) &&
    decide (spec.minActivationBalance ≤ v.effectiveBalance)

/-- `is_eligible_for_activation` (core/src/lib.rs:87-96). -/
def isEligibleForActivation (v : ValidatorInfo) (spec : ChainSpec) (finalizedEpoch : Nat) : Bool :=
  decide (v.activationEligibilityEpoch ≤ finalizedEpoch) &&
    decide (v.activationEpoch = spec.farFutureEpoch)

/-- `is_active_at` (core/src/lib.rs:99-101). -/
def isActiveAt (v : ValidatorInfo) (epoch : Nat) : Bool :=
  decide (v.activationEpoch ≤ epoch) && decide (epoch < v.exitEpoch)

end ValidatorInfo

/-- `StatePatch` (core/src/state_patch.rs:23-28). -/
structure StatePatch where
  randaoMixes : OMap Root
  validatorExits : OMap Nat
  deriving Repr, DecidableEq

/-- `EMPTY_STATE_PATCH` / `StatePatch::new` (core/src/state_patch.rs:20, 34-39). -/
def StatePatch.empty : StatePatch := ⟨[], []⟩

/-- `StatePatch::is_active_validator` (core/src/state_patch.rs:43-53). -/
def StatePatch.isActiveValidator (p : StatePatch) (idx : Nat) (v : ValidatorInfo) (epoch : Nat) :
    Bool :=
  match p.validatorExits.get? idx with
  | some exitEpoch => decide (epoch < exitEpoch) && v.isActiveAt epoch
  | none => v.isActiveAt epoch

/-- `Config` (core/src/config.rs:22-34). Fork names are numbered as in `ChainSpec`. -/
structure Config where
  minVersion : Nat
  maxVersion : Nat
  epochLookaheadLimit : Nat
  justificationThresholdFactor : Nat
  justificationThresholdQuotient : Nat
  deriving Repr, DecidableEq

/-- `DEFAULT_CONFIG` (core/src/config.rs:37-43). -/
def Config.default : Config := ⟨5, 6, 4, 85, 100⟩

/-- `SEPOLIA_CONFIG` (core/src/config.rs:47-53). -/
def Config.sepolia : Config := ⟨5, 6, 4, 70, 100⟩

/-- `is_supported_version` (core/src/config.rs:56-58). -/
def Config.isSupportedVersion (c : Config) (forkName : Nat) : Bool :=
  decide (c.minVersion ≤ forkName) && decide (forkName ≤ c.maxVersion)

/-- The summation loop of `get_total_balance` (core/src/input_reader.rs:97-99): `try_fold` with
`safe_add`. -/
def sumBalances : Nat → List ValidatorInfo → Res ArithError Nat
  | acc, [] => .ok acc
  | acc, v :: vs => do
    let acc ← safeAdd acc v.effectiveBalance
    sumBalances acc vs

/-- `get_total_balance` (core/src/input_reader.rs:92-105). -/
def getTotalBalance (spec : ChainSpec) (vs : List ValidatorInfo) : Res ArithError Nat := do
  let total ← sumBalances 0 vs
  return max total spec.effectiveBalanceIncrement

end Signal
