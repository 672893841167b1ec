import Verif.Spec.Verify

/-!
# Independent specification: registry updates and state patches
-/

namespace Signal.Spec

/-- The only difference between the records is a later step in the activation queue, made at `epoch` or
afterwards: the eligibility epoch may have been set, and an activation may have been scheduled, not
before `epoch + 1 + MAX_SEED_LOOKAHEAD`. -/
structure OnlyScheduled (spec : ChainSpec) (epoch : Nat) (v v' : ValidatorInfo) : Prop where
  pubkey : v'.pubkey = v.pubkey
  effectiveBalance : v'.effectiveBalance = v.effectiveBalance
  slashed : v'.slashed = v.slashed
  exitEpoch : v'.exitEpoch = v.exitEpoch
  activation : v'.activationEpoch = v.activationEpoch ∨
    v.activationEpoch = spec.farFutureEpoch ∧ epoch + 1 + spec.maxSeedLookahead ≤ v'.activationEpoch
  eligibility : v'.activationEligibilityEpoch = v.activationEligibilityEpoch ∨
    v.activationEligibilityEpoch = spec.farFutureEpoch ∧
      (epoch < v'.activationEligibilityEpoch ∨ v'.activationEligibilityEpoch = u64Max)

/-- Activations in `process_registry_updates` of the Electra specification for one validator
(`if` in the queue / `elif` eligible for activation; ejections are not activations). -/
def electraUpdate (spec : ChainSpec) (finalizedEpoch currentEpoch : Nat) (v : ValidatorInfo) :
    ValidatorInfo :=
  if v.activationEligibilityEpoch = spec.farFutureEpoch ∧ spec.minActivationBalance ≤ v.effectiveBalance then
    { v with activationEligibilityEpoch := currentEpoch + 1 }
  else if v.activationEligibilityEpoch ≤ finalizedEpoch ∧ v.activationEpoch = spec.farFutureEpoch then
    { v with activationEpoch := currentEpoch + 1 + spec.maxSeedLookahead }
  else v

/-- The exit epoch of validator `idx` according to the patch of epoch `e`; the proven one (`v`) if
there is no patch for `e` or it does not mention the validator. -/
def exitIn (patches : OMap StatePatch) (e idx : Nat) (v : ValidatorInfo) : Nat :=
  match patches.get? e with
  | some p => (p.validatorExits.get? idx).getD v.exitEpoch
  | none => v.exitEpoch

/-- The entries of the patch of epoch `e` that change an exit epoch, with the balance of the validator:
`(exit epoch, effective balance)`. -/
def newExits (patches : OMap StatePatch) (validators : OMap ValidatorInfo) (e : Nat) (patch : StatePatch) :
    List (Nat × Nat) :=
  patch.validatorExits.filterMap (fun (idx, x) =>
    match validators.get? idx with
    | some v => if exitIn patches (e - 1) idx v = x then none else some (x, v.effectiveBalance)
    | none => none)

/-- Combined balance of the exits up to epoch `until`. -/
def exitingBalance (exits : List (Nat × Nat)) (until_ : Nat) : Nat :=
  ((exits.filter (fun e => decide (e.1 ≤ until_))).map (·.2)).sum

/-- Twice the balance churn limit of a registry with the given total active balance. -/
def doubleChurn (spec : ChainSpec) (total : Nat) : Nat :=
  let c := max spec.minPerEpochChurnLimitElectra (total / spec.churnLimitQuotient)
  2 * (c - c % spec.effectiveBalanceIncrement)

/-- The first epoch in which a new exit can take effect. -/
def earliestNewExit (spec : ChainSpec) (trustedEpoch earliestExit earliestConsolidation : Nat) : Nat :=
  max (min earliestExit earliestConsolidation) (trustedEpoch + 1 + spec.maxSeedLookahead)

/-- The first epoch allowed for a new exit in the patch of epoch `e`: not before `earliest`, and not before
any new exit of a patch for an earlier epoch. -/
def exitFloor (earliest : Nat) (patches : OMap StatePatch) (validators : OMap ValidatorInfo) (e : Nat) : Nat :=
  ((patches.filter (fun x => decide (x.1 < e))).flatMap (fun x => newExits patches validators x.1 x.2)).foldl
    (fun m x => max m x.1) earliest

/-- The patches tell a possible story: none is for an epoch before the trusted one; every exit belongs to a validator of
the registry and is the one of the preceding epoch, or it was not set there and is not before the floor; and the
balance of the new exits up to any epoch `u` is within the churn limit for the epochs from the floor to `u`. -/
structure LawfulPatches (far trustedEpoch earliest churn : Nat) (patches : OMap StatePatch)
    (validators : OMap ValidatorInfo) : Prop where
  epochs : ∀ e p, (e, p) ∈ patches → trustedEpoch ≤ e
  exits : ∀ e p, (e, p) ∈ patches → ∀ idx x, (idx, x) ∈ p.validatorExits → ∃ v, validators.get? idx = some v ∧
    (exitIn patches (e - 1) idx v = x ∨
      exitIn patches (e - 1) idx v = far ∧ exitFloor earliest patches validators e ≤ x)
  churn : ∀ e p, (e, p) ∈ patches → ∀ x ∈ newExits patches validators e p,
    exitingBalance (newExits patches validators e p) x.1 ≤
      churn * (x.1 - exitFloor earliest patches validators e + 1)

/-- The products computed for the churn limit fit into 64 bits. -/
def SmallExits (churn : Nat) (patches : OMap StatePatch) (validators : OMap ValidatorInfo) : Prop :=
  ∀ e p, (e, p) ∈ patches → ∀ x ∈ newExits patches validators e p, churn * (x.1 + 1) < 2 ^ 64

end Signal.Spec
