import Verif.Spec.Ssz
import Verif.Model.Validator

/-!
# Independent specification: what a reported registry must say about the true one
-/

namespace Signal.Spec

/-- The reported record says the same as the registered validator; the reported key is an uncompressed key
whose compressed form is the registered one. -/
structure Matches (X : Ext) (info : ValidatorInfo) (v : Validator) : Prop where
  pubkey : X.pkSerialize info.pubkey = v.pubkey
  effectiveBalance : info.effectiveBalance = v.effectiveBalance
  slashed : info.slashed = v.slashed
  activationEligibilityEpoch : info.activationEligibilityEpoch = v.activationEligibilityEpoch
  activationEpoch : info.activationEpoch = v.activationEpoch
  exitEpoch : info.exitEpoch = v.exitEpoch

/-- Indices of the validators active at an epoch, ascending. -/
def activeIndices (vs : List Validator) (epoch : Nat) : List Nat :=
  (List.range vs.length).filter (fun i => match vs[i]? with
    | some v => decide (v.activationEpoch ≤ epoch ∧ epoch < v.exitEpoch)
    | none => false)

/-- Effective balance of a registered validator. -/
def registeredBalance (vs : List Validator) (i : Nat) : Nat := ((vs[i]?).map (·.effectiveBalance)).getD 0

end Signal.Spec
