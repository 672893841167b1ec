import Verif.Spec.Wire

/-!
# Independent specification: the points of the curve in an input
-/

namespace Signal.Spec

/-- The bytes of the signature of an attestation. -/
def signatureOf : Attestation → Bytes
  | .base a => a.signature
  | .electra a => a.signature

/-- All keys and signatures of an input are ones that the library of the curve accepts. -/
def PointsValid (keyValid sigValid : Bytes → Bool) (input : GuestInput) : Prop :=
  (∀ k ∈ input.publicKeys, keyValid k = true) ∧ ∀ a ∈ input.attestations, sigValid (signatureOf a) = true

instance (keyValid sigValid : Bytes → Bool) (input : GuestInput) : Decidable (PointsValid keyValid sigValid input) := by
  unfold PointsValid
  infer_instance

end Signal.Spec
