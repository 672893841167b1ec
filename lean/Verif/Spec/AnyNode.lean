import Verif.Spec.Program

/-!
# Independent specification: answers that need not belong together
-/

namespace Signal.Spec
open Wire Program

/-- What the program reads for `epoch` are values of their Rust types, and they are small enough for the memory of the host. Nothing is
said about whether the answers belong to one chain, or to any. -/
structure TypedWorld (W : WireExt) (X : Ext) (spec : ChainSpec) (cfg : Config) (bound : Nat) (w : World) (epoch : Nat) : Prop where
  types : ∀ r trusted, ReaderFor X spec bound w epoch r trusted → WfHost W r
  state : ∀ r trusted st, ReaderFor X spec bound w epoch r trusted →
    stateAtCheckpoint X (hostStateOps X) spec.slotsPerEpoch w.provider trusted = .ok st →
    st.beacon.WF ∧ (filledHeader (hostStateOps X) st).WF
  headers : ∀ root h, w.headers root = .ok (some h) → h.WF
  size : ∀ r trusted st post slot, ReaderFor X spec bound w epoch r trusted →
    stateAtCheckpoint X (hostStateOps X) spec.slotsPerEpoch w.provider trusted = .ok st → verify X cfg r.toReader = .ok (post, slot) →
    288 * st.beacon.validators.length + 1400 ≤ X.usizeMod ∧ r.attestations.length < X.usizeMod ∧
      ∀ a ∈ r.attestations, (W.encodeAttestation a).length < X.usizeMod

end Signal.Spec
