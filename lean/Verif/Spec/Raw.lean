import Verif.Model.Raw
import Verif.Spec.AttestationSsz

/-!
# Independent specification: values of the Rust types, out of bytes
-/

namespace Signal.Spec
open Client Raw StateSsz

/-- The JSON decoders give values of their Rust types: numbers of 64 bits, roots of 32 bytes, signatures that the library reads, and no more than 128
votes in a block. Nothing is said about states. -/
structure TypedDecoders (sigValid : Bytes → Bool) (D : Decoders State) : Prop where
  header : ∀ body root h, D.header body = some (root, h) → h.WF
  block : ∀ body h votes, D.block body = some (h, .electra votes) → votes.length ≤ 128 ∧
    ∀ a, some a ∈ votes → ∃ e, a = .electra e ∧ WfElectra e ∧ sigValid e.signature = true
  finality : ∀ body previous justified finalized, D.finality body = some (previous, justified, finalized) →
    WfCheckpoint justified ∧ WfCheckpoint finalized

/-- A file of a data directory is shorter than 4 GiB, and the library that reads keys gives keys. -/
structure SoundPass (W : Wire.WireExt) (n : RawPass) : Prop where
  files : ∀ slot name content, (name, Entry.file content) ∈ (n.asked slot).dir → content.length < 2 ^ 32
  keys : ∀ b k, n.decompress b = some k → k.length = 96 ∧ W.keyValid k = true

/-- The states that the pass meets at the starts of epochs are those of Electra or later. -/
def RecentPass (X : Ext) (order : List Variant) (D : Decoders State) (spe : Nat) (n : RawPass) : Prop :=
  ∀ epoch s, stateAtEpochBoundary (stateOps X order) spe (n.state X order D) epoch = .ok s → s.variant = .electra ∨ s.variant = .fulu

end Signal.Spec
