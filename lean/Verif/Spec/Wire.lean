import Verif.Model.Wire
import Verif.Spec.Types
import Verif.Model.Preflight

/-!
# Independent specification: what a value of the Rust types looks like, and what the external formats guarantee
-/

namespace Signal.Spec

open Wire

/-- What is assumed of the external parts of the format: the bit vectors are read back as they were written whatever follows them, as
long as their length fits the machine (`bitvec` allows `usize::MAX / 8` bits); a decoder that succeeds also succeeds with more
bytes behind and on a larger machine; what is read fits the machine; and an attestation that was read is written in a form that
is read back and not longer, with 64-bit numbers and 32-byte roots. -/
structure WireLaws (W : WireExt) : Prop where
  bits : ∀ word l rest, word ≤ 2 ^ 64 → 8 * l.length < word → W.decodeBits word (W.encodeBits l ++ rest) = some (l, rest)
  bits_fit : ∀ word b l rest, W.decodeBits word b = some (l, rest) → 8 * l.length < word
  bits_more : ∀ word b l rest more, W.decodeBits word b = some (l, rest) → W.decodeBits word (b ++ more) = some (l, rest ++ more)
  bits_larger : ∀ word word' b r, word ≤ word' → W.decodeBits word b = some r → W.decodeBits word' b = some r
  attestation : ∀ b a, W.decodeAttestation b = some a →
    W.decodeAttestation (W.encodeAttestation a) = some a ∧ (W.encodeAttestation a).length ≤ b.length
  checkpoints : ∀ b a, W.decodeAttestation b = some a → WfCheckpoint a.data.source ∧ WfCheckpoint a.data.target

/-- A `Multiproof` that fits a machine with `word` values of `usize`. -/
structure ProofFits (word : Nat) (p : Multiproof) : Prop where
  data : p.data.length < word
  valueMask : 8 * p.valueMask.length < word
  descriptor : 8 * p.descriptor.length < word
  depth : p.maxStackDepth < word

/-- A value of type `StatePatch` on such a machine. -/
structure PatchFits (word : Nat) (p : StatePatch) : Prop where
  mixesSorted : p.randaoMixes.Sorted
  mixesCount : p.randaoMixes.length < word
  mixes : ∀ x ∈ p.randaoMixes, x.1 < 2 ^ 32 ∧ x.2.length = 32
  exitsSorted : p.validatorExits.Sorted
  exitsCount : p.validatorExits.length < word
  exits : ∀ x ∈ p.validatorExits, x.1 < word ∧ x.2 < 2 ^ 64

/-- A value of type `GuestInput` on such a machine, with public keys and attestations that their own libraries read back. -/
structure InputFits (W : WireExt) (word : Nat) (input : GuestInput) : Prop where
  beaconBlock : ProofFits word input.beaconBlock
  beaconState : ProofFits word input.beaconState
  activeValidators : ProofFits word input.activeValidators
  keysCount : input.publicKeys.length < word
  keys : ∀ k ∈ input.publicKeys, k.length = 96 ∧ W.keyValid k = true
  patchesSorted : input.patches.Sorted
  patchesCount : input.patches.length < word
  patches : ∀ x ∈ input.patches, x.1 < 2 ^ 64 ∧ PatchFits word x.2
  state : WfState input.consensusState
  attestationsCount : input.attestations.length < word
  attestations : ∀ a ∈ input.attestations, (W.encodeAttestation a).length < word ∧
    W.decodeAttestation (W.encodeAttestation a) = some a
  slotProofsCount : input.blockSlotProofs.length < word
  slotProofs : ∀ p ∈ input.blockSlotProofs, ProofFits word p

/-- What the host reads are values of the Rust types: mixes are 32 bytes, exit epochs and checkpoints are 64-bit, the keys of
validators are uncompressed to 96 bytes that the library accepts, and attestations are ones the library reads back. -/
structure WfHost (W : WireExt) (r : HostReader) : Prop where
  mixes : ∀ slot s, r.provider slot = .ok s → ∀ x ∈ s.randaoMixes, x.length = 32
  exits : ∀ slot s, r.provider slot = .ok s → ∀ v ∈ s.beacon.validators, v.exitEpoch < 2 ^ 64
  keys : ∀ slot s, r.provider slot = .ok s → ∀ v ∈ s.beacon.validators, ∀ k, r.decompress v.pubkey = some k →
    k.length = 96 ∧ W.keyValid k = true
  state : WfState r.consensusState
  attestations : ∀ a ∈ r.attestations, W.decodeAttestation (W.encodeAttestation a) = some a

end Signal.Spec
