import Verif.Spec.Types
import Verif.Model.Ext

/-!
# Independent specification: the SSZ form of an attestation

After the SSZ specification and the containers of the consensus specification, as a relation between values and bytes.
-/

namespace Signal.Spec

/-- Bit `i` of a byte string, the lowest bit of a byte first. -/
def bitAt (b : Bytes) (i : Nat) : Bool := decide ((b.getD (i / 8) 0).toNat / 2 ^ (i % 8) % 2 = 1)

/-- `Bitlist[limit]`: the bits, a set bit behind the last one, and nothing else. -/
structure SszBitlist (limit : Nat) (bits : List Bool) (b : Bytes) : Prop where
  limit : bits.length ≤ limit
  size : b.length = bits.length / 8 + 1
  entries : ∀ i (h : i < bits.length), bitAt b i = bits[i]
  delimiter : bitAt b bits.length = true
  rest : ∀ i, bits.length < i → bitAt b i = false

/-- `Bitvector[64]`. -/
structure SszBitvector (bits : List Bool) (b : Bytes) : Prop where
  count : bits.length = 64
  size : b.length = 8
  entries : ∀ i (h : i < bits.length), bitAt b i = bits[i]

/-- `AttestationData`: slot, index, block root, source and target, with 64-bit numbers and 32-byte roots. -/
structure SszData (d : AttestationData) (b : Bytes) : Prop where
  slot : d.slot < 2 ^ 64
  index : d.index < 2 ^ 64
  root : d.beaconBlockRoot.length = 32
  source : WfCheckpoint d.source
  target : WfCheckpoint d.target
  bytes : b = leBytes 8 d.slot ++ leBytes 8 d.index ++ d.beaconBlockRoot ++ (leBytes 8 d.source.epoch ++ d.source.root) ++
    (leBytes 8 d.target.epoch ++ d.target.root)

/-- The Electra container: aggregation bits, data, signature, committee bits. The first field is of variable size: in its place stands its
offset, the length of the fixed part. -/
def SszElectra (sigValid : Bytes → Bool) (a : AttestationElectra) (b : Bytes) : Prop :=
  ∃ data committeeBits aggregationBits, SszData a.data data ∧ a.signature.length = 96 ∧ sigValid a.signature = true ∧
    SszBitvector a.committeeBits committeeBits ∧ SszBitlist 131072 a.aggregationBits aggregationBits ∧
    b = leBytes 4 (4 + 128 + 96 + 8) ++ data ++ a.signature ++ committeeBits ++ aggregationBits

/-- The container before Electra. -/
def SszBase (sigValid : Bytes → Bool) (a : AttestationBase) (b : Bytes) : Prop :=
  ∃ data aggregationBits, SszData a.data data ∧ a.signature.length = 96 ∧ sigValid a.signature = true ∧
    SszBitlist 2048 a.aggregationBits aggregationBits ∧
    b = leBytes 4 (4 + 128 + 96) ++ data ++ a.signature ++ aggregationBits

/-- The union of the two: a selector byte and the value. -/
def SszAttestation (sigValid : Bytes → Bool) : Attestation → Bytes → Prop
  | .base a, b => ∃ b', SszBase sigValid a b' ∧ b = 0 :: b'
  | .electra a, b => ∃ b', SszElectra sigValid a b' ∧ b = 1 :: b'

/-- A value of the Rust type `AttestationElectra`. -/
structure WfElectra (a : AttestationElectra) : Prop where
  slot : a.data.slot < 2 ^ 64
  index : a.data.index < 2 ^ 64
  root : a.data.beaconBlockRoot.length = 32
  source : WfCheckpoint a.data.source
  target : WfCheckpoint a.data.target
  committeeBits : a.committeeBits.length = 64
  aggregationBits : a.aggregationBits.length ≤ 131072
  signature : a.signature.length = 96

/-- A value of the Rust type `AttestationBase`. -/
structure WfBase (a : AttestationBase) : Prop where
  slot : a.data.slot < 2 ^ 64
  index : a.data.index < 2 ^ 64
  root : a.data.beaconBlockRoot.length = 32
  source : WfCheckpoint a.data.source
  target : WfCheckpoint a.data.target
  aggregationBits : a.aggregationBits.length ≤ 2048
  signature : a.signature.length = 96

end Signal.Spec
