import Verif.Model.Ext

/-!
# Model of the byte form of attestations

The SSZ code of the external crates `ethereum_ssz` and `ssz_types` for `beacon_types::AttestationElectra`, `AttestationBase` and the union
`AttestationOnDisk`, as published; it is used by `DiskAttestation` (core/src/serde_utils.rs:72-98) for the guest's input and by the conversion
of attestations the node has sent (host/src/conversions.rs:26-46). `sigValid` tells whether the library accepts the bytes of a signature as a
point of the curve (or as the empty signature).
-/

namespace Signal.Ssz

/-- The bits as a number, the first one lowest. The crate keeps the bits in bytes in this order (core/src/serde_utils.rs:72-98). -/
def bitsNat : List Bool → Nat
  | [] => 0
  | b :: l => (if b then 1 else 0) + 2 * bitsNat l

/-- `Bitfield::<Variable<N>>::into_bytes`: a delimiting bit after the last one (core/src/serde_utils.rs:72-83). -/
def encodeBitlist (l : List Bool) : Bytes := leBytes (l.length / 8 + 1) (bitsNat (l ++ [true]))

/-- `Bitfield::<Variable<N>>::from_bytes`: the highest set bit is the delimiter; it must be in the last byte and within the limit
(core/src/serde_utils.rs:85-98). -/
def decodeBitlist (max : Nat) (b : Bytes) : Option (List Bool) :=
  let n := ofLE b
  if n = 0 then none
  else
    let len := n.log2
    if len / 8 + 1 ≠ b.length then none
    else if max < len then none
    else some ((List.range len).map n.testBit)

/-- `Bitfield::<Fixed<U64>>::into_bytes` (core/src/serde_utils.rs:72-83). -/
def encodeBitvector (l : List Bool) : Bytes := leBytes 8 (bitsNat l)

/-- `Bitfield::<Fixed<U64>>::from_bytes` of eight bytes (core/src/serde_utils.rs:85-98). -/
def decodeBitvector (b : Bytes) : List Bool := (List.range 64).map (ofLE b).testBit

/-- `Checkpoint` (core/src/serde_utils.rs:72-83). -/
def encodeCheckpoint (c : Checkpoint) : Bytes := leBytes 8 c.epoch ++ c.root

/-- `Checkpoint` of forty bytes (core/src/serde_utils.rs:85-98). -/
def decodeCheckpoint (b : Bytes) : Checkpoint := ⟨ofLE (b.take 8), b.drop 8⟩

/-- `AttestationData` (core/src/serde_utils.rs:72-83). -/
def encodeData (d : AttestationData) : Bytes :=
  leBytes 8 d.slot ++ leBytes 8 d.index ++ d.beaconBlockRoot ++ encodeCheckpoint d.source ++ encodeCheckpoint d.target

/-- `AttestationData` of 128 bytes (core/src/serde_utils.rs:85-98). -/
def decodeData (b : Bytes) : AttestationData :=
  ⟨ofLE (b.take 8), ofLE ((b.drop 8).take 8), (b.drop 16).take 32, decodeCheckpoint ((b.drop 48).take 40), decodeCheckpoint (b.drop 88)⟩

/-- `MAX_VALIDATORS_PER_COMMITTEE` and `MAX_VALIDATORS_PER_SLOT` of the mainnet preset, the limits of the two bit lists
(core/src/serde_utils.rs:72-98). -/
def maxBase : Nat := 2048
/-- See `maxBase` (core/src/serde_utils.rs:72-98). -/
def maxElectra : Nat := 131072

/-- `AttestationElectra::ssz_append`: offset, data, signature, committee bits, and behind the fixed part the aggregation bits
(core/src/serde_utils.rs:72-83). -/
def encodeElectra (a : AttestationElectra) : Bytes :=
  leBytes 4 236 ++ encodeData a.data ++ a.signature ++ encodeBitvector a.committeeBits ++ encodeBitlist a.aggregationBits

/-- `AttestationElectra::from_ssz_bytes`: the only offset must point behind the fixed part (core/src/serde_utils.rs:85-98,
host/src/conversions.rs:38-42). -/
def decodeElectra (sigValid : Bytes → Bool) (b : Bytes) : Option AttestationElectra :=
  if b.length < 236 then none
  else if ofLE (b.take 4) ≠ 236 then none
  else if sigValid ((b.drop 132).take 96) = false then none
  else
    match decodeBitlist maxElectra (b.drop 236) with
    | none => none
    | some bits => some ⟨bits, decodeData ((b.drop 4).take 128), decodeBitvector ((b.drop 228).take 8), (b.drop 132).take 96⟩

/-- `AttestationBase::ssz_append` (core/src/serde_utils.rs:72-83). -/
def encodeBase (a : AttestationBase) : Bytes :=
  leBytes 4 228 ++ encodeData a.data ++ a.signature ++ encodeBitlist a.aggregationBits

/-- `AttestationBase::from_ssz_bytes` (core/src/serde_utils.rs:85-98). -/
def decodeBase (sigValid : Bytes → Bool) (b : Bytes) : Option AttestationBase :=
  if b.length < 228 then none
  else if ofLE (b.take 4) ≠ 228 then none
  else if sigValid ((b.drop 132).take 96) = false then none
  else
    match decodeBitlist maxBase (b.drop 228) with
    | none => none
    | some bits => some ⟨bits, decodeData ((b.drop 4).take 128), (b.drop 132).take 96⟩

/-- `AttestationRefOnDisk::as_ssz_bytes`: the selector of the union and the value (core/src/serde_utils.rs:72-83). -/
def encodeAttestation : Attestation → Bytes
  | .base a => 0 :: encodeBase a
  | .electra a => 1 :: encodeElectra a

/-- `AttestationOnDisk::from_ssz_bytes` (core/src/serde_utils.rs:85-98). -/
def decodeAttestation (sigValid : Bytes → Bool) : Bytes → Option Attestation
  | [] => none
  | sel :: b =>
    if sel = 0 then (decodeBase sigValid b).map .base
    else if sel = 1 then (decodeElectra sigValid b).map .electra
    else none

/-- `try_as_beacon_type` of an attestation (host/src/conversions.rs:26-46): the value as the node's library has it, written as SSZ and read
by the other library. The first library checks no signature, so its values are a superset. -/
def tryAsBeaconType (sigValid : Bytes → Bool) (a : AttestationElectra) : Option Attestation :=
  (decodeElectra sigValid (encodeElectra a)).map .electra

end Signal.Ssz
