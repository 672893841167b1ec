import Verif.Model.Wire
import Verif.Model.AttestationSsz

/-!
# Model of the external serde format of bit vectors

`BitVec<u32, Lsb0>` of the crate `bitvec` 1.0.1 with the feature `serde`, in `bincode` (used for ssz-multiproofs/src/multiproof.rs:41-45): a
structure of the name of the bit order, the first bit's place (the width of a word and an index below it), the number of bits, and the
words. The source of the crate is not at hand; this is the published format as far as it is known, and only an instance of `WireExt`: no other
model depends on it.
-/

namespace Signal.Wire

/-- `core::any::type_name::<Lsb0>()`: `bitvec::order::Lsb0`. -/
def orderName : Bytes := "bitvec::order::Lsb0".toList.map (fun c => UInt8.ofNat c.toNat)

/-- A word of up to 32 bits, the first bit lowest. -/
def wordOf (l : List Bool) : Nat := l.foldr (fun b n => 2 * n + b.toNat) 0

/-- The first words of a bit vector. -/
def packN : Nat → List Bool → List Nat
  | 0, _ => []
  | k + 1, l => wordOf (l.take 32) :: packN k (l.drop 32)

/-- The words of a bit vector; unused bits are zero. -/
def packWords (l : List Bool) : List Nat := packN ((l.length + 31) / 32) l

/-- The bits of a word. -/
def bitsOfWord (w : Nat) : List Bool := (List.range 32).map (fun i => w.testBit i)

/-- The structure `BitSeq`: `order`, `head`, `bits`, `data`. A vector that was built by pushing starts at bit 0. -/
def encodeBitVec (l : List Bool) : Bytes :=
  encodeBytes orderName ++ ([32, 0] ++ (encodeU64 l.length ++ encodeSeq encodeU32 (packWords l)))

/-- The same read back. The order must be the expected one, the width that of a word, the index below it; there may be at most
`usize::MAX / 8` bits, and the words must hold them. Unused bits and words may be anything. -/
def decodeBitVec (word : Nat) : Decoder (List Bool) := do
  let n ← decodeU64
  check (decide (n = orderName.length))
  let name ← take n
  check (decide (name = orderName))
  let head ← take 2
  check (decide (head.head? = some 32))
  let index := ofLE (head.drop 1)
  check (decide (index < 32))
  let bits ← decodeU64
  check (decide (8 * bits < word))
  let data ← decodeSeq word decodeU32
  check (decide (index + bits ≤ 32 * data.length))
  return ((data.flatMap bitsOfWord).drop index).take bits

/-- The whole format: bit vectors of `bitvec`, attestations in SSZ (core/src/serde_utils.rs:72-96), and whatever keys and signatures are checked
with. -/
def realWire (keyValid sigValid : Bytes → Bool) : WireExt where
  encodeBits := encodeBitVec
  decodeBits := decodeBitVec
  encodeAttestation := Ssz.encodeAttestation
  decodeAttestation := Ssz.decodeAttestation sigValid
  keyValid := keyValid

end Signal.Wire
