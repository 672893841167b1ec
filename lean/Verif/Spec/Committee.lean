import Verif.Model.Basic

/-!
# Independent specification of beacon committees and attesting indices

From the Ethereum consensus specification (`compute_committee`, `get_beacon_committee`,
`get_attesting_indices`), over exact natural numbers.
-/

namespace Signal.Spec

/-- `compute_committee`: the slice of the shuffled list for committee `index` of `count`. -/
def committee (shuffled : List Nat) (count index : Nat) : List Nat :=
  let n := shuffled.length
  (shuffled.drop (n * index / count)).take (n * (index + 1) / count - n * index / count)

/-- `get_beacon_committee(slot, index)`, with `perSlot` committees per slot. -/
def beaconCommittee (shuffled : List Nat) (perSlot slotsPerEpoch slot index : Nat) : List Nat :=
  committee shuffled (perSlot * slotsPerEpoch) (slot % slotsPerEpoch * perSlot + index)

/-- `get_committee_indices`: the positions of the set bits, ascending. -/
def setBits (bits : List Bool) : List Nat :=
  (List.range bits.length).filter (fun i => bits[i]? == some true)

/-- `get_attesting_indices`: the aggregation bits run over the concatenation of the committees named
by the committee bits and select the attesters. -/
def attesters (committees : Nat → List Nat) (committeeBits aggregationBits : List Bool) : List Nat :=
  ((((setBits committeeBits).flatMap committees).zip aggregationBits).filter (·.2)).map (·.1)

/-- What the specification asserts about the bits: every named committee exists, the aggregation bits
cover exactly the named committees, and each named committee has an attester. -/
structure GoodBits (committees : Nat → List Nat) (perSlot : Nat)
    (committeeBits aggregationBits : List Bool) : Prop where
  exist : ∀ c ∈ setBits committeeBits, c < perSlot
  length : aggregationBits.length = ((setBits committeeBits).flatMap committees).length
  attended : ∀ pre c post, setBits committeeBits = pre ++ c :: post →
    ∃ j < (committees c).length, aggregationBits[(pre.flatMap committees).length + j]? = some true

/-- `usize` arithmetic on committee positions does not wrap: true on the 32-bit guest up to
`2^32 / 2048` validators. -/
structure NoUsizeWrap (usizeMod validators perSlot slotsPerEpoch : Nat) : Prop where
  slots : slotsPerEpoch ∣ usizeMod
  slots_pos : 0 < slotsPerEpoch
  count : perSlot * slotsPerEpoch < usizeMod
  range : validators * (perSlot * slotsPerEpoch) < usizeMod

end Signal.Spec
