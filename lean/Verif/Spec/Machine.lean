import Verif.Model.Verify

/-!
# Independent specification: the same program on machines of different size

The host has 64-bit words, the guest 32-bit words and less memory.
-/

namespace Signal.Spec

/-- The same external functions on a machine with `usize` values below `usizeMod` and room for `capacity` stack nodes. -/
def onMachine (X : Ext) (usizeMod capacity : Nat) : Ext :=
  { X with usizeMod := usizeMod, stackCapacity := capacity }

/-- A word with `word` values holds all the numbers the committees of an epoch with these active validators need: epochs and slots can be
reduced without loss, indices fit, and so does the product of the number of validators and of committees. -/
structure FitsWord (word : Nat) (spec : ChainSpec) (active : List (Nat × ValidatorInfo)) : Prop where
  history : spec.epochsPerHistoricalVector ∣ word
  slots : spec.slotsPerEpoch ∣ word
  indices : ∀ x ∈ active, x.1 + 1 < word
  count : max 1 spec.maxCommitteesPerSlot * spec.slotsPerEpoch < word
  range : active.length * (max 1 spec.maxCommitteesPerSlot * spec.slotsPerEpoch) < word

/-- The shuffle returns as many indices as it is given. -/
def KeepsLength (X : Ext) : Prop :=
  ∀ l rounds seed out, X.shuffleList l rounds seed = some out → out.length = l.length

end Signal.Spec
