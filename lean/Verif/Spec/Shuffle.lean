import Verif.Model.Ext

/-!
# Independent specification: `compute_shuffled_index` and `compute_committee` of the Ethereum consensus specification
-/

namespace Signal.Spec

/-- The bit that decides whether `index` is exchanged with `flip` in round `r`. -/
def swapBit (hash : Bytes → Bytes) (seed : Bytes) (r position : Nat) : Nat :=
  let source := hash (seed ++ [UInt8.ofNat r] ++ leBytes 4 (position / 256))
  let byte := (source.getD (position % 256 / 8) 0).toNat
  byte / 2 ^ (position % 8) % 2

/-- One round of `compute_shuffled_index` for `n` indices. -/
def shuffleRound (hash : Bytes → Bytes) (seed : Bytes) (n r index : Nat) : Nat :=
  let pivot := ofLE ((hash (seed ++ [UInt8.ofNat r])).take 8) % n
  let flip := (pivot + n - index) % n
  let position := max index flip
  if swapBit hash seed r position = 1 then flip else index

/-- `compute_shuffled_index(index, n, seed)`: the rounds in ascending order. -/
def shuffledIndex (hash : Bytes → Bytes) (roundCount : Nat) (seed : Bytes) (n index : Nat) : Nat :=
  (List.range roundCount).foldl (fun i r => shuffleRound hash seed n r i) index

/-- `compute_committee(indices, seed, index, count)`. -/
def computeCommittee (hash : Bytes → Bytes) (roundCount : Nat) (indices : List Nat) (seed : Bytes) (index count : Nat) : List Nat :=
  let n := indices.length
  let first := n * index / count
  let last := n * (index + 1) / count
  (List.range' first (last - first)).map (fun i => indices.getD (shuffledIndex hash roundCount seed n i) 0)

end Signal.Spec
