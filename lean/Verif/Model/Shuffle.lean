import Verif.Model.Ext

/-!
# Model of the shuffle

`swap_or_not_shuffle::shuffle_list(input, rounds, seed, forwards = false)`, called in core/src/committee_cache.rs:89-95. The crate is
external (sigp/lighthouse at the revision of Cargo.toml:54) and its source is not at hand: this is `shuffle_list.rs` as published. In the
other modules the shuffle is the parameter `Ext.shuffleList`; here it is a program. Shifts and masks are written as quotients and
remainders.
-/

namespace Signal.Shuffle

/-- `input.swap(i, j)`; both are in range whenever it is called. Inside the call of core/src/committee_cache.rs:89-95. -/
def swap (l : List Nat) (i j : Nat) : List Nat := (l.set i (l.getD j 0)).set j (l.getD i 0)

/-- `buf.mix_in_position(position); buf.hash()`, where `buf` holds the seed and the round. Inside the call of core/src/committee_cache.rs:89-95. -/
def sourceAt (hash : Bytes → Bytes) (buf : Bytes) (position : Nat) : Bytes := hash (buf ++ leBytes 4 position)

/-- The two inner loops, `m` passes: `i` goes up and `j` goes down. The digest is renewed when `j` enters a new window of 256 positions,
and the byte when `j` enters a new group of eight. Inside the call of core/src/committee_cache.rs:89-95. -/
def swapLoop (hash : Bytes → Bytes) (buf : Bytes) : (m i j : Nat) → (source : Bytes) → (byte : Nat) → List Nat → List Nat
  | 0, _, _, _, _, l => l
  | m + 1, i, j, source, byte, l =>
    let source := if j % 256 = 255 then sourceAt hash buf (j / 256) else source
    let byte := if j % 8 = 7 then (source.getD (j % 256 / 8) 0).toNat else byte
    let l := if byte / 2 ^ (j % 8) % 2 = 1 then swap l i j else l
    swapLoop hash buf m (i + 1) (j - 1) source byte l

/-- One pass of the outer loop. `cast` is the number of values of the integer type in which the pivot is reduced modulo the length. Inside the call of core/src/committee_cache.rs:89-95. -/
def round (hash : Bytes → Bytes) (cast : Nat) (seed : Bytes) (r : Nat) (l : List Nat) : List Nat :=
  let buf := seed ++ [UInt8.ofNat r]
  let n := l.length
  let pivot := ofLE ((hash buf).take 8) % cast % n
  let mirror := (pivot + 1) / 2
  let source := sourceAt hash buf (pivot / 256)
  let byte := (source.getD (pivot % 256 / 8) 0).toNat
  let l := swapLoop hash buf mirror 0 pivot source byte l
  let mirror := (pivot + n + 1) / 2
  let last := n - 1
  let source := sourceAt hash buf (last / 256)
  let byte := (source.getD (last % 256 / 8) 0).toNat
  swapLoop hash buf (mirror - (pivot + 1)) (pivot + 1) last source byte l

/-- The outer loop, from round `r - 1` down to round 0. Inside the call of core/src/committee_cache.rs:89-95. -/
def rounds (hash : Bytes → Bytes) (cast : Nat) (seed : Bytes) : (r : Nat) → List Nat → List Nat
  | 0, l => l
  | r + 1, l => rounds hash cast seed r (round hash cast seed r l)

/-- `shuffle_list` with `forwards = false` (core/src/committee_cache.rs:89-95). The bound `usize::MAX / 2` is weaker than `2^24` on both machines. -/
def shuffleList (hash : Bytes → Bytes) (cast : Nat) (l : List Nat) (roundCount : Nat) (seed : Bytes) : Option (List Nat) :=
  if l = [] ∨ 2 ^ 24 < l.length ∨ roundCount = 0 then none else some (rounds hash cast seed roundCount l)

end Signal.Shuffle
