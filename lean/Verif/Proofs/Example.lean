import Verif.Proofs.Bytes
import Verif.Model.Signing

/-! A toy instance of the external functions, used only to show that hypotheses can be met. -/

namespace Signal

/-- A toy mixing function in place of SHA-256. -/
def toyHash (b : Bytes) : Bytes := leBytes 32 (b.foldl (fun a x => (a * 257 + x.toNat + 1) % 2 ^ 256) 7)

/-- Insertion into a list ordered by second components. -/
def insertByEpoch (x : Nat × Nat) : List (Nat × Nat) → List (Nat × Nat)
  | [] => [x]
  | y :: l => if x.2 ≤ y.2 then x :: y :: l else y :: insertByEpoch x l

/-- Insertion sort by second components. -/
def sortPairs : List (Nat × Nat) → List (Nat × Nat)
  | [] => []
  | x :: l => insertByEpoch x (sortPairs l)

theorem insertByEpoch_perm (x : Nat × Nat) (l : List (Nat × Nat)) :
    (insertByEpoch x l).Perm (x :: l) := by
  induction l with
  | nil => exact List.Perm.refl _
  | cons y l ih =>
    simp only [insertByEpoch]
    split
    · exact List.Perm.refl _
    · exact (List.Perm.cons y ih).trans (List.Perm.swap x y l)

theorem sortPairs_perm (l : List (Nat × Nat)) : (sortPairs l).Perm l := by
  induction l with
  | nil => exact List.Perm.refl _
  | cons x l ih => exact (insertByEpoch_perm x _).trans (List.Perm.cons x ih)

theorem insertByEpoch_sorted (x : Nat × Nat) (l : List (Nat × Nat))
    (h : l.Pairwise (fun a b => a.2 ≤ b.2)) : (insertByEpoch x l).Pairwise (fun a b => a.2 ≤ b.2) := by
  induction l with
  | nil => simp [insertByEpoch]
  | cons y l ih =>
    rw [List.pairwise_cons] at h
    simp only [insertByEpoch]
    split
    · rename_i hxy
      refine List.pairwise_cons.2 ⟨?_, List.pairwise_cons.2 h⟩
      intro z hz
      rcases List.mem_cons.1 hz with rfl | hz
      · exact hxy
      · exact Nat.le_trans hxy (h.1 z hz)
    · rename_i hxy
      refine List.pairwise_cons.2 ⟨?_, ih h.2⟩
      intro z hz
      rcases List.mem_cons.1 ((insertByEpoch_perm x l).mem_iff.1 hz) with rfl | hz
      · omega
      · exact h.1 z hz

theorem sortPairs_sorted (l : List (Nat × Nat)) : (sortPairs l).Pairwise (fun a b => a.2 ≤ b.2) := by
  induction l with
  | nil => simp [sortPairs]
  | cons x l ih => exact insertByEpoch_sorted x _ ih

/-- Fill up to the 96 bytes of a signature. -/
def padSig (b : Bytes) : Bytes := b ++ List.replicate (96 - b.length) 0

/-- A toy environment: identity shuffle, a "signature" is valid if it is the concatenation of the message
and the keys' first bytes, filled up with zeros. -/
def exExt : Ext where
  sha256 := toyHash
  sha256_length b := by simp [toyHash]
  stackCapacity := 1000000
  usizeMod := 2 ^ 32
  pkSerialize k := (k ++ List.replicate 48 0).take 48
  pkSerialize_length k := by simp
  shuffleList l _ _ := some l
  fastAggregateVerify sig msg keys := sig = padSig (msg ++ keys.map (·.headD 0))
  computeDomain := Signing.computeDomain toyHash Signing.beaconAttester
  sortByEpoch := sortPairs
  sortByEpoch_perm := sortPairs_perm
  sortByEpoch_sorted := sortPairs_sorted

end Signal
