import Verif.Model.Sha256
import Verif.Model.Signing
import Verif.Model.Shuffle

/-!
# SHA-256 as an instance of the hash parameter
-/

namespace Signal
open Sha

theorem leBytes_len (k n : Nat) : (leBytes k n).length = k := by
  induction k generalizing n with
  | zero => rfl
  | succ k ih => simp [leBytes, ih]

theorem blocks_length (n : Nat) (h : List Nat) (m : Bytes) (hh : h.length = 8) : (blocks n h m).length = 8 := by
  induction n generalizing h m with
  | zero => exact hh
  | succ n ih => exact ih _ _ rfl

theorem sha256_length (m : Bytes) : (sha256 m).length = 32 := by
  have key : ∀ l : List Nat, (l.flatMap (Signal.beBytes 4)).length = 4 * l.length := by
    intro l
    induction l with
    | nil => rfl
    | cons a l ih => simp [List.flatMap_cons, Signal.beBytes, leBytes_len, ih]; omega
  unfold sha256
  rw [key, blocks_length _ _ _ rfl]

/-- The external functions with SHA-256 for the hash, the published shuffle and the attester domain of the consensus specification. What
remains open: BLS (`serialize`, `verify`), the unstable sort, the allocator and the word size. -/
def realExt (X : Ext) : Ext :=
  { X with
    sha256 := sha256
    sha256_length := sha256_length
    shuffleList := Shuffle.shuffleList sha256 (2 ^ 64)
    computeDomain := Signing.computeDomain sha256 Signing.beaconAttester }

end Signal
