import Mathlib.Data.Rat.Floor
import Mathlib.Tactic.Linarith
import Verif.Spec.Slashing

/-!
# Independent specification: the bounds of docs/src/02_balance_drift.md

The guest counts votes by the balances in the state it starts from. At the epoch the votes are for, `n` epochs later, balances differ. The document
bounds the difference, and computes from the bounds a margin by which the counted votes have to exceed two thirds. Amounts are in ETH.
-/

namespace Signal.Spec

/-- Gwei as ETH. -/
def eth (gwei : Nat) : ℚ := (gwei : ℚ) / 1000000000

/-- The registry at the epoch of the votes: who is really active, with which balance (in Gwei, 0 if not active), and who has been slashed since. -/
structure Actual where
  active : List Nat
  balance : Nat → Nat
  slashed : List Nat

/-- Each validator is active once, and nobody else has a balance. -/
structure Actual.Proper (r : Actual) : Prop where
  once : r.active.Nodup
  others : ∀ i, i ∉ r.active → r.balance i = 0

/-- The voters that have not been slashed (`A_n`). -/
def Actual.attesting (r : Actual) (voters : List Nat) : List Nat := voters.filter (fun i => decide (i ∉ r.slashed))

/-- The active validators that are not among them. -/
def Actual.rest (r : Actual) (voters : List Nat) : List Nat := r.active.filter (fun i => decide (i ∉ r.attesting voters))

/-- The balance with which the guest counts a validator. -/
def countedBalance (vs : List Validator) (e i : Nat) : Nat := if i ∈ activeIndices vs e then registeredBalance vs i else 0

/-- `A`: by how much the balances of the others have increased. -/
def Actual.increase (r : Actual) (vs : List Validator) (e : Nat) (voters : List Nat) : ℚ :=
  eth ((r.rest voters).map (fun i => r.balance i - countedBalance vs e i)).sum

/-- `E`: by how much the balances of the attesting validators have decreased. -/
def Actual.decrease (r : Actual) (vs : List Validator) (e : Nat) (voters : List Nat) : ℚ :=
  eth ((r.attesting voters).map (fun i => countedBalance vs e i - r.balance i)).sum

/-- `S`: the balance of the validators slashed since. -/
def Actual.slashedBalance (r : Actual) (vs : List Validator) (e : Nat) : ℚ := eth (r.slashed.map (countedBalance vs e)).sum

/-- The balance that is really active. -/
def Actual.total (r : Actual) : Nat := (r.active.map r.balance).sum

/-- What the attesting validators really have. -/
def Actual.attestingBalance (r : Actual) (voters : List Nat) : Nat := ((r.attesting voters).map r.balance).sum

/-- Exits and consolidations in `n` epochs (lines 52-53). -/
def churnBound (B₀ n : ℚ) : ℚ := n * 2 * max 128 (B₀ / 65536)

/-- The bounds on `A` and `E` (lines 102-110) and on balance and number of the active validators (lines 116-120), with `B₀` and `V₀` the balance and
number of the validators the guest counts as active. -/
structure Documented (r : Actual) (vs : List Validator) (e : Nat) (voters : List Nat) (n : ℚ) : Prop where
  increase : r.increase vs e voters ≤
    churnBound (eth (balanceOf vs (activeIndices vs e))) n + 48 * n + (r.rest voters).length + 128960 * n
  decrease : r.decrease vs e voters ≤
    churnBound (eth (balanceOf vs (activeIndices vs e))) n + 48 * n + eth r.total * n * (n + 1) / 33554432 +
      ((r.attesting voters).filter (fun i => decide (i ∈ r.active))).length
  total : eth r.total ≤
    eth (balanceOf vs (activeIndices vs e)) + 256 * n + 48 * n + ((activeIndices vs e).length + 128960 * n)
  number : (r.active.length : ℚ) ≤ (activeIndices vs e).length + 8 * n

/-- The sum that `calculate_delta` (lines 125-149) rounds up. -/
def deltaSum (B₀ V₀ S n : ℚ) : ℚ :=
  let Bₙ := B₀ + 256 * n + 48 * n + V₀ + 128960 * n
  let Vₙ := V₀ + 8 * n
  let churnTerm := n * 2 * max 128 (B₀ / 65536)
  let rewardTerm := 48 * n
  let inactivityTerm := (Bₙ * n * (n + 1)) / 100663296
  let hysteresisTerm := 2 * (Vₙ + 128960 * n) / 3
  rewardTerm + churnTerm + inactivityTerm + hysteresisTerm + S

/-- `calculate_delta` (lines 125-149). -/
def calculateDelta (B₀ V₀ S n : ℚ) : ℤ := ⌈deltaSum B₀ V₀ S n⌉

end Signal.Spec
