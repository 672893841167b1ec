import Verif.Model.Networks

/-!
# Independent specification: fork schedules
-/

namespace Signal.Spec

/-- Forks start in the order of their numbers. -/
def Ordered (s : ForkSchedule) : Prop := s.forks.Pairwise (fun f g => f.2 ≤ g.2)

/-- Fork `n` with version `version` is in force in the epoch: it has started (the base has from the beginning), and the next one has
not. -/
def InForce (s : ForkSchedule) (epoch n : Nat) (version : Bytes) : Prop :=
  (n = 0 ∧ version = s.genesisVersion ∨ ∃ start, 0 < n ∧ s.forks[n - 1]? = some (version, start) ∧ start ≤ epoch) ∧
  ∀ v start, s.forks[n]? = some (v, start) → epoch < start

/-- The record that a state of fork `n` has: its version and first epoch, and the version of the fork before. The base has no fork before
it and started at epoch 0. -/
def RecordOf (s : ForkSchedule) (n : Nat) (record : Fork) : Prop :=
  n = 0 ∧ record = ⟨s.genesisVersion, s.genesisVersion, 0⟩ ∨
  (0 < n ∧ s.forks[n - 1]? = some (record.currentVersion, record.epoch) ∧
    (n = 1 ∧ record.previousVersion = s.genesisVersion ∨
      ∃ start, 1 < n ∧ s.forks[n - 2]? = some (record.previousVersion, start)))

end Signal.Spec
