import Verif.Model.Verify

/-!
# Model of host/src/input_reader/assert_input_reader.rs
-/

namespace Signal

/-- The comparison of two active validators (host/src/input_reader/assert_input_reader.rs:72-78): the effective balance
and the exit epoch are taken over before comparing. -/
def agreeOn (a b : Nat × ValidatorInfo) : Bool :=
  decide (a.1 = b.1) &&
    decide ({ a.2 with effectiveBalance := b.2.effectiveBalance, exitEpoch := b.2.exitEpoch } = b.2)

/-- Walking two iterators in step (lines 68-88, 103-114): they have to end together and to pass `same` at each step. -/
def inStep {α : Type} (same : α → α → Bool) : List α → List α → Bool
  | [], [] => true
  | a :: as, b :: bs => same a b && inStep same as bs
  | _, _ => false

/-- One read (e.g. lines 48-53): an error of the first reader is passed on, one of the second aborts, and so does a
difference. -/
def assertRead {ε α : Type} (same : α → α → Bool) (a b : Res ε α) : Res ε α := do
  let x ← a
  let y ← b.unwrap
  assert (same x y)
  return x

/-- `AssertInputReader` (host/src/input_reader/assert_input_reader.rs:21-130). The iterators are lazy; here a difference
aborts at once, which makes no difference to successful runs. `chain_spec` (lines 41-46) aborts if the chain
specifications differ; they are assumed equal where this is used. -/
def assertReader (A B : Reader) : Reader where
  spec := A.spec
  genesisValidatorsRoot := assertRead (fun a b => decide (a = b)) A.genesisValidatorsRoot B.genesisValidatorsRoot
  fork e := assertRead (fun a b => decide (a = b)) (A.fork e) (B.fork e)
  activeValidators e := assertRead (inStep agreeOn) (A.activeValidators e) (B.activeValidators e)
  randaoMix e i := assertRead (fun a b => decide (a = b)) (A.randaoMix e i) (B.randaoMix e i)
  attestations := assertRead (inStep (fun a b => decide (a = b))) A.attestations B.attestations
  consensusState := assertRead (fun a b => decide (a = b)) A.consensusState B.consensusState
  slotForBlock r := assertRead (fun a b => decide (a = b)) (A.slotForBlock r) (B.slotForBlock r)

end Signal
