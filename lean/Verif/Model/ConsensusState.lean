import Verif.Model.Basic

/-!
# Model of core/src/consensus_state.rs and the checkpoint types of core/src/lib.rs
-/

namespace Signal

/-- `Checkpoint` (core/src/lib.rs:104-142): an epoch (`u64`) and a block root. -/
structure Checkpoint where
  epoch : Nat
  root : Root
  deriving Repr, DecidableEq

/-- `Checkpoint::default()` (derived, core/src/lib.rs:104): epoch 0, zero root. -/
def Checkpoint.zero : Checkpoint := ⟨0, zeroRoot⟩

/-- `Checkpoint::less_or_equal` (core/src/lib.rs:139-141). -/
def Checkpoint.lessOrEqual (a b : Checkpoint) : Bool := decide (a.epoch < b.epoch) || decide (a = b)

/-- `Link` (core/src/lib.rs:194-198). -/
structure Link where
  source : Checkpoint
  target : Checkpoint
  deriving Repr, DecidableEq

/-- `ConsensusState` (core/src/consensus_state.rs:26-30). -/
structure ConsensusState where
  currentJustified : Checkpoint
  finalized : Checkpoint
  deriving Repr, DecidableEq

/-- `ConsensusError` (core/src/consensus_state.rs:33-43). -/
inductive ConsensusError where
  | invalidState
  | invalidTransition
  | twoFinality
  | arith (e : ArithError)
  deriving Repr, DecidableEq

namespace ConsensusState

/-- `ConsensusState::default()` (derived, core/src/consensus_state.rs:26). -/
def zero : ConsensusState := ⟨Checkpoint.zero, Checkpoint.zero⟩

/-- `is_valid` (core/src/consensus_state.rs:84-87). -/
def isValid (s : ConsensusState) : Bool :=
  decide (s.finalized.epoch < s.currentJustified.epoch) || decide (s = zero)

/-- `ConsensusState::new` (core/src/consensus_state.rs:58-65): aborts on an invalid state. -/
def new {ε : Type} (cj fin : Checkpoint) : Res ε ConsensusState := do
  let state : ConsensusState := ⟨cj, fin⟩
  assert state.isValid
  return state

/-- `state_transition` (core/src/consensus_state.rs:98-129). The two `&&` conditions evaluate
`safe_add(1)?` only if the source matches, as in the code. -/
def stateTransition (s : ConsensusState) (link : Link) : Res ConsensusError ConsensusState := do
  assert s.isValid
  let source := link.source
  let target := link.target
  let case1 ←
    if s.currentJustified = source then do
      let next ← (safeAdd source.epoch 1).mapErr ConsensusError.arith
      pure (decide (target.epoch = next))
    else pure false
  if case1 then
    return { finalized := source, currentJustified := target }
  let case2 ←
    if s.currentJustified = source then do
      let next ← (safeAdd s.currentJustified.epoch 1).mapErr ConsensusError.arith
      pure (decide (next < target.epoch))
    else pure false
  if case2 then
    return { finalized := s.finalized, currentJustified := target }
  .err .invalidTransition

/-- `less_or_equal` on states (core/src/consensus_state.rs:191-197). -/
def lessOrEqual (s t : ConsensusState) : Bool :=
  s.finalized.lessOrEqual t.finalized && s.currentJustified.lessOrEqual t.currentJustified

/-- `transition_link` (core/src/consensus_state.rs:140-189). `Epoch - Epoch` saturates. -/
def transitionLink (s other : ConsensusState) : Res ConsensusError (Option Link) := do
  assert s.isValid
  ensure other.isValid ConsensusError.invalidTransition
  ensure (s.lessOrEqual other) ConsensusError.invalidTransition
  if s.currentJustified = other.currentJustified then
    ensure (decide (s.finalized = other.finalized)) ConsensusError.invalidTransition
    return none
  let target := other.currentJustified
  if s.finalized ≠ other.finalized then
    if other.finalized = s.currentJustified ∧ satSub target.epoch other.finalized.epoch = 1 then
      return some { source := other.finalized, target := target }
    if satSub target.epoch other.finalized.epoch = 2 then
      .err .twoFinality
    else
      .err .invalidTransition
  else
    ensure (decide (1 < satSub target.epoch s.currentJustified.epoch)) ConsensusError.invalidTransition
    return some { source := s.currentJustified, target := target }

end ConsensusState

/-- Applying a list of links one after the other with `state_transition`, as the loop of
`verify` (core/src/verify.rs:87-151) does with the links of the attestation groups. -/
def applyLinks (s : ConsensusState) : List Link → Res ConsensusError ConsensusState
  | [] => .ok s
  | l :: ls => do
    let s' ← s.stateTransition l
    applyLinks s' ls

end Signal
