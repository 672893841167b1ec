import Verif.Model.Providers

/-!
# Independent specification for the state providers
-/

namespace Signal.Spec

variable {σ : Type}

/-- The latest block header of a state, with the root of the state filled in: the header of the block whose post
state it is. -/
def filledHeader (ops : StateOps σ) (s : σ) : Header where
  slot := (ops.latestBlockHeader s).slot
  proposerIndex := (ops.latestBlockHeader s).proposerIndex
  parentRoot := (ops.latestBlockHeader s).parentRoot
  stateRoot := ops.hashTreeRoot s
  bodyRoot := (ops.latestBlockHeader s).bodyRoot

/-- The node is honest about `chain`, the states of the chain by slot: when it answers, it answers with the
state for that slot. It may fail at any time. -/
def Honest (chain : Nat → σ) (api : Nat → Option σ) : Prop := ∀ slot s, api slot = some s → s = chain slot

/-- The events ask an honest node for slots in the range of `u64`. -/
def HonestEvents (chain : Nat → σ) (events : List (ProviderEvent σ)) : Prop :=
  ∀ slot api w, ProviderEvent.request slot api w ∈ events → slot < 2 ^ 64 ∧ Honest chain api

/-- Every state file in the directory holds what was written for that slot: all of it or the first bytes. -/
def OnlyPrefixes (ops : StateOps σ) (chain : Nat → σ) (dir : Dir) : Prop :=
  ∀ slot < 2 ^ 64, ∀ content, dir.lookup (stateFile slot) = some (.file content) →
    ∃ k, content = (ops.serialize (chain slot)).take k

/-- The file for the slot is absent or complete. -/
def Intact (ops : StateOps σ) (chain : Nat → σ) (dir : Dir) (slot : Nat) : Prop :=
  dir.lookup (stateFile slot) = none ∨
    dir.lookup (stateFile slot) = some (.file (ops.serialize (chain slot)))

/-- Facts about the library: a state knows its slot and reading back what was written gives the state. -/
structure RoundTrip (ops : StateOps σ) (chain : Nat → σ) : Prop where
  slot : ∀ slot < 2 ^ 64, ops.slot (chain slot) = slot
  read : ∀ slot < 2 ^ 64, ops.deserialize (ops.serialize (chain slot)) = some (chain slot)

/-- The first bytes of a serialized state are never a different serialized state. -/
def NoWrongPrefix (ops : StateOps σ) (chain : Nat → σ) : Prop :=
  ∀ slot < 2 ^ 64, ∀ k s, ops.deserialize ((ops.serialize (chain slot)).take k) = some s → s = chain slot

end Signal.Spec
