import Verif.Spec.Follow

/-!
# Independent specification: epoch processing of the beacon chain

Justification and finalization as in the consensus specification of Ethereum (`weigh_justification_and_finalization` of
`process_justification_and_finalization`), from genesis on. It is not part of the code under study: it is what the code has to follow
(docs/src/01_consensus_algorithm.md, Theorem 1).
-/

namespace Signal.Spec

/-- The fields of the beacon state that justification and finalization work on. `bit i` says that the epoch `i` before the last one processed is
justified. -/
structure Casper where
  previousJustified : Checkpoint
  currentJustified : Checkpoint
  finalized : Checkpoint
  bit0 : Bool
  bit1 : Bool
  bit2 : Bool
  bit3 : Bool
  deriving Repr, DecidableEq

/-- What a light client gets to see of it: the induced consensus state. -/
def Casper.induced (s : Casper) : ConsensusState := ⟨s.currentJustified, s.finalized⟩

/-- At genesis the checkpoints are zero and nothing is justified. -/
def Casper.genesis : Casper :=
  let zero : Checkpoint := ⟨0, List.replicate 32 0⟩
  ⟨zero, zero, zero, false, false, false, false⟩

/-- The justifications at the end of `epoch`. `root e` is the block at the start of epoch `e`, `counted l` says whether two thirds have voted for the link
`l`. The votes for the epoch before are those whose source is the previous justified checkpoint, for the epoch itself those whose source is the current
one: others are not included in blocks. -/
def Casper.justify (root : Nat → Root) (counted : Link → Bool) (epoch : Nat) (s : Casper) : Casper :=
  let previous : Checkpoint := ⟨epoch - 1, root (epoch - 1)⟩
  let current : Checkpoint := ⟨epoch, root epoch⟩
  let previousCounted := counted ⟨s.previousJustified, previous⟩
  let currentCounted := counted ⟨s.currentJustified, current⟩
  { previousJustified := s.currentJustified
    currentJustified := if currentCounted then current else if previousCounted then previous else s.currentJustified
    finalized := s.finalized
    bit0 := currentCounted
    bit1 := previousCounted || s.bit0
    bit2 := s.bit1
    bit3 := s.bit2 }

/-- The 2nd, 3rd and 4th most recent epochs are justified, the 2nd with the 4th as source. Here `s` is the state before, `t` has the new bits. -/
def Casper.rule234 (epoch : Nat) (s t : Casper) : Prop :=
  t.bit1 = true ∧ t.bit2 = true ∧ t.bit3 = true ∧ s.previousJustified.epoch + 3 = epoch

/-- The 2nd and 3rd most recent epochs are justified, the 2nd with the 3rd as source. -/
def Casper.rule23 (epoch : Nat) (s t : Casper) : Prop := t.bit1 = true ∧ t.bit2 = true ∧ s.previousJustified.epoch + 2 = epoch

/-- The 1st, 2nd and 3rd most recent epochs are justified, the 1st with the 3rd as source. -/
def Casper.rule123 (epoch : Nat) (s t : Casper) : Prop :=
  t.bit0 = true ∧ t.bit1 = true ∧ t.bit2 = true ∧ s.currentJustified.epoch + 2 = epoch

/-- The 1st and 2nd most recent epochs are justified, the 1st with the 2nd as source. -/
def Casper.rule12 (epoch : Nat) (s t : Casper) : Prop := t.bit0 = true ∧ t.bit1 = true ∧ s.currentJustified.epoch + 1 = epoch

instance (epoch : Nat) (s t : Casper) : Decidable (Casper.rule234 epoch s t) := inferInstanceAs (Decidable (_ ∧ _))
instance (epoch : Nat) (s t : Casper) : Decidable (Casper.rule23 epoch s t) := inferInstanceAs (Decidable (_ ∧ _))
instance (epoch : Nat) (s t : Casper) : Decidable (Casper.rule123 epoch s t) := inferInstanceAs (Decidable (_ ∧ _))
instance (epoch : Nat) (s t : Casper) : Decidable (Casper.rule12 epoch s t) := inferInstanceAs (Decidable (_ ∧ _))

/-- The processing at the end of `epoch`: justifications, then the four rules of finalization, one after the other. -/
def Casper.next (root : Nat → Root) (counted : Link → Bool) (epoch : Nat) (s : Casper) : Casper :=
  let t := s.justify root counted epoch
  let f := if Casper.rule234 epoch s t then s.previousJustified else s.finalized
  let f := if Casper.rule23 epoch s t then s.previousJustified else f
  let f := if Casper.rule123 epoch s t then s.currentJustified else f
  let f := if Casper.rule12 epoch s t then s.currentJustified else f
  { t with finalized := f }

/-- The state of the chain after `epoch`, that is at the first slot of `epoch + 1`. `counted e l` says whether at the end of epoch `e` the votes for `l`
in the blocks so far are two thirds. There is no processing in the first two epochs. -/
def beacon (root : Nat → Root) (counted : Nat → Link → Bool) : Nat → Casper
  | 0 => Casper.genesis
  | 1 => Casper.genesis
  | e + 2 => (beacon root counted (e + 1)).next root (counted (e + 2)) (e + 2)

/-- One of the two rules by which a link that skips an epoch finalizes its source (2-finality) applies at the end of `epoch`. -/
def SkipRule (root : Nat → Root) (counted : Nat → Link → Bool) (epoch : Nat) : Prop :=
  let s := beacon root counted (epoch - 1)
  let t := s.justify root (counted epoch) epoch
  Casper.rule234 epoch s t ∨ Casper.rule123 epoch s t

/-- At the end of the epoch a checkpoint is finalized that is two epochs behind the justified one. -/
def FinalizesTwoBehind (s t : Casper) : Prop := t.finalized ≠ s.finalized ∧ t.currentJustified.epoch = t.finalized.epoch + 2

/-- At the end of the epoch the epoch after the justified one gets justified, but not from the justified checkpoint: the votes were cast before that one was
justified, and their source is the justified checkpoint before it, or it is the first epoch after genesis. Nothing is finalized. -/
def JustifiesBeside (counted : Link → Bool) (s t : Casper) : Prop :=
  t.finalized = s.finalized ∧ t.currentJustified.epoch = s.currentJustified.epoch + 1 ∧
    counted ⟨s.previousJustified, t.currentJustified⟩ = true ∧
    (s.previousJustified.epoch < s.currentJustified.epoch ∨ s.currentJustified.epoch = 0)

/-- Up to the end of epoch `b` the node answers with the states of the chain, from the end of epoch `a` on. -/
def AnswersChain (spe : Nat) (ask : StateAnswers) (root : Nat → Root) (counted : Nat → Link → Bool) (a b : Nat) : Prop :=
  ∀ n, a ≤ n → n ≤ b → ChainAt spe ask (n + 1) (beacon root counted n).induced

/-- The checkpoint that is final after `a` is so until before the end of `b`, when another one gets final. -/
def NextFinality (root : Nat → Root) (counted : Nat → Link → Bool) (a b : Nat) : Prop :=
  a < b ∧ (∀ n, a ≤ n → n < b → (beacon root counted n).finalized = (beacon root counted a).finalized) ∧
    (beacon root counted b).finalized ≠ (beacon root counted a).finalized

/-- A step that leaves the way. -/
def LeavesWay (root : Nat → Root) (counted : Nat → Link → Bool) (n : Nat) : Prop :=
  FinalizesTwoBehind (beacon root counted n) (beacon root counted (n + 1)) ∨
    JustifiesBeside (counted (n + 1)) (beacon root counted n) (beacon root counted (n + 1))

end Signal.Spec
