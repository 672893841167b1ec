import Verif.Spec.EndToEnd

/-!
# Independent specification: slashable pairs of votes

After `is_slashable_attestation_data` of the consensus specification.
-/

namespace Signal.Spec

/-- `a` surrounds `b`: it starts before and ends after it. -/
def Surrounds (a b : Link) : Prop := a.source.epoch < b.source.epoch ∧ b.target.epoch < a.target.epoch

/-- Voting for both links is slashable: they are different but have the same target epoch, or one
surrounds the other. -/
def Slashable (a b : Link) : Prop :=
  (a ≠ b ∧ a.target.epoch = b.target.epoch) ∨ Surrounds a b ∨ Surrounds b a

/-- A relation "is an ancestor of" on checkpoints, respected by a list of votes: every vote has a source that is an
ancestor of its target. -/
structure Ancestry (anc : Checkpoint → Checkpoint → Prop) (votes : List Attestation) : Prop where
  refl : ∀ c, anc c c
  trans : ∀ a b c, anc a b → anc b c → anc a c
  votes : ∀ a ∈ votes, anc a.data.source a.data.target

/-- Effective balance of a list of registered validators. -/
def balanceOf (vs : List Validator) (l : List Nat) : Nat := (l.map (registeredBalance vs)).sum

/-- All validators active at one or the other epoch. -/
def activeAtEither (vs : List Validator) (e e' : Nat) : List Nat :=
  activeIndices vs e ++ (activeIndices vs e').filter (fun i => decide (i ∉ activeIndices vs e))

/-- The reader counts with the active sets `active` and the effective balances `bal`. -/
def CountsWith (R : Reader) (active : Nat → List Nat) (bal : Nat → Nat) : Prop :=
  ∀ e l, R.activeValidators e = .ok l →
    (OMap.ofList l).keys = active e ∧ ∀ i ∈ active e, balance (OMap.ofList l) i = bal i

/-- Combined balance of some validators. -/
def sumOf (bal : Nat → Nat) (l : List Nat) : Nat := (l.map bal).sum

/-- Union of two sets of validators. -/
def union (l m : List Nat) : List Nat := l ++ m.filter (fun i => decide (i ∉ l))

/-- Validator `i` signed a vote for the link that the reader supplies: it is among the active signers of an
attestation for this link whose aggregate signature verifies. -/
def Signed (X : Ext) (R : Reader) (atts : List Attestation) (link : Link) (i : Nat) : Prop :=
  ∃ l, R.activeValidators link.target.epoch = .ok l ∧ ∃ b ∈ atts, linkOf b = link ∧
    ∃ signers, i ∈ signers ∧ Vote X R (OMap.ofList l) b signers

end Signal.Spec
