import Verif.Model.Ext

/-!
# Specification: what a run asks of external code

Used to count the costly calls of a run without speaking of the order or the time of steps: a run that asks few questions is fixed by the answers to them.
-/

namespace Signal.Spec

/-- Questions to external code: strings to hash, keys to compress, lists to shuffle, domains, signatures to check and lists to sort. -/
structure Questions where
  hashes : List Bytes := []
  keys : List Bytes := []
  shuffles : List (List Nat × Nat × Bytes) := []
  domains : List (Bytes × Root) := []
  signatures : List (Bytes × Bytes × List Bytes) := []
  sorts : List (List (Nat × Nat)) := []

/-- `X'` is a machine like `X` and answers these questions the same way; it may answer any other question differently. -/
structure Agree (q : Questions) (X X' : Ext) : Prop where
  word : X'.usizeMod = X.usizeMod
  capacity : X'.stackCapacity = X.stackCapacity
  hashes : ∀ b ∈ q.hashes, X'.sha256 b = X.sha256 b
  keys : ∀ k ∈ q.keys, X'.pkSerialize k = X.pkSerialize k
  shuffles : ∀ l ∈ q.shuffles, X'.shuffleList l.1 l.2.1 l.2.2 = X.shuffleList l.1 l.2.1 l.2.2
  domains : ∀ d ∈ q.domains, X'.computeDomain d.1 d.2 = X.computeDomain d.1 d.2
  signatures : ∀ s ∈ q.signatures, X'.fastAggregateVerify s.1 s.2.1 s.2.2 = X.fastAggregateVerify s.1 s.2.1 s.2.2
  sorts : ∀ l ∈ q.sorts, X'.sortByEpoch l = X.sortByEpoch l

/-- The outcome of `f` with `X` is fixed by the answers to the questions `q`. -/
def FixedBy {α : Type} (q : Questions) (f : Ext → α) (X : Ext) : Prop := ∀ X', Agree q X X' → f X' = f X

end Signal.Spec
