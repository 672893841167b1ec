import Verif.Spec.Shipped
import Verif.Spec.History
import Verif.Model.Wire

/-!
# Independent specification: light clients that follow files

A light client holds a state. It takes a file, the guest commits a journal on it, the journal starts from the client's state, and
its end is the client's new state.
-/

namespace Signal.Spec
open Wire

/-- A client in the first state that follows the files holds the last state in the end. -/
inductive Follows (guest : Bytes → Res Unit Bytes) : ConsensusState → List Bytes → ConsensusState → Prop where
  | nil (s : ConsensusState) : Follows guest s [] s
  | cons {s s' s'' : ConsensusState} {file journal : Bytes} {files : List Bytes} : guest file = .ok journal →
      Abi.cliReadJournal journal = .ok (s, s') → Follows guest s' files s'' → Follows guest s (file :: files) s''

/-- The guest input that is read from a file. -/
def Reads (W : WireExt) (X : Ext) (file : Bytes) (input : GuestInput) : Prop :=
  ∃ frame, Frame.readFrame file = some frame ∧ decodeInput W X.usizeMod frame = some input

/-- The proofs in the files start from blocks and states of the chain. -/
def RealFiles (W : WireExt) (X : Ext) (spec : ChainSpec) (chain : Chain) (files : List Bytes) : Prop :=
  ∀ file ∈ files, ∀ input, Reads W X file input →
    RealChainDigests X spec input (chain input.consensusState.finalized.root).1 (stateBehind chain input)

/-- An epoch that votes of an input have as their target. -/
def Targets (input : GuestInput) (e : Nat) : Prop := ∃ a ∈ input.attestations, a.data.target.epoch = e

/-- At all target epochs of the files' votes there are at least two ETH at stake. -/
def Funded (W : WireExt) (X : Ext) (spec : ChainSpec) (chain : Chain) (files : List Bytes) : Prop :=
  ∀ file ∈ files, ∀ input, Reads W X file input → ∀ e, Targets input e →
    2000000000 ≤ balanceOf (registryBehind spec chain input) (activeIndices (registryBehind spec chain input) e)

/-- A relation "is an ancestor of" on checkpoints, in which the source of each vote in the files is an ancestor of its target. -/
structure AncestryOf (W : WireExt) (X : Ext) (anc : Checkpoint → Checkpoint → Prop) (files : List Bytes) : Prop where
  refl : ∀ c, anc c c
  trans : ∀ a b c, anc a b → anc b c → anc a c
  votes : ∀ file ∈ files, ∀ input, Reads W X file input → ∀ a ∈ input.attestations, anc a.data.source a.data.target

/-- Of the votes in two inputs, the owner of the key has not signed two that are slashable together. -/
def NotBoth (X : Ext) (signed : Bytes → Bytes → Prop) (version : Nat → Bytes) (genesisValidatorsRoot key : Bytes) (input input' : GuestInput) :
    Prop :=
  ∀ a ∈ input.attestations, ∀ a' ∈ input'.attestations,
    signed key ((Duty.vote a.data (version a.data.target.epoch) genesisValidatorsRoot).message X) →
    signed key ((Duty.vote a'.data (version a'.data.target.epoch) genesisValidatorsRoot).message X) → ¬ Slashable (linkOf a) (linkOf a')

/-- Two files with votes for two links, and validators who signed for both: they are slashable, and with `W` and `W'` the active balances
at the two target epochs, each by the registry of its proof, and `U` the balance of the validators active in one or the other, each taken with
the greater of their balances, they have at least `percent` of `W + W'` less `U`. If `U` is at most `d` more than `W` and than `W'`, that is
`2 * percent - 100` of either less `d`. -/
structure Offence (X : Ext) (signed : Bytes → Bytes → Prop) (percent : Nat) (version : Nat → Bytes) (spec : ChainSpec) (chain : Chain)
    (input input' : GuestInput) (link link' : Link) (offenders : List Nat) : Prop where
  votes : ∃ a ∈ input.attestations, linkOf a = link
  votes' : ∃ a ∈ input'.attestations, linkOf a = link'
  slashable : Slashable link link'
  distinct : offenders.Nodup
  active : ∀ i ∈ offenders, i ∈ activeIndices (registryBehind spec chain input) link.target.epoch ∧
    i ∈ activeIndices (registryBehind spec chain input') link'.target.epoch
  signed : ∀ i ∈ offenders,
    SignedFor X signed (version link.target.epoch) (stateBehind chain input).genesisValidatorsRoot
      (registeredKey (registryBehind spec chain input) i) input.attestations link ∧
    SignedFor X signed (version link'.target.epoch) (stateBehind chain input').genesisValidatorsRoot
      (registeredKey (registryBehind spec chain input') i) input'.attestations link'
  weight :
    let vs := registryBehind spec chain input
    let vs' := registryBehind spec chain input'
    let active := activeIndices vs link.target.epoch
    let active' := activeIndices vs' link'.target.epoch
    percent * (balanceOf vs active + balanceOf vs' active') ≤
      100 * lesserBalance vs vs' offenders + 100 * greaterBalance vs vs' (union active active') ∧
    ∀ d, greaterBalance vs vs' (union active active') ≤ balanceOf vs active + d →
      greaterBalance vs vs' (union active active') ≤ balanceOf vs' active' + d →
      (2 * percent - 100) * balanceOf vs active ≤ 100 * (balanceOf vs offenders + d) ∧
      (2 * percent - 100) * balanceOf vs' active' ≤ 100 * (balanceOf vs' offenders + d)

/-- Validators active by the registries of a proof of the one and a proof of the other client who are not dishonest have one key in both, on one
chain, and have not signed two slashable votes of the files with it. -/
def HonestBut (W : WireExt) (X : Ext) (signed : Bytes → Bytes → Prop) (version : Nat → Bytes) (spec : ChainSpec) (chain : Chain)
    (files files' : List Bytes) (dishonest : List Nat) : Prop :=
  ∀ file ∈ files, ∀ file' ∈ files', ∀ input input', Reads W X file input → Reads W X file' input' →
    ∀ i e e', i ∈ activeIndices (registryBehind spec chain input) e → i ∈ activeIndices (registryBehind spec chain input') e' →
      i ∉ dishonest → (stateBehind chain input).genesisValidatorsRoot = (stateBehind chain input').genesisValidatorsRoot ∧
        registeredKey (registryBehind spec chain input) i = registeredKey (registryBehind spec chain input') i ∧
        NotBoth X signed version (stateBehind chain input).genesisValidatorsRoot (registeredKey (registryBehind spec chain input) i) input input'

/-- From a proof of the one to a proof of the other client the stake at the target epochs changes by at most `d`: the validators active in either, each with the greater
of their balances, have at most `d` more than those active in the one, and than those active in the other. -/
def SteadyStake (W : WireExt) (X : Ext) (spec : ChainSpec) (chain : Chain) (files files' : List Bytes) (d : Nat) : Prop :=
  ∀ file ∈ files, ∀ file' ∈ files', ∀ input input', Reads W X file input → Reads W X file' input' →
    ∀ e e', Targets input e → Targets input' e' →
      let vs := registryBehind spec chain input
      let vs' := registryBehind spec chain input'
      let active := activeIndices vs e
      let active' := activeIndices vs' e'
      greaterBalance vs vs' (union active active') ≤ balanceOf vs active + d ∧
      greaterBalance vs vs' (union active active') ≤ balanceOf vs' active' + d

/-- The dishonest have, with `d`, less than `percent` of the active balance, at all target epochs of the files' votes. -/
def FewerThan (W : WireExt) (X : Ext) (spec : ChainSpec) (chain : Chain) (files : List Bytes) (percent : Nat) (dishonest : List Nat) (d : Nat) :
    Prop :=
  ∀ file ∈ files, ∀ input, Reads W X file input → ∀ e, Targets input e →
    100 * (balanceOf (registryBehind spec chain input) dishonest + d) <
      percent * balanceOf (registryBehind spec chain input) (activeIndices (registryBehind spec chain input) e)

end Signal.Spec
