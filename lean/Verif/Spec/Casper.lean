import Verif.Spec.Divergence

/-!
# Independent specification: what the beacon chain itself justifies and finalizes

Casper FFG as the beacon chain runs it, with the finalization of a checkpoint by a link that skips an epoch (2-finality), which light clients
leave out (docs/src/01_consensus_algorithm.md).
-/

namespace Signal.Spec
open Wire

/-- A checkpoint is justified if a chain of supermajority links leads to it from the start. -/
inductive JustifiedIn (links : Link → Prop) (start : Checkpoint) : Checkpoint → Prop where
  | start : JustifiedIn links start start
  | link {c b : Checkpoint} : JustifiedIn links start c → links ⟨c, b⟩ → c.epoch < b.epoch → JustifiedIn links start b

/-- A checkpoint is finalized if it is the start, or justified and the source of a supermajority link such that in each epoch that the link skips a
descendant of the checkpoint is justified. (The beacon chain has this with links that skip no epoch or one.) -/
def FinalizedIn (links : Link → Prop) (start : Checkpoint) (anc : Checkpoint → Checkpoint → Prop) (f : Checkpoint) : Prop :=
  f = start ∨ (JustifiedIn links start f ∧ ∃ b, links ⟨f, b⟩ ∧ f.epoch < b.epoch ∧
    ∀ e, f.epoch < e → e < b.epoch → ∃ m, JustifiedIn links start m ∧ m.epoch = e ∧ anc f m)

/-- A view of the beacon chain: the checkpoint it starts from, the votes in its blocks, the supermajority links, and the registry by which it
counts the votes for each. -/
structure View where
  start : Checkpoint
  votes : List AttestationData
  links : Link → Prop
  registry : Link → List Validator

/-- The owner of the key has signed one of the votes, for this link. -/
def SignedOne (X : Ext) (signed : Bytes → Bytes → Prop) (version genesisValidatorsRoot key : Bytes) (votes : List AttestationData) (link : Link) :
    Prop :=
  ∃ d ∈ votes, (⟨d.source, d.target⟩ : Link) = link ∧ signed key ((Duty.vote d version genesisValidatorsRoot).message X)

/-- Validators with two thirds of the active balance of the target epoch have signed for the link. -/
def TwoThirds (X : Ext) (signed : Bytes → Bytes → Prop) (version : Nat → Bytes) (genesisValidatorsRoot : Bytes) (vs : List Validator)
    (votes : List AttestationData) (link : Link) : Prop :=
  ∃ voters : List Nat, voters.Nodup ∧
    (∀ i ∈ voters, i ∈ activeIndices vs link.target.epoch ∧
      SignedOne X signed (version link.target.epoch) genesisValidatorsRoot (registeredKey vs i) votes link) ∧
    2 * balanceOf vs (activeIndices vs link.target.epoch) ≤ 3 * balanceOf vs voters

/-- Every link of the view has a supermajority. -/
def Counted (X : Ext) (signed : Bytes → Bytes → Prop) (version : Nat → Bytes) (genesisValidatorsRoot : Bytes) (view : View) : Prop :=
  ∀ link, view.links link → TwoThirds X signed version genesisValidatorsRoot (view.registry link) view.votes link

/-- The links for which the votes in the files have a supermajority are links of the view: the votes are in its blocks, and it counts them by the
same balances. -/
def Includes (W : WireExt) (X : Ext) (signed : Bytes → Bytes → Prop) (version : Nat → Bytes) (spec : ChainSpec) (chain : Chain) (files : List Bytes)
    (view : View) : Prop :=
  ∀ file ∈ files, ∀ input, Reads W X file input → ∀ link,
    TwoThirds X signed version (stateBehind chain input).genesisValidatorsRoot (registryBehind spec chain input)
      (input.attestations.map Attestation.data) link → view.links link

/-- Validators who have signed for two links that are slashable together, the one counted by the registry `vs`, the other by `vs'`. With `W` and `W'`
the active balances at the two target epochs and `U` the balance of the validators active in one or the other, each taken with the greater of
their balances, they have at least `share * W + share' * W' - U`; the shares are in three hundredths. If `U` is at most `d` more than `W` and than `W'`,
that is `share + share' - 1` of either less `d`. -/
structure Culprits (X : Ext) (signed : Bytes → Bytes → Prop) (version : Nat → Bytes) (share share' : Nat) (root root' : Bytes)
    (vs vs' : List Validator) (votes votes' : List AttestationData) (link link' : Link) (culprits : List Nat) : Prop where
  slashable : Slashable link link'
  distinct : culprits.Nodup
  active : ∀ i ∈ culprits, i ∈ activeIndices vs link.target.epoch ∧ i ∈ activeIndices vs' link'.target.epoch
  signed : ∀ i ∈ culprits, SignedOne X signed (version link.target.epoch) root (registeredKey vs i) votes link ∧
    SignedOne X signed (version link'.target.epoch) root' (registeredKey vs' i) votes' link'
  weight :
    let active := activeIndices vs link.target.epoch
    let active' := activeIndices vs' link'.target.epoch
    share * balanceOf vs active + share' * balanceOf vs' active' ≤
      300 * lesserBalance vs vs' culprits + 300 * greaterBalance vs vs' (union active active') ∧
    ∀ d, greaterBalance vs vs' (union active active') ≤ balanceOf vs active + d →
      greaterBalance vs vs' (union active active') ≤ balanceOf vs' active' + d →
      (share + share' - 300) * balanceOf vs active ≤ 300 * (balanceOf vs culprits + d) ∧
      (share + share' - 300) * balanceOf vs' active' ≤ 300 * (balanceOf vs' culprits + d)

/-- A relation "is an ancestor of" on checkpoints, in which the source of each vote in the files and of each link of the view is an ancestor of
its target. -/
structure OneTree (W : WireExt) (X : Ext) (anc : Checkpoint → Checkpoint → Prop) (files : List Bytes) (view : View) : Prop where
  files : AncestryOf W X anc files
  view : ∀ link, view.links link → anc link.source link.target

/-- A registry, and an epoch in which its validators vote: of a proof in the files, or of the view. -/
inductive Electorate (W : WireExt) (X : Ext) (spec : ChainSpec) (chain : Chain) (files : List Bytes) (view : View) :
    List Validator → Nat → Prop where
  | proof {file : Bytes} {input : GuestInput} {e : Nat} : file ∈ files → Reads W X file input → Targets input e →
      Electorate W X spec chain files view (registryBehind spec chain input) e
  | chain {link : Link} : view.links link → Electorate W X spec chain files view (view.registry link) link.target.epoch

/-- A vote in the files or in the view. -/
def VoteIn (W : WireExt) (X : Ext) (files : List Bytes) (view : View) (d : AttestationData) : Prop :=
  d ∈ view.votes ∨ ∃ file ∈ files, ∃ input, Reads W X file input ∧ ∃ a ∈ input.attestations, a.data = d

/-- All validators but the dishonest have one key throughout, and have not signed two votes that are slashable together. -/
def AllHonestBut (W : WireExt) (X : Ext) (signed : Bytes → Bytes → Prop) (version : Nat → Bytes) (genesisValidatorsRoot : Bytes) (spec : ChainSpec)
    (chain : Chain) (files : List Bytes) (view : View) (dishonest : List Nat) : Prop :=
  ∃ key : Nat → Bytes, ∀ i, i ∉ dishonest →
    (∀ vs e, Electorate W X spec chain files view vs e → i ∈ activeIndices vs e → registeredKey vs i = key i) ∧
    ∀ d d', VoteIn W X files view d → VoteIn W X files view d' →
      signed (key i) ((Duty.vote d (version d.target.epoch) genesisValidatorsRoot).message X) →
      signed (key i) ((Duty.vote d' (version d'.target.epoch) genesisValidatorsRoot).message X) →
      ¬ Slashable ⟨d.source, d.target⟩ ⟨d'.source, d'.target⟩

/-- The stake changes by at most `d` between any two electorates. -/
def SteadyElectorates (W : WireExt) (X : Ext) (spec : ChainSpec) (chain : Chain) (files : List Bytes) (view : View) (d : Nat) : Prop :=
  ∀ vs e vs' e', Electorate W X spec chain files view vs e → Electorate W X spec chain files view vs' e' →
    greaterBalance vs vs' (union (activeIndices vs e) (activeIndices vs' e')) ≤ balanceOf vs (activeIndices vs e) + d

/-- The dishonest have, with `d`, less than a third of the active balance of each electorate. -/
def LessThanThird (W : WireExt) (X : Ext) (spec : ChainSpec) (chain : Chain) (files : List Bytes) (view : View) (dishonest : List Nat) (d : Nat) :
    Prop :=
  ∀ vs e, Electorate W X spec chain files view vs e → 3 * (balanceOf vs dishonest + d) < balanceOf vs (activeIndices vs e)

end Signal.Spec
