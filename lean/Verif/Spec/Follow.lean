import Verif.Spec.Program
import Verif.Spec.Accept

/-!
# Independent specification: a chain that can be proved

What a beacon node has to serve so that an input can be prepared for an epoch, in terms of its answers, the rules of justification and
finalization, and genuine votes.
-/

namespace Signal.Spec
open Wire Program

/-- Sensible constants of the chain on a machine, and a shuffle that permutes. -/
structure SensibleChain (X : Ext) (spec : ChainSpec) : Prop where
  committee_size : spec.targetCommitteeSize ≠ 0
  lookahead : spec.minSeedLookahead < spec.epochsPerHistoricalVector
  mixes : spec.epochsPerHistoricalVector ≤ 2 ^ 32
  mixes_word : spec.epochsPerHistoricalVector ∣ X.usizeMod
  slots : spec.slotsPerEpoch ∣ X.usizeMod
  slots_pos : 0 < spec.slotsPerEpoch
  slots_fit : spec.slotsPerEpoch < X.usizeMod
  shuffle : ∀ l seed sh, X.shuffleList l spec.shuffleRoundCount seed = some sh → sh.Perm l

/-- What the consensus state of the chain does from the first slot of one epoch to that of the next: it stays, or it moves by one
supermajority link. (A first link from the all-zero state to epoch 1 changes the justified checkpoint but finalizes nothing new; it is left
out.) -/
inductive Moves : ConsensusState → Option Link → ConsensusState → Prop where
  | stays (s : ConsensusState) : Moves s none s
  | link {s : ConsensusState} {l : Link} {s' : ConsensusState} (h : Step s l s')
      (hz : ¬ (s = ⟨⟨0, List.replicate 32 0⟩, ⟨0, List.replicate 32 0⟩⟩ ∧ l.target.epoch = 1)) : Moves s (some l) s'

/-- From the state `s` of the first slot of `epoch` the chain moves, epoch by epoch, along `links`, until at the first slot of `stop` another
checkpoint than `f` is finalized, in the state `s'`. -/
inductive WayToFinality (spe : Nat) (ask : StateAnswers) (f : Checkpoint) :
    (epoch : Nat) → (s : ConsensusState) → (links : List Link) → (s' : ConsensusState) → (stop : Nat) → Prop where
  | arrives {e : Nat} {s : ConsensusState} {o : Option Link} {s' : ConsensusState} (hs : ChainAt spe ask (e + 1) s') (hm : Moves s o s')
      (hf : s'.finalized ≠ f) : WayToFinality spe ask f e s o.toList s' (e + 1)
  | goesOn {e : Nat} {s : ConsensusState} {o : Option Link} {t : ConsensusState} {links : List Link} {s' : ConsensusState} {stop : Nat}
      (hs : ChainAt spe ask (e + 1) t) (hm : Moves s o t) (hf : t.finalized = f) (rest : WayToFinality spe ask f (e + 1) t links s' stop) :
      WayToFinality spe ask f e s (o.toList ++ links) s' stop

/-- The slots whose blocks are read for votes: from the first slot of the first target epoch to the first slot after the last one. Slot
numbers end at `2 ^ 64 - 1`. -/
def InWindow (spe : Nat) (links : List Link) (slot : Nat) : Prop :=
  (∃ l ∈ links, min (l.target.epoch * spe) (2 ^ 64 - 1) ≤ slot) ∧ ∃ l ∈ links, slot ≤ min ((l.target.epoch + 1) * spe) (2 ^ 64 - 1)

/-- `votes` are the votes for `link` in the blocks of the window. -/
def VotesInBlocks (spe : Nat) (getBlock : Nat → Res HostError (Option Block)) (links : List Link) (link : Link) (votes : List Attestation) :
    Prop :=
  ∀ a, a ∈ votes ↔ linkOf a = link ∧ ∃ slot vs, InWindow spe links slot ∧ getBlock slot = .ok (some (.electra vs)) ∧ some a ∈ vs

/-- What is served for `epoch` can be proved: from `state`, which finalizes the block at the start of `epoch`, to `next`, the first state
that finalizes another one, which is the block of slot `slot`. -/
structure ProvableBy (X : Ext) (spec : ChainSpec) (cfg : Config) (bound : Nat) (w : World) (epoch : Nat) (trusted : Checkpoint)
    (start stop : Nat) (links : List Link) (state next : ConsensusState) (slot : Nat) : Prop where
  /-- the state of the last block at or before the start of the epoch and this block are there; the block is the one of the state, and
  the trusted checkpoint -/
  checkpoint : ∃ st block, stateAtEpochBoundary (hostStateOps X) spec.slotsPerEpoch w.provider epoch = .ok st ∧
    w.boundaryBlock st.latestBlockHeader.slot = .ok (some block) ∧ block.stateRoot = st.beacon.tree.root X ∧
    block.tree.root X = (filledHeader (hostStateOps X) st).tree.root X ∧ trusted = ⟨epoch, block.tree.root X⟩
  /-- at the start of `start` the trusted checkpoint is final, at that of the epochs before only earlier ones are -/
  later : epoch < start
  before : ∀ e, epoch < e → e < start → ∃ s, ChainAt spec.slotsPerEpoch w.find e s ∧ s.finalized.epoch < epoch
  final : ∃ s, ChainAt spec.slotsPerEpoch w.find start s ∧ s.finalized = trusted
  /-- from there the chain moves by at most one link per epoch until something else is final -/
  initial : ChainAt spec.slotsPerEpoch w.walk start state
  initial_final : state.finalized = trusted
  initial_valid : ValidState state
  way : WayToFinality spec.slotsPerEpoch w.walk trusted start state links next stop
  /-- this takes no more requests than the searches are followed for -/
  steps : start ≤ epoch + bound ∧ stop ≤ start + bound
  /-- for each slot of the window there is an Electra block, or none -/
  blocks : ∀ slot, InWindow spec.slotsPerEpoch links slot → w.getBlock slot = .ok none ∨
    ∃ vs : List Attestation, w.getBlock slot = .ok (some (.electra (vs.map some)))
  /-- the votes in these blocks carry each link -/
  carried : ∀ l ∈ links, ∃ votes, votes ≠ [] ∧ VotesInBlocks spec.slotsPerEpoch w.getBlock links l votes ∧
    Carries X cfg (w.reader spec state []).toReader trusted l votes
  /-- the header of the newly finalized block is there -/
  header : ∃ h, w.headers next.finalized.root = .ok (some h) ∧ h.slot = slot
  /-- the keys of the validators active at the epoch can be read -/
  keys : ∃ st, w.provider (min (epoch * spec.slotsPerEpoch) (2 ^ 64 - 1)) = .ok st ∧ ∀ v ∈ st.beacon.validators, v.activeAt epoch →
    ∃ key, w.decompress v.pubkey = some key

/-- What is served for `epoch` can be proved, from `state` to `next`. -/
def Provable (X : Ext) (spec : ChainSpec) (cfg : Config) (bound : Nat) (w : World) (epoch : Nat) (state next : ConsensusState) (slot : Nat) :
    Prop :=
  ∃ trusted start stop links, ProvableBy X spec cfg bound w epoch trusted start stop links state next slot

/-- The passes serve a program that has reached `epoch`: in each pass the node reports a final epoch; as long as this is not a later one,
the program waits; when it is, something can be proved, and the rest serves a program that has reached the epoch that is final then. -/
inductive Served (W : WireExt) (X : Ext) (word : Nat) (spec : ChainSpec) (cfg : Config) (bound : Nat) : Nat → List Pass → Prop where
  | nil (epoch : Nat) : Served W X word spec cfg bound epoch []
  | waits {epoch : Nat} {pass : Pass} {passes : List Pass} {head : Nat} (hhead : pass.head = .ok head) (hlate : head ≤ epoch)
      (rest : Served W X word spec cfg bound epoch passes) : Served W X word spec cfg bound epoch (pass :: passes)
  | proves {epoch : Nat} {pass : Pass} {passes : List Pass} {head : Nat} {state next : ConsensusState} {slot : Nat}
      (hhead : pass.head = .ok head) (hlater : epoch < head) (honest : HonestWorld W X word spec cfg bound pass.world epoch)
      (provable : Provable X spec cfg bound pass.world epoch state next slot)
      (rest : Served W X word spec cfg bound next.finalized.epoch passes) : Served W X word spec cfg bound epoch (pass :: passes)

/-- In this pass a node that keeps everything reports that `head` is final, and for each epoch of `F` before that it serves something that
can be proved, up to the next epoch of `F`. -/
structure Serves (W : WireExt) (X : Ext) (word : Nat) (spec : ChainSpec) (cfg : Config) (bound : Nat) (F : Nat → Prop) (pass : Pass)
    (head : Nat) : Prop where
  reports : pass.head = .ok head
  honest : ∀ e, F e → e < head → HonestWorld W X word spec cfg bound pass.world e
  provable : ∀ e, F e → e < head → ∃ state next slot, Provable X spec cfg bound pass.world e state next slot ∧ F next.finalized.epoch

/-- The epoch that the rounds have reached. -/
def reached (epoch : Nat) (rounds : List (Pass × Nat × Prepared)) : Nat :=
  match rounds.getLast? with
  | none => epoch
  | some x => x.2.2.post.finalized.epoch

end Signal.Spec
