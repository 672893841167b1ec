import Verif.Model.Program
import Verif.Spec.Preflight
import Verif.Spec.Machine
import Verif.Spec.Host
import Verif.Spec.Wire
import Mathlib.Data.List.Chain

/-!
# Independent specification: what the commands may rely on, and what they leave behind
-/

namespace Signal.Spec
open Wire Program

/-- The reader `r` and the checkpoint `trusted` are what the program reads for the finalized epoch `epoch`: the checkpoint of the last
block at or before its start, and the consensus state and the votes that the search of the chain gives. -/
def ReaderFor (X : Ext) (spec : ChainSpec) (bound : Nat) (w : World) (epoch : Nat) (r : HostReader) (trusted : Checkpoint) : Prop :=
  trustedCheckpoint X spec w epoch = .ok trusted ∧ ∃ state next links atts,
    hostSearch spec.slotsPerEpoch w.find w.walk w.getBlock trusted bound = some (.ok (state, next, links, atts)) ∧
    r = w.reader spec state atts

/-- What the program reads for `epoch` belongs to one chain: the trusted state is a possible starting point, the states of the target
epochs continue it, everything fits the types, and the committees fit the words of the host and of the guest. -/
structure HonestWorld (W : WireExt) (X : Ext) (word : Nat) (spec : ChainSpec) (cfg : Config) (bound : Nat) (w : World) (epoch : Nat) :
    Prop where
  trusted : ∀ r trusted st, ReaderFor X spec bound w epoch r trusted →
    stateAtCheckpoint X (hostStateOps X) spec.slotsPerEpoch w.provider trusted = .ok st → TrustedState X r trusted st
  consistent : ∀ r trusted st post slot, ReaderFor X spec bound w epoch r trusted →
    stateAtCheckpoint X (hostStateOps X) spec.slotsPerEpoch w.provider trusted = .ok st →
    verify X cfg r.toReader = .ok (post, slot) →
    Consistent X r trusted st (verifyQueries X spec r.attestations post.finalized.root)
  committees : ∀ r trusted, ReaderFor X spec bound w epoch r trusted → ∀ a ∈ r.attestations, ∀ l,
    r.activeValidators a.data.target.epoch = .ok l → FitsWord X.usizeMod spec l ∧ FitsWord word spec l
  types : ∀ r trusted, ReaderFor X spec bound w epoch r trusted → WfHost W r
  size : ∀ r trusted st, ReaderFor X spec bound w epoch r trusted →
    stateAtCheckpoint X (hostStateOps X) spec.slotsPerEpoch w.provider trusted = .ok st →
    288 * st.beacon.validators.length + 1400 ≤ X.usizeMod ∧ r.attestations.length < X.usizeMod ∧
      ∀ a ∈ r.attestations, (W.encodeAttestation a).length < X.usizeMod

/-- In addition, the sizes are those of a real chain, no active validator's balance has changed since the trusted state, and the guest
accepts the exits since then. -/
structure QuietWorld (W : WireExt) (X : Ext) (order : List Nat → List Nat) (spec : ChainSpec) (cfg : Config) (bound : Nat) (w : World)
    (epoch : Nat) : Prop extends HonestWorld W X (2 ^ 32) spec cfg bound w epoch where
  validators : ∀ r trusted st, ReaderFor X spec bound w epoch r trusted →
    stateAtCheckpoint X (hostStateOps X) spec.slotsPerEpoch w.provider trusted = .ok st → st.beacon.validators.length ≤ 2 ^ 22
  votes : ∀ r trusted, ReaderFor X spec bound w epoch r trusted → ∃ size,
    (∀ a ∈ r.attestations, (W.encodeAttestation a).length ≤ size) ∧ r.attestations.length * (size + 8) ≤ 2 ^ 31
  balances : ∀ r trusted st, ReaderFor X spec bound w epoch r trusted →
    stateAtCheckpoint X (hostStateOps X) spec.slotsPerEpoch w.provider trusted = .ok st →
    ∀ a ∈ r.attestations, ∀ s, r.state a.data.target.epoch = .ok s → ∀ (i : Nat) (v v' : Validator),
      st.beacon.validators[i]? = some v → s.beacon.validators[i]? = some v' → v'.activeAt a.data.target.epoch →
      v'.effectiveBalance = v.effectiveBalance
  accepted : ∀ r trusted input pre post slot, ReaderFor X spec bound w epoch r trusted →
    preflight X order cfg r trusted = .ok (input, pre, post, slot) → ∃ g, input.intoReader X spec = .ok g

/-- The content of the two files of an epoch while and after they are written for `p`: the input file is emptied first, the journal
still being the old one; then the input file holds a part of the input and the journal is empty; then the input file is complete and
the journal holds a part of the journal. -/
def Written (p : Prepared) (oldJournal input journal : Option Bytes) : Prop :=
  (input = some [] ∧ journal = oldJournal) ∨
  (∃ m, input = some ((Frame.encodeInputStdin p.inputBytes).take m) ∧ journal = some []) ∨
  (∃ m, input = some (Frame.encodeInputStdin p.inputBytes) ∧
    journal = some ((Abi.encodeJournal p.pre p.post p.finalizedSlot).take m))

/-- The rounds of `build-input`, each with its pass, its epoch and what it has prepared: in the order of the passes; in each pass the
node has reported that a later epoch is final; the first round is for the requested epoch, each further one for the epoch that the
round before has finalized, which is a later one. -/
structure BuildRounds (W : WireExt) (X : Ext) (order : List Nat → List Nat) (spec : ChainSpec) (cfg : Config) (bound : Nat)
    (epoch : Nat) (passes : List Pass) (rounds : List (Pass × Nat × Prepared)) : Prop where
  passes : (rounds.map (·.1)).Sublist passes
  ready : ∀ x ∈ rounds, ∃ head, x.1.head = .ok head ∧ (x.2.1 + 1) % 2 ^ 64 ≤ head
  prepared : ∀ x ∈ rounds, prepare W X order spec cfg bound x.1.world x.2.1 = some (.ok x.2.2)
  first : ∀ x ∈ rounds.head?, x.2.1 = epoch
  next : rounds.IsChain (fun x y => y.2.1 = x.2.2.post.finalized.epoch)
  later : rounds.Pairwise (fun x y => x.2.1 < y.2.1)

/-- The later view `ask'` of the chain still gives the answers of the earlier view `ask`. -/
def Extends (ask ask' : StateAnswers) : Prop := ∀ slot s, ask slot = .ok s → ask' slot = .ok s

/-- The node's view of the states during one pass: it answers the same in both searches, epochs are 64-bit numbers, and at the start of
an epoch only earlier epochs are final. -/
structure SteadyView (spec : ChainSpec) (w : World) : Prop where
  same : w.find = w.walk
  small : ∀ slot s, w.walk slot = .ok s → s.currentJustified.epoch < 2 ^ 64
  past : ∀ e s, 0 < e → ChainAt spec.slotsPerEpoch w.walk e s → s.finalized.epoch < e

/-- What a line of the log says about the pass it belongs to. -/
structure LineFor (W : WireExt) (Xh Xg : Ext) (order : List Nat → List Nat) (spec : ChainSpec) (cfg : Config) (bound : Nat) (r0vm : Bool)
    (line : LogLine) (w : World) (p : Prepared) : Prop where
  prepared : prepare W Xh order spec cfg bound w line.before.finalized.epoch = some (.ok p)
  after : line.after = p.post
  ok : line.message = .ok ↔ runVerify W Xh Xg spec cfg p.pre p.inputBytes r0vm = .ok p.post
  failed : ∀ e, line.message = .failed e ↔ runVerify W Xh Xg spec cfg p.pre p.inputBytes r0vm = .err e
  mismatch : ∀ a b, line.message = .mismatch a b ↔ a = p.post ∧ b ≠ p.post ∧
    runVerify W Xh Xg spec cfg p.pre p.inputBytes r0vm = .ok b

end Signal.Spec
