import Verif.Spec.EndToEnd
import Verif.Spec.Providers
import Verif.Model.Preflight

/-!
# Independent specification: what the guest must see of the states the host has read
-/

namespace Signal.Spec

/-- The record of a registered validator with its uncompressed key. -/
def Validator.info (v : Validator) (key : Bytes) : ValidatorInfo :=
  ⟨key, v.effectiveBalance, v.slashed, v.activationEligibilityEpoch, v.activationEpoch, v.exitEpoch⟩

/-- The validators of a registry that have not exited by `epoch`, with their indices and uncompressed keys. -/
def present (decompress : Bytes → Option Bytes) (vs : List Validator) (epoch : Nat) : OMap ValidatorInfo :=
  vs.zipIdx.filterMap (fun (v, i) =>
    if v.exitEpoch ≤ epoch then none else (decompress v.pubkey).map (fun key => (i, v.info key)))

/-- The validators of a registry that are active at `epoch`, with their indices and uncompressed keys. -/
def activeIn (decompress : Bytes → Option Bytes) (vs : List Validator) (epoch : Nat) : OMap ValidatorInfo :=
  vs.zipIdx.filterMap (fun (v, i) =>
    if v.activationEpoch ≤ epoch ∧ epoch < v.exitEpoch then (decompress v.pubkey).map (fun key => (i, v.info key))
    else none)

/-- What two readers have to agree on for each validator: index, key, whether it is slashed, and when it was
activated. Balances and exits are not compared (host/src/input_reader/assert_input_reader.rs does the same). -/
def identities (vs : List (Nat × ValidatorInfo)) : List (Nat × Bytes × Bool × Nat × Nat) :=
  vs.map (fun (i, v) => (i, v.pubkey, v.slashed, v.activationEligibilityEpoch, v.activationEpoch))

/-- How the registry `ws` of a state of epoch `epoch` relates to `vs`, the registry of the trusted state brought forward:
validators are only added, and the new ones are not active yet; keys stay; who has been activated is the same; the
other data of active validators is the same; and an exit is kept, or it was not set and now lies after the
trusted epoch. -/
structure Continues (far trustedEpoch : Nat) (vs ws : List Validator) (epoch : Nat) : Prop where
  grows : vs.length ≤ ws.length
  added : ∀ (i : Nat) (w : Validator), vs.length ≤ i → ws[i]? = some w → ¬ w.activeAt epoch
  pubkey : ∀ (i : Nat) (v w : Validator), vs[i]? = some v → ws[i]? = some w → w.pubkey = v.pubkey
  activated : ∀ (i : Nat) (v w : Validator), vs[i]? = some v → ws[i]? = some w → (v.activationEpoch ≤ epoch ↔ w.activationEpoch ≤ epoch)
  active : ∀ (i : Nat) (v w : Validator), vs[i]? = some v → ws[i]? = some w → w.activeAt epoch →
    w.slashed = v.slashed ∧ w.activationEligibilityEpoch = v.activationEligibilityEpoch ∧
      w.activationEpoch = v.activationEpoch
  exit : ∀ (i : Nat) (v w : Validator), vs[i]? = some v → ws[i]? = some w →
    w.exitEpoch = v.exitEpoch ∨ v.exitEpoch = far ∧ trustedEpoch < w.exitEpoch ∧ w.exitEpoch ≤ far

/-- The exits that differ between the registry `ws` of a later state and `vs`, by index. -/
def changedExits (vs ws : List Validator) : OMap Nat :=
  (ws.zip vs).zipIdx.filterMap (fun ((w, v), i) => if w.exitEpoch = v.exitEpoch then none else some (i, w.exitEpoch))

/-- The trusted state as the host finds it, and the conditions under which it serves as a starting point. -/
structure TrustedState (X : Ext) (r : HostReader) (trusted : Checkpoint) (st : HostState) : Prop where
  found : stateAtCheckpoint X (hostStateOps X) r.spec.slotsPerEpoch r.provider trusted = .ok st
  start : r.consensusState.finalized = trusted
  wf : st.beacon.WF
  header_wf : (filledHeader (hostStateOps X) st).WF
  fork : st.beacon.fork = r.spec.forkAtEpoch (st.beacon.slot / r.spec.slotsPerEpoch)
  slots_per_epoch : r.spec.slotsPerEpoch ≠ 0
  finalized_past : st.beacon.finalizedEpoch ≤ st.beacon.slot / r.spec.slotsPerEpoch
  justified : trusted.epoch ≤ r.consensusState.currentJustified.epoch
  small : r.consensusState.currentJustified.epoch + 1 + r.spec.maxSeedLookahead < 2 ^ 64
  far : trusted.epoch < r.spec.farFutureEpoch
  /-- The keys of the registry can be decompressed, and compressing gives them back. -/
  keys : ∀ v ∈ st.beacon.validators, ∃ key, r.decompress v.pubkey = some key ∧ X.pkSerialize key = v.pubkey

/-- The answers of the host continue the trusted state: the states of the epochs for which validators are
requested, and of the trusted one, continue its registry; headers belong to the requested roots; and all states are of
the same chain, with the forks of the specification. -/
structure Consistent (X : Ext) (r : HostReader) (trusted : Checkpoint) (st : HostState) (queries : List Query) :
    Prop where
  states : ∀ e s, (e = trusted.epoch ∨ Query.activeValidators e ∈ queries) → r.state e = .ok s →
    Continues r.spec.farFutureEpoch trusted.epoch (registryOf r.spec st.beacon r.consensusState) s.beacon.validators e
  headers : ∀ root h, r.headers root = .ok (some h) → h.WF ∧ h.tree.root X = root
  genesis : r.genesisRoot = .ok st.beacon.genesisValidatorsRoot
  forks : ∀ e s, r.state e = .ok s → s.beacon.fork = r.spec.forkAtEpoch e

/-- What the guest reads of a state. -/
def stateInfo (X : Ext) (s : BeaconState) : StateInfo where
  genesisValidatorsRoot := s.genesisValidatorsRoot
  slot := s.slot
  fork := s.fork
  validatorsRoot := (registryTree s.validators).root X
  finalizedCheckpointEpoch := s.finalizedEpoch
  earliestExitEpoch := s.earliestExitEpoch
  earliestConsolidationEpoch := s.earliestConsolidationEpoch

/-- The guest's reader gives the answer of the host's to a recorded query: the same validators, up to balances and exits,
the same mix, the same slot. -/
def SameAnswer (r : HostReader) (g : GuestReader) : Query → Prop
  | .activeValidators e => ∃ a, r.activeValidators e = .ok a ∧ identities (g.activeValidators e) = identities a
  | .randaoMix e i => ∃ m, r.randaoMix e i = .ok (some m) ∧ g.toReader.randaoMix e i = .ok (some m)
  | .slotForBlock root => ∃ s, r.slotForBlock root = .ok s ∧ g.toReader.slotForBlock root = .ok s

end Signal.Spec
