import Verif.Spec.Timed
import Verif.Props.SameVerdict

/-! Proofs for answers that change: a small logic that relates a computation that asks to one over fixed answers. -/

namespace Signal.Timed
open Spec Wire Program

/-! ## The logic -/

/-- Rules that relate a computation with a state to functions of fixed answers, numbered by `Ix`; `G` is what is known of the state. -/
structure Logic (S Ix G : Type) where
  J : ∀ {ε α : Type}, Ask S ε α → (Ix → Res ε α) → G → G → Prop
  lift : ∀ {ε α : Type} (r : Res ε α) (a : G), J (Timed.lift r) (fun _ => r) a a
  liftBind : ∀ {ε α β : Type} (r : Res ε α) {k : α → Ask S ε β} {g : α → Ix → Res ε β} {a b : G},
    (∀ x, r = .ok x → J (k x) (g x) a b) → J (Timed.lift r >>= k) (fun i => r >>= fun x => g x i) a b
  bind : ∀ {ε α β : Type} {m : Ask S ε α} {f : Ix → Res ε α} {k : α → Ask S ε β} {g : α → Ix → Res ε β} {a b c : G},
    J m f a b → (∀ x, J (k x) (g x) b c) → J (m >>= k) (fun i => f i >>= fun x => g x i) a c
  mapErr : ∀ {ε ε' α : Type} (h : ε → ε') {m : Ask S ε α} {f : Ix → Res ε α} {a b : G},
    J m f a b → J (Timed.mapErr h m) (fun i => (f i).mapErr h) a b

namespace Logic
variable {S Ix G : Type} (L : Logic S Ix G)

theorem pure {ε α : Type} (x : α) (a : G) : L.J (Pure.pure x : Ask S ε α) (fun _ => (.ok x : Res ε α)) a a := L.lift (.ok x) a

/-- The readers answer alike; `rec` is what is known after a recorded request. -/
structure Related (R : Reader S) (R' : Ix → Signal.Reader) (rec : G → Query → G) (ok : G → Prop) : Prop where
  spec : ∀ i, (R' i).spec = R.spec
  attestations : ∀ i, (R' i).attestations = R.attestations
  consensusState : ∀ i, (R' i).consensusState = R.consensusState
  root : ∀ a, ok a → L.J R.genesisValidatorsRoot (fun i => (R' i).genesisValidatorsRoot) a a
  fork : ∀ e a, ok a → L.J (R.fork e) (fun i => (R' i).fork e) a a
  active : ∀ e a, ok a → L.J (R.activeValidators e) (fun i => (R' i).activeValidators e) a (rec a (.activeValidators e))
  mix : ∀ e idx a, ok a → L.J (R.randaoMix e idx) (fun i => (R' i).randaoMix e idx) a (rec a (.randaoMix e idx))
  keep : ∀ a q, ok a → ok (rec a q)

variable {L} {R : Reader S} {R' : Ix → Signal.Reader} {rec : G → Query → G} {ok : G → Prop} {X : Ext}

theorem getSeed (h : L.Related R R' rec ok) (e : Nat) (d : Bytes) {a : G} (ha : ok a) :
    L.J (R.getSeed X e d) (fun i => (R' i).getSeed X e d) a (rec a (.randaoMix e (seedMixIndex X R.spec e))) := by
  unfold Reader.getSeed Signal.Reader.getSeed
  simp only [h.spec]
  refine L.liftBind _ fun x hx => L.liftBind _ fun y hy => L.liftBind _ fun z hz => ?_
  refine L.bind (b := rec a (.randaoMix e (seedMixIndex X R.spec e))) ?_ fun m => L.pure _ _
  unfold Reader.getRandaoMix Signal.Reader.getRandaoMix
  simp only [h.spec]
  refine L.liftBind _ fun idx hidx => ?_
  have : idx % 2 ^ 32 = seedMixIndex X R.spec e := by
    unfold seedMixIndex
    simp only [Res.mapErr_eq_ok, safeAdd_eq_ok, safeSub_eq_ok, safeRem_eq_ok] at hx hy hz hidx
    rw [hidx.2, hz.2, hy.2, hx.2]
  rw [this]
  exact L.bind (h.mix e _ a ha) fun m => L.lift _ _

theorem computeCommittees (h : L.Related R R' rec ok) (m : OMap ValidatorInfo) (e : Nat) {a : G} (ha : ok a) :
    L.J (Timed.computeCommittees X R m e) (fun i => Signal.computeCommittees X (R' i) m e) a
      (rec a (.randaoMix e (seedMixIndex X R.spec e))) := by
  unfold Timed.computeCommittees Signal.computeCommittees
  simp only [h.spec]
  exact L.bind (L.mapErr _ (getSeed h e _ ha)) fun seed => L.liftBind _ fun cps _ => L.lift _ _

theorem isValidIndexedAttestation (h : L.Related R R' rec ok) (vs : List ValidatorInfo) (data : AttestationData) (sig : Bytes) {a : G}
    (ha : ok a) : L.J (Timed.isValidIndexedAttestation X R vs data sig)
      (fun i => Signal.isValidIndexedAttestation X (R' i) vs data sig) a a := by
  unfold Timed.isValidIndexedAttestation Signal.isValidIndexedAttestation
  simp only [h.spec]
  split
  · exact L.lift _ _
  · exact L.bind (L.mapErr _ (h.fork _ a ha)) fun f => L.bind (L.mapErr _ (h.root a ha)) fun r => L.pure _ _

theorem processAttestation (h : L.Related R R' rec ok) (m : OMap ValidatorInfo) (c : CommitteeCache) (att : Attestation) {a : G}
    (ha : ok a) : L.J (Timed.processAttestation X R m c att) (fun i => Signal.processAttestation X (R' i) m c att) a a := by
  cases att with
  | base b => exact L.lift _ _
  | electra b =>
    unfold Timed.processAttestation Signal.processAttestation
    simp only [h.spec]
    refine L.liftBind _ fun e _ => L.liftBind _ fun _ _ => L.liftBind _ fun _ _ => L.liftBind _ fun ix _ => L.liftBind _ fun vs _ => ?_
    exact L.bind (isValidIndexedAttestation h _ _ _ ha) fun v => L.liftBind _ fun _ _ => L.pure _ _

theorem collectParticipants (h : L.Related R R' rec ok) (m : OMap ValidatorInfo) (c : CommitteeCache) {a : G} (ha : ok a) :
    ∀ (atts : List Attestation) (acc : OSet), L.J (Timed.collectParticipants X R m c atts acc)
      (fun i => Signal.collectParticipants X (R' i) m c atts acc) a a
  | [], acc => L.lift _ _
  | att :: atts, acc => by
    unfold Timed.collectParticipants Signal.collectParticipants
    exact L.bind (processAttestation h m c att ha) fun ix => collectParticipants h m c ha atts _

/-- What a group of votes records. -/
def recGroup (X : Ext) (spec : ChainSpec) (rec : G → Query → G) (a : G) (link : Link) : G :=
  rec (rec a (.activeValidators link.target.epoch)) (.randaoMix link.target.epoch (seedMixIndex X spec link.target.epoch))

theorem processGroup (h : L.Related R R' rec ok) (cfg : Config) (trusted : Checkpoint) (state : ConsensusState) (link : Link)
    (atts : List Attestation) {a : G} (ha : ok a) : L.J (Timed.processGroup X cfg R trusted state link atts)
      (fun i => Signal.processGroup X cfg (R' i) trusted state link atts) a (recGroup X R.spec rec a link) := by
  unfold Timed.processGroup Signal.processGroup
  simp only [h.spec]
  refine L.liftBind _ fun _ _ => L.liftBind _ fun _ _ => L.bind (L.mapErr _ (h.active _ a ha)) fun list => ?_
  have ha1 := h.keep a (.activeValidators link.target.epoch) ha
  refine L.bind (computeCommittees h _ _ ha1) fun c => ?_
  have ha2 := h.keep _ (.randaoMix link.target.epoch (seedMixIndex X R.spec link.target.epoch)) ha1
  refine L.bind (collectParticipants h _ _ ha2 _ _) fun ps => ?_
  refine L.liftBind _ fun _ _ => L.liftBind _ fun _ _ => L.liftBind _ fun _ _ => L.liftBind _ fun _ _ => L.liftBind _ fun _ _ =>
    L.liftBind _ fun _ _ => L.liftBind _ fun _ _ => L.liftBind _ fun _ _ => L.liftBind _ fun _ _ => L.pure _ _

theorem verifyLoop (h : L.Related R R' rec ok) (cfg : Config) (trusted : Checkpoint) :
    ∀ (groups : List (Link × List Attestation)) (state : ConsensusState) (a : G), ok a →
      L.J (Timed.verifyLoop X cfg R trusted state groups) (fun i => Signal.verifyLoop X cfg (R' i) trusted state groups) a
        ((groups.map (·.1)).foldl (recGroup X R.spec rec) a)
  | [], state, a, _ => L.lift _ _
  | (link, atts) :: gs, state, a, ha => by
    unfold Timed.verifyLoop Signal.verifyLoop
    exact L.bind (processGroup h cfg trusted state link atts ha) fun s =>
      verifyLoop h cfg trusted gs s _ (h.keep _ _ (h.keep _ _ ha))

end Logic

/-! ## The input in two parts -/

/-- `to_input` without the proofs of the slots. -/
def inputHead (X : Ext) (order : List Nat → List Nat) (r : Host) (trusted : Checkpoint) :
    Ask Session PreflightError (List Multiproof → GuestInput) := do
  let trustedState ← mapErr PreflightError.provider (stateAtCheckpoint X r.spec.slotsPerEpoch r.outside trusted)
  let stateRoot := trustedState.beacon.tree.root X
  let block := { trustedState.latestBlockHeader with stateRoot := stateRoot }
  let beaconBlock ← lift ((build X order [11] block.tree).mapErr PreflightError.proof)
  lift ((beaconBlock.verify X trusted.root).mapErr PreflightError.proof)
  let beaconState ← lift ((build X order [65, 66, 75, 95, 97, 168, 268, 269, 270] trustedState.beacon.tree).mapErr
    PreflightError.proof)
  lift ((beaconState.verify X stateRoot).mapErr PreflightError.proof)
  let validators := trustedState.beacon.validators
  let active ← mapErr PreflightError.host (r.activeValidators trusted.epoch)
  let publicKeys ← lift (collectKeys r.outside.decompress trusted.epoch validators.zipIdx active)
  let activeValidators ← lift ((build X order (registryRequest trusted.epoch validators)
    (Spec.registryTree validators)).mapErr PreflightError.proof)
  lift ((activeValidators.verify X ((Spec.registryTree validators).root X)).mapErr PreflightError.proof)
  let log ← (fun s => .ok (s.log, { s with log := { s.log with mixEpochs := [] } }) : Ask Session PreflightError PreflightLog)
  let builders ← mixPatches r log.mixEpochs []
  let log' ← (fun s => .ok (s.log, { s with log := { s.log with validatorEpochs := [] } }) : Ask Session PreflightError PreflightLog)
  let builders ← exitPatches r trusted.epoch validators log'.validatorEpochs builders
  return fun blockSlotProofs => {
    beaconBlock := beaconBlock
    beaconState := beaconState
    activeValidators := activeValidators
    publicKeys := publicKeys
    patches := builders.map (fun (epoch, b) => (epoch, b.patch))
    consensusState := r.consensusState
    attestations := r.attestations
    blockSlotProofs := blockSlotProofs }

/-- The same over fixed answers. -/
def signalInputHead (X : Ext) (order : List Nat → List Nat) (r : HostReader) (trusted : Checkpoint) (log : PreflightLog) :
    Res PreflightError (List Multiproof → GuestInput) := do
  let trustedState ← (Signal.stateAtCheckpoint X (hostStateOps X) r.spec.slotsPerEpoch r.provider trusted).mapErr
    PreflightError.provider
  let stateRoot := trustedState.beacon.tree.root X
  let block := { trustedState.latestBlockHeader with stateRoot := stateRoot }
  let beaconBlock ← (build X order [11] block.tree).mapErr PreflightError.proof
  (beaconBlock.verify X trusted.root).mapErr PreflightError.proof
  let beaconState ← (build X order [65, 66, 75, 95, 97, 168, 268, 269, 270] trustedState.beacon.tree).mapErr
    PreflightError.proof
  (beaconState.verify X stateRoot).mapErr PreflightError.proof
  let validators := trustedState.beacon.validators
  let active ← (r.activeValidators trusted.epoch).mapErr PreflightError.host
  let publicKeys ← collectKeys r.decompress trusted.epoch validators.zipIdx active
  let activeValidators ← (build X order (registryRequest trusted.epoch validators)
    (Spec.registryTree validators)).mapErr PreflightError.proof
  (activeValidators.verify X ((Spec.registryTree validators).root X)).mapErr PreflightError.proof
  let builders ← Signal.mixPatches r log.mixEpochs []
  let builders ← Signal.exitPatches r trusted.epoch validators log.validatorEpochs builders
  return fun blockSlotProofs => {
    beaconBlock := beaconBlock
    beaconState := beaconState
    activeValidators := activeValidators
    publicKeys := publicKeys
    patches := builders.map (fun (epoch, b) => (epoch, b.patch))
    consensusState := r.consensusState
    attestations := r.attestations
    blockSlotProofs := blockSlotProofs }

theorem Res.bind_assoc' {ε α β γ : Type} (x : Res ε α) (f : α → Res ε β) (g : β → Res ε γ) :
    (x >>= f) >>= g = x >>= fun a => f a >>= g := by
  cases x <;> rfl

theorem run_bind {S ε α β : Type} {m : Ask S ε α} {k : α → Ask S ε β} {s : S} : (m >>= k) s = (m s >>= fun p => k p.1 p.2) := rfl

theorem bind_assoc {S ε α β γ : Type} (m : Ask S ε α) (f : α → Ask S ε β) (g : β → Ask S ε γ) :
    (m >>= f) >>= g = m >>= fun a => f a >>= g := by
  funext s
  simp only [run_bind, Res.bind_assoc']

theorem signalInput_parts (X : Ext) (order : List Nat → List Nat) (r : HostReader) (trusted : Checkpoint) (log : PreflightLog) :
    Signal.toInput X order r trusted log = signalInputHead X order r trusted log >>= fun k =>
      mapRes (Signal.slotProof X order r) log.blockReads >>= fun ps => .ok (k ps) := by
  unfold Signal.toInput signalInputHead
  simp only [Res.bind_assoc']
  rfl

theorem input_parts (X : Ext) (order : List Nat → List Nat) (r : Host) (trusted : Checkpoint) :
    toInput X order r trusted = inputHead X order r trusted >>= fun k =>
      (fun s => .ok (s.log, s) : Ask Session PreflightError PreflightLog) >>= fun log =>
      slotProofs X order r log.blockReads >>= fun ps => pure (k ps) := by
  unfold toInput inputHead
  simp only [bind_assoc]
  rfl

/-! ## The host -/

/-- What is known of a session: the record and the number of headers asked for. -/
abbrev Known := PreflightLog × Nat

/-- What is recorded (host/src/input_reader/preflight_input_reader.rs:216-254). -/
def record (log : PreflightLog) : Query → PreflightLog
  | .activeValidators epoch => ⟨log.validatorEpochs.insert epoch, log.mixEpochs, log.blockReads⟩
  | .randaoMix epoch idx => ⟨log.validatorEpochs,
      log.mixEpochs.insert epoch (((log.mixEpochs.get? epoch).getD []).insert idx), log.blockReads⟩
  | .slotForBlock root => ⟨log.validatorEpochs, log.mixEpochs,
      if root ∈ log.blockReads then log.blockReads else log.blockReads ++ [root]⟩

/-- The reader with fixed answers. -/
def still (r : Host) (g : Root) (H : Root → Res HostError (Option Header)) (P : Nat → Res ProviderError HostState) : HostReader where
  spec := r.spec
  provider := P
  genesisRoot := .ok g
  headers := H
  decompress := r.outside.decompress
  consensusState := r.consensusState
  attestations := r.attestations

/-- A logic in which the caches of the host are sound. -/
structure HostLogic (r : Host) (g : Root) (H : Root → Res HostError (Option Header)) (Ix : Type) extends Logic Session Ix Known where
  P : Ix → Nat → Res ProviderError HostState
  state : ∀ slot a, J (stateAtSlot r.outside slot) (fun i => P i slot) a a
  root : ∀ a, J (genesisRoot r.outside) (fun _ => .ok g) a a
  active : ∀ e a, J (r.activeValidators e) (fun i => (still r g H (P i)).activeValidators e) a a
  log : ∀ {ε β : Type} (u : Session → Session) (u' : PreflightLog → PreflightLog), (∀ s, u s = { s with log := u' s.log }) →
    ∀ {l : PreflightLog} {n : Nat} {k : PreflightLog → Ask Session ε β} {f : Ix → Res ε β} {c : Known}, J (k l) f (u' l, n) c →
    J ((fun s => .ok (s.log, u s) : Ask Session ε PreflightLog) >>= k) f (l, n) c
  note : ∀ {ε : Type} (u : PreflightLog → PreflightLog) l n,
    J (fun s => (.ok ((), { s with log := u s.log }) : Res ε (Unit × Session))) (fun _ => .ok ()) (l, n) (u l, n)

namespace HostLogic
variable {r : Host} {g : Root} {H : Root → Res HostError (Option Header)} {Ix : Type} (L : HostLogic r g H Ix)

theorem hostState (e : Nat) (a : Known) : L.J (r.state e) (fun i => (still r g H (L.P i)).state e) a a :=
  L.mapErr _ (L.state _ a)

theorem fork (e : Nat) (a : Known) : L.J (r.fork e) (fun i => (still r g H (L.P i)).fork e) a a :=
  L.bind (L.hostState e a) fun _ => L.pure _ _

theorem mix (e idx : Nat) (a : Known) : L.J (r.randaoMix e idx) (fun i => (still r g H (L.P i)).randaoMix e idx) a a :=
  L.bind (L.hostState e a) fun _ => L.pure _ _

theorem related (t : Nat) : L.Related (r.recording t) (fun i => preflightReader t (still r g H (L.P i)).toReader)
    (fun a q => (record a.1 q, a.2)) (fun _ => True) where
  spec := fun _ => rfl
  attestations := fun _ => rfl
  consensusState := fun _ => rfl
  root := fun a _ => L.mapErr _ (L.root a)
  fork := fun e a _ => L.mapErr _ (L.fork e a)
  active := fun e a _ => L.liftBind _ fun _ _ => by
    have h := L.bind (L.mapErr (fun _ => ReaderError.other) (L.active e a)) (fun l =>
      L.bind (L.note (fun lg => record lg (.activeValidators e)) a.1 a.2) fun _ => L.pure (ε := ReaderError) l _)
    have hp : ∀ i : Ix, (((still r g H (L.P i)).activeValidators e).mapErr (fun _ => ReaderError.other) >>= fun l =>
        (Res.ok () : Res ReaderError Unit) >>= fun _ => Res.ok l) =
        ((still r g H (L.P i)).toReader).activeValidators e := by
      intro i
      unfold HostReader.toReader
      dsimp only
      cases (still r g H (L.P i)).activeValidators e <;> rfl
    simp only [hp] at h
    exact h
  mix := fun e idx a _ => L.bind (L.mapErr _ (L.mix e idx a)) fun m => L.liftBind _ fun x _ =>
    L.bind (L.note (fun lg => record lg (.randaoMix e idx)) a.1 a.2) fun _ => L.pure _ _
  keep := fun _ _ _ => trivial

/-! ### The input -/

theorem boundary (X : Ext) (spe e : Nat) (a : Known) : L.J (stateAtEpochBoundary spe r.outside e)
    (fun i => Signal.stateAtEpochBoundary (hostStateOps X) spe (L.P i) e) a a := by
  refine L.bind (g := fun st i => if st.latestBlockHeader.slot = st.beacon.slot then .ok st
    else L.P i st.latestBlockHeader.slot) (L.state _ a) fun st => ?_
  by_cases h : st.latestBlockHeader.slot = st.beacon.slot
  · simp only [if_pos h]
    exact L.lift _ _
  · simp only [if_neg h]
    exact L.state _ a

theorem checkpoint (X : Ext) (spe : Nat) (c : Checkpoint) (a : Known) : L.J (stateAtCheckpoint X spe r.outside c)
    (fun i => Signal.stateAtCheckpoint X (hostStateOps X) spe (L.P i) c) a a :=
  L.bind (L.boundary X spe _ a) fun _ => L.liftBind _ fun _ _ => L.pure _ _

theorem newBuilder (e : Nat) (a : Known) : L.J (newPatchBuilder r e) (fun i => Signal.newPatchBuilder (still r g H (L.P i)) e) a a :=
  L.bind (L.mapErr _ (L.state _ a)) fun _ => L.pure _ _

theorem mixPatches (a : Known) : ∀ (l : List (Nat × OSet)) (m : OMap PatchBuilder),
    L.J (Timed.mixPatches r l m) (fun i => Signal.mixPatches (still r g H (L.P i)) l m) a a
  | [], m => L.lift _ _
  | (e, ix) :: l, m => by
    unfold Timed.mixPatches Signal.mixPatches
    exact L.bind (L.newBuilder e a) fun b => L.liftBind _ fun _ _ => mixPatches a l _

theorem exitPatches (t : Nat) (vs : List Validator) (a : Known) : ∀ (l : List Nat) (m : OMap PatchBuilder),
    L.J (Timed.exitPatches r t vs l m) (fun i => Signal.exitPatches (still r g H (L.P i)) t vs l m) a a
  | [], m => L.lift _ _
  | e :: l, m => by
    unfold Timed.exitPatches Signal.exitPatches
    split
    · exact L.bind (L.newBuilder e a) fun b => exitPatches t vs a l _
    · exact exitPatches t vs a l m

/-- The header is given as `H` says. -/
def HeaderRule : Prop := ∀ root l, L.J (Host.header r.outside root) (fun _ => H root) (l, 1) (l, 2)

variable {L}

theorem slotProof (hh : L.HeaderRule) (X : Ext) (order : List Nat → List Nat) (root : Root) (lg : PreflightLog) :
    L.J (Timed.slotProof X order r root) (fun i => Signal.slotProof X order (still r g H (L.P i)) root) (lg, 1) (lg, 2) :=
  L.bind (L.mapErr _ (hh root lg)) fun _ => L.liftBind _ fun _ _ => L.liftBind _ fun _ _ => L.liftBind _ fun _ _ => L.pure _ _

theorem slotProofs (hh : L.HeaderRule) (X : Ext) (order : List Nat → List Nat) (root : Root) (lg : PreflightLog) :
    L.J (Timed.slotProofs X order r [root]) (fun i => mapRes (Signal.slotProof X order (still r g H (L.P i))) [root]) (lg, 1) (lg, 2) :=
  L.bind (slotProof hh X order root lg) fun _ => L.bind (L.lift _ _) fun _ => L.pure _ _

variable (L)

theorem inputHead (X : Ext) (order : List Nat → List Nat) (trusted : Checkpoint) (lg : PreflightLog) (n : Nat) :
    L.J (Timed.inputHead X order r trusted) (fun i => Timed.signalInputHead X order (still r g H (L.P i)) trusted lg) (lg, n)
      (⟨[], [], lg.blockReads⟩, n) := by
  refine L.bind (L.mapErr _ (L.checkpoint X _ trusted _)) fun st => ?_
  refine L.liftBind _ fun b _ => L.liftBind _ fun _ _ => L.liftBind _ fun bs _ => L.liftBind _ fun _ _ => ?_
  refine L.bind (L.mapErr _ (L.active _ _)) fun act => ?_
  refine L.liftBind _ fun keys _ => L.liftBind _ fun av _ => L.liftBind _ fun _ _ => ?_
  refine L.log _ (fun l => { l with mixEpochs := [] }) (fun _ => rfl) ?_
  refine L.bind (L.mixPatches _ _ _) fun bs1 => ?_
  refine L.log _ (fun l => { l with validatorEpochs := [] }) (fun _ => rfl) ?_
  exact L.bind (L.exitPatches _ _ _ _ _) fun bs2 => L.pure _ _

variable {L}

theorem toInput (hh : L.HeaderRule) (X : Ext) (order : List Nat → List Nat) (trusted : Checkpoint) (lg : PreflightLog) (root : Root)
    (hb : lg.blockReads = [root]) :
    L.J (Timed.toInput X order r trusted) (fun i => Signal.toInput X order (still r g H (L.P i)) trusted lg) (lg, 1)
      (⟨[], [], [root]⟩, 2) := by
  rw [input_parts]
  simp only [signalInput_parts]
  refine L.bind (L.inputHead X order trusted lg 1) fun k => ?_
  refine L.log _ (fun l => l) (fun _ => rfl) ?_
  rw [hb]
  exact L.bind (slotProofs hh X order root _) fun ps => L.pure _ _

end HostLogic

/-! ## First instance: answers that were given explain the run -/

/-- The provider that answers from a cache. -/
def fromCache (C : StateCache HostState) (slot : Nat) : Res ProviderError HostState :=
  match C.lookup slot with
  | some st => .ok st
  | none => .err .other

/-- The provider `P` gives the states of the cache. -/
def Gives (C : StateCache HostState) (P : Nat → Res ProviderError HostState) : Prop :=
  ∀ slot st, C.lookup slot = some st → P slot = .ok st

/-- The provider `P` gives states that were given. -/
def WasGiven (o : Outside) (P : Nat → Res ProviderError HostState) : Prop :=
  ∀ slot st, P slot = .ok st → ∃ k, o.state k slot = .ok st

theorem lookup_prefix {α : Type} {C C' : List (Nat × α)} {k : Nat} {x : α} (hp : C <+: C') (h : C.lookup k = some x) :
    C'.lookup k = some x := by
  obtain ⟨t, rfl⟩ := hp
  rw [List.lookup_append, h]
  rfl

theorem mem_of_lookup {α : Type} {C : List (Nat × α)} {k : Nat} {x : α} (h : C.lookup k = some x) : (k, x) ∈ C := by
  obtain ⟨l1, l2, he, -⟩ := List.lookup_eq_some_iff.1 h
  rw [he]
  simp

theorem Gives.of_prefix {C C' : StateCache HostState} {P : Nat → Res ProviderError HostState} (h : Gives C' P) (hp : C <+: C') :
    Gives C P := fun slot st hl => h slot st (lookup_prefix hp hl)

theorem fromCache_gives (C : StateCache HostState) : Gives C (fromCache C) := by
  intro slot st h
  unfold fromCache
  rw [h]

/-- What holds of the caches; with `b` something is cached. -/
structure Inv (r : Host) (b : Bool) (s : Session) : Prop where
  states : ∀ slot st, (slot, st) ∈ s.cache → ∃ k, r.outside.state k slot = .ok st
  validators : ∀ e l, s.validators.lookup e = some l → ∀ g H P, Gives s.cache P → (still r g H P).activeValidators e = .ok l
  some : b = true → s.cache ≠ []

theorem Inv.given {r : Host} {b : Bool} {s : Session} (h : Inv r b s) : WasGiven r.outside (fromCache s.cache) := by
  intro slot st hs
  unfold fromCache at hs
  split at hs
  · rename_i hl
    cases hs
    exact h.states slot _ (mem_of_lookup hl)
  · cases hs

/-- Some answers that were given, among them those in the cache, lead to this outcome. -/
def Fails (r : Host) (C : StateCache HostState) {ε α : Type} (f : (Nat → Res ProviderError HostState) → Res ε α) (q : Res ε α) : Prop :=
  ∃ P, Gives C P ∧ WasGiven r.outside P ∧ f P = q

/-- A run keeps the caches, and the answers in them explain it. -/
def Explained (r : Host) (b : Bool) (C : StateCache HostState) {ε α : Type} (f : (Nat → Res ProviderError HostState) → Res ε α)
    (c : Known) : Res ε (α × Session) → Prop
  | .ok (x, s') => Inv r b s' ∧ C <+: s'.cache ∧ (s'.log, s'.headerRequests) = c ∧ ∀ P, Gives s'.cache P → f P = .ok x
  | .err e => Fails r C f (.err e)
  | .panic => Fails r C f .panic

/-- Every run is explained by answers that were given. -/
def SoundJ (r : Host) (b : Bool) {ε α : Type} (m : Ask Session ε α) (f : (Nat → Res ProviderError HostState) → Res ε α) (a c : Known) :
    Prop :=
  ∀ s, Inv r b s → (s.log, s.headerRequests) = a → Explained r b s.cache f c (m s)

section
variable {r : Host} {b : Bool}

theorem fails_cache {s : Session} (hi : Inv r b s) {ε α : Type} {f : (Nat → Res ProviderError HostState) → Res ε α} {q : Res ε α}
    (h : f (fromCache s.cache) = q) : Fails r s.cache f q := ⟨_, fromCache_gives _, hi.given, h⟩

theorem sound_state (slot : Nat) (a : Known) : SoundJ r b (stateAtSlot r.outside slot) (fun P => P slot) a a := by
  intro s hi ha
  unfold stateAtSlot cacheStateAtSlot
  cases hl : s.cache.lookup slot with
  | some st => exact ⟨⟨hi.states, hi.validators, hi.some⟩, List.prefix_refl _, ha, fun P hP => hP slot st hl⟩
  | none =>
    dsimp only
    have other : ∀ q : Res ProviderError HostState, (∀ st, q ≠ .ok st) → Fails r s.cache (fun P => P slot) q := by
      intro q hq
      refine ⟨fun sl => if sl = slot then q else fromCache s.cache sl, ?_, ?_, by simp⟩
      · intro sl st h
        dsimp only
        rw [if_neg]
        · exact fromCache_gives _ sl st h
        · rintro rfl
          rw [hl] at h
          cases h
      · intro sl st h
        dsimp only at h
        split at h
        · exact absurd h (hq st)
        · exact hi.given sl st h
    cases hq : r.outside.state s.stateRequests slot with
    | err e => exact other _ (by simp)
    | panic => exact other _ (by simp)
    | ok st =>
      have hp : s.cache <+: s.cache ++ [(slot, st)] := List.prefix_append _ _
      refine ⟨⟨?_, fun e l h g H P hP => hi.validators e l h g H P (hP.of_prefix hp), ?_⟩, hp, ha, fun P hP => hP slot st ?_⟩
      · intro slot' st' hm
        rcases List.mem_append.1 hm with hm | hm
        · exact hi.states _ _ hm
        · cases List.mem_singleton.1 hm
          exact ⟨_, hq⟩
      · intro _ hn
        exact absurd hn (by simp)
      · dsimp only
        rw [List.lookup_append, hl]
        simp

theorem sound_bind {ε α β : Type} {m : Ask Session ε α} {f : (Nat → Res ProviderError HostState) → Res ε α} {k : α → Ask Session ε β}
    {g : α → (Nat → Res ProviderError HostState) → Res ε β} {a a' c : Known} (h1 : SoundJ r b m f a a')
    (h2 : ∀ x, SoundJ r b (k x) (g x) a' c) : SoundJ r b (m >>= k) (fun P => f P >>= fun x => g x P) a c := by
  intro s hi ha
  have h := h1 s hi ha
  rw [run_bind]
  generalize m s = q at h
  cases q with
  | err e =>
    obtain ⟨P, p1, p2, p3⟩ := h
    exact ⟨P, p1, p2, by dsimp only; rw [p3]; rfl⟩
  | panic =>
    obtain ⟨P, p1, p2, p3⟩ := h
    exact ⟨P, p1, p2, by dsimp only; rw [p3]; rfl⟩
  | ok p =>
    obtain ⟨x, s1⟩ := p
    obtain ⟨i1, p1, a1, f1⟩ := h
    have h' := h2 x s1 i1 a1
    rw [Res.ok_bind]
    dsimp only
    generalize k x s1 = q at h'
    have fails : ∀ q, Fails r s1.cache (g x) q → Fails r s.cache (fun P => f P >>= fun x => g x P) q := by
      rintro q ⟨P, g1, g2, g3⟩
      exact ⟨P, g1.of_prefix p1, g2, by dsimp only; rw [f1 P g1]; exact g3⟩
    cases q with
    | err e => exact fails _ h'
    | panic => exact fails _ h'
    | ok p =>
      obtain ⟨y, s2⟩ := p
      obtain ⟨i2, p2, a2, f2⟩ := h'
      exact ⟨i2, p1.trans p2, a2, fun P hP => by dsimp only; rw [f1 P (hP.of_prefix p2)]; exact f2 P hP⟩

theorem sound_lift {ε α : Type} (q : Res ε α) (a : Known) : SoundJ r b (lift q) (fun _ => q) a a := by
  intro s hi ha
  cases q with
  | ok x => exact ⟨hi, List.prefix_refl _, ha, fun _ _ => rfl⟩
  | err e => exact fails_cache hi rfl
  | panic => exact fails_cache hi rfl

theorem sound_liftBind {ε α β : Type} (q : Res ε α) {k : α → Ask Session ε β} {g : α → (Nat → Res ProviderError HostState) → Res ε β}
    {a c : Known} (h2 : ∀ x, q = .ok x → SoundJ r b (k x) (g x) a c) :
    SoundJ r b (lift q >>= k) (fun P => q >>= fun x => g x P) a c := by
  intro s hi ha
  cases q with
  | ok x => exact h2 x rfl s hi ha
  | err e => exact fails_cache hi rfl
  | panic => exact fails_cache hi rfl

theorem sound_mapErr {ε ε' α : Type} (h : ε → ε') {m : Ask Session ε α} {f : (Nat → Res ProviderError HostState) → Res ε α} {a c : Known}
    (hm : SoundJ r b m f a c) : SoundJ r b (mapErr h m) (fun P => (f P).mapErr h) a c := by
  intro s hi ha
  have h' := hm s hi ha
  unfold mapErr
  generalize m s = q at h'
  cases q with
  | err e =>
    obtain ⟨P, p1, p2, p3⟩ := h'
    exact ⟨P, p1, p2, by dsimp only; rw [p3]; rfl⟩
  | panic =>
    obtain ⟨P, p1, p2, p3⟩ := h'
    exact ⟨P, p1, p2, by dsimp only; rw [p3]; rfl⟩
  | ok p =>
    obtain ⟨i1, p1, a1, f1⟩ := h'
    exact ⟨i1, p1, a1, fun P hP => by dsimp only; rw [f1 P hP]; rfl⟩

theorem sound_root (g : Root) (hg : OneNetwork r.outside g) (a : Known) :
    SoundJ r true (genesisRoot r.outside) (fun _ => .ok g) a a := by
  intro s hi ha
  unfold genesisRoot
  have hne := hi.some rfl
  have hpos : 0 < s.cache.length := List.length_pos_iff.2 hne
  have hlt : r.outside.pick s.picks % s.cache.length < s.cache.length := Nat.mod_lt _ hpos
  rw [List.getElem?_eq_getElem hlt]
  rcases hc : s.cache[r.outside.pick s.picks % s.cache.length] with ⟨slot, st⟩
  have hm : (slot, st) ∈ s.cache := by rw [← hc]; exact List.getElem_mem _
  obtain ⟨k, hk⟩ := hi.states slot st hm
  exact ⟨⟨hi.states, hi.validators, hi.some⟩, List.prefix_refl _, ha, fun _ _ => by rw [hg k slot st hk]⟩

/-- The active validators of a state. -/
def activeOf (r : Host) (e : Nat) (st : HostState) : Res HostError (List (Nat × ValidatorInfo)) :=
  mapRes (fun (x : Validator × Nat) => match x with
      | (v, i) => do
        let info ← toValidatorInfo r.outside.decompress v
        return (i, info))
    (st.beacon.validators.zipIdx.filter
      (fun (v, _) => decide (v.activationEpoch ≤ e) && decide (e < v.exitEpoch)))

theorem still_activeValidators (g : Root) (H : Root → Res HostError (Option Header)) (P : Nat → Res ProviderError HostState) (e : Nat) :
    (still r g H P).activeValidators e = (P (satMul e r.spec.slotsPerEpoch)).mapErr (fun _ => HostError.provider) >>= activeOf r e := rfl

theorem active_uncached {e : Nat} {s : Session} (hn : s.validators.lookup e = none) : r.activeValidators e s =
    (mapErr (fun _ => HostError.provider) (stateAtSlot r.outside (satMul e r.spec.slotsPerEpoch)) >>= fun st =>
      lift (activeOf r e st) >>= fun l => (fun s => .ok (l, { s with validators := s.validators ++ [(e, l)] }) :
        Ask Session HostError (List (Nat × ValidatorInfo)))) s := by
  unfold Host.activeValidators
  rw [hn]
  rfl

theorem sound_active (g : Root) (H : Root → Res HostError (Option Header)) (e : Nat) (a : Known) :
    SoundJ r b (r.activeValidators e) (fun P => (still r g H P).activeValidators e) a a := by
  intro s hi ha
  cases hl : s.validators.lookup e with
  | some l =>
    have : r.activeValidators e s = .ok (l, s) := by
      unfold Host.activeValidators
      rw [hl]
    rw [this]
    exact ⟨hi, List.prefix_refl _, ha, hi.validators e l hl g H⟩
  | none =>
    rw [active_uncached hl]
    have h1 := sound_mapErr (fun _ => HostError.provider) (sound_state (r := r) (b := b) (satMul e r.spec.slotsPerEpoch) a)
    have h := sound_bind h1 (fun st => sound_lift (activeOf r e st) a) s hi ha
    simp only [still_activeValidators]
    rw [← bind_assoc, run_bind]
    generalize (mapErr (fun _ => HostError.provider) (stateAtSlot r.outside (satMul e r.spec.slotsPerEpoch)) >>= fun st =>
      lift (activeOf r e st)) s = q at h ⊢
    cases q with
    | err x => exact h
    | panic => exact h
    | ok p =>
      obtain ⟨l, s1⟩ := p
      obtain ⟨i1, p1, a1, f1⟩ := h
      refine ⟨⟨i1.states, ?_, i1.some⟩, p1, a1, f1⟩
      intro e' l' hl' g H P hP
      have hl' : (s1.validators ++ [(e, l)]).lookup e' = some l' := hl'
      rw [List.lookup_append] at hl'
      cases hq : s1.validators.lookup e' with
      | some l'' =>
        rw [hq] at hl'
        cases hl'
        exact i1.validators e' _ hq g H P hP
      | none =>
        rw [hq] at hl'
        by_cases he : e' = e
        · subst he
          simp at hl'
          subst hl'
          exact f1 P hP
        · have hb : (e' == e) = false := by simpa using he
          simp [List.lookup_cons, hb] at hl'

end

/-- The rules hold for answers that change. -/
def soundLogic (r : Host) (g : Root) (hg : OneNetwork r.outside g) (H : Root → Res HostError (Option Header)) :
    HostLogic r g H (Nat → Res ProviderError HostState) where
  J := SoundJ r true
  lift := sound_lift
  liftBind := sound_liftBind
  bind := sound_bind
  mapErr := sound_mapErr
  P := fun P => P
  state := sound_state
  root := sound_root g hg
  active := sound_active g _
  log := by
    intro ε β u u' hu l n k f c hk s hi ha
    have hn : s.headerRequests = n := congrArg Prod.snd ha
    have hl : s.log = l := congrArg Prod.fst ha
    have h := hk { s with log := u' s.log } ⟨hi.states, hi.validators, hi.some⟩ (by simp [hn, hl])
    have he : ((fun s => .ok (s.log, u s) : Ask Session ε PreflightLog) >>= k) s = k l { s with log := u' s.log } := by
      show k s.log (u s) = _
      rw [hl, hu, hl]
    rw [he]
    exact h
  note := by
    intro ε u l n s hi ha
    have hn : s.headerRequests = n := congrArg Prod.snd ha
    have hl : s.log = l := congrArg Prod.fst ha
    exact ⟨⟨hi.states, hi.validators, hi.some⟩, List.prefix_refl _, by simp [hn, hl], fun _ _ => rfl⟩

theorem sound_header (r : Host) (g : Root) (hg : OneNetwork r.outside g) :
    (soundLogic r g hg (r.outside.header 1)).HeaderRule := by
  intro root l s hi ha
  have hn : s.headerRequests = 1 := congrArg Prod.snd ha
  have hl : s.log = l := congrArg Prod.fst ha
  unfold Host.header
  rw [hn]
  cases h : r.outside.header 1 root with
  | ok x => exact ⟨⟨hi.states, hi.validators, hi.some⟩, List.prefix_refl _, by simp [hl], fun _ _ => rfl⟩
  | err e => exact fails_cache hi rfl
  | panic => exact fails_cache hi rfl

/-! ## Second instance: answers that do not change give the same outcome -/

/-- What holds of the caches if the provider answers `P`; with `b` something is cached. -/
structure Kept (r : Host) (P : Nat → Res ProviderError HostState) (b : Bool) (s : Session) : Prop where
  states : ∀ slot st, (slot, st) ∈ s.cache → P slot = .ok st
  validators : ∀ e l, s.validators.lookup e = some l → ∀ g H, (still r g H P).activeValidators e = .ok l
  some : b = true → s.cache ≠ []

/-- The outcome `o` of a run is the outcome `q`. -/
def Outcomes (r : Host) (P : Nat → Res ProviderError HostState) (b : Bool) {ε α : Type} (c : Known) (o : Res ε (α × Session)) :
    Res ε α → Prop
  | .ok x => ∃ s', o = .ok (x, s') ∧ Kept r P b s' ∧ (s'.log, s'.headerRequests) = c
  | .err e => o = .err e
  | .panic => o = .panic

/-- The outcome over the fixed answers is that of a run. -/
def StillJ (r : Host) (P : Nat → Res ProviderError HostState) (b : Bool) {ε α : Type} (m : Ask Session ε α) (f : Unit → Res ε α)
    (a c : Known) : Prop :=
  ∀ s, Kept r P b s → (s.log, s.headerRequests) = a → Outcomes r P b c (m s) (f ())

section
variable {r : Host} {P : Nat → Res ProviderError HostState} {b : Bool}

theorem still_lift {ε α : Type} (q : Res ε α) (a : Known) : StillJ r P b (lift q) (fun _ => q) a a := by
  intro s hk ha
  cases q with
  | ok x => exact ⟨s, rfl, hk, ha⟩
  | err e => rfl
  | panic => rfl

theorem still_bind {ε α β : Type} {m : Ask Session ε α} {f : Unit → Res ε α} {k : α → Ask Session ε β} {g : α → Unit → Res ε β}
    {a a' c : Known} (h1 : StillJ r P b m f a a') (h2 : ∀ x, StillJ r P b (k x) (g x) a' c) :
    StillJ r P b (m >>= k) (fun i => f i >>= fun x => g x i) a c := by
  intro s hk ha
  have h := h1 s hk ha
  rw [run_bind]
  dsimp only
  generalize f () = q at h ⊢
  cases q with
  | ok x =>
    obtain ⟨s1, e1, k1, a1⟩ := h
    rw [e1]
    exact h2 x s1 k1 a1
  | err e =>
    have h : m s = .err e := h
    rw [h]
    rfl
  | panic =>
    have h : m s = .panic := h
    rw [h]
    rfl

theorem still_mapErr {ε ε' α : Type} (h : ε → ε') {m : Ask Session ε α} {f : Unit → Res ε α} {a c : Known} (hm : StillJ r P b m f a c) :
    StillJ r P b (mapErr h m) (fun i => (f i).mapErr h) a c := by
  intro s hk ha
  have h := hm s hk ha
  unfold mapErr
  dsimp only
  generalize f () = q at h ⊢
  cases q with
  | ok x =>
    obtain ⟨s1, e1, k1, a1⟩ := h
    rw [e1]
    exact ⟨s1, rfl, k1, a1⟩
  | err e =>
    have h : m s = .err e := h
    rw [h]
    rfl
  | panic =>
    have h : m s = .panic := h
    rw [h]
    rfl

theorem still_state (hP : ∀ k, r.outside.state k = P) (slot : Nat) (a : Known) :
    StillJ r P b (stateAtSlot r.outside slot) (fun _ => P slot) a a := by
  intro s hk ha
  unfold stateAtSlot cacheStateAtSlot
  rw [hP]
  cases hl : s.cache.lookup slot with
  | some st =>
    have := hk.states slot st (mem_of_lookup hl)
    dsimp only
    rw [this]
    exact ⟨_, rfl, ⟨hk.states, hk.validators, hk.some⟩, ha⟩
  | none =>
    dsimp only
    cases h : P slot with
    | err e => rfl
    | panic => rfl
    | ok st =>
      refine ⟨_, rfl, ⟨?_, hk.validators, ?_⟩, ha⟩
      · intro slot' st' hm
        rcases List.mem_append.1 hm with hm | hm
        · exact hk.states _ _ hm
        · cases List.mem_singleton.1 hm
          exact h
      · intro _ hn
        exact absurd hn (by simp)

theorem still_active (hP : ∀ k, r.outside.state k = P) (g : Root) (H : Root → Res HostError (Option Header)) (e : Nat) (a : Known) :
    StillJ r P b (r.activeValidators e) (fun _ => (still r g H P).activeValidators e) a a := by
  intro s hk ha
  unfold Host.activeValidators
  cases hl : s.validators.lookup e with
  | some l =>
    have := hk.validators e l hl g H
    dsimp only
    rw [this]
    exact ⟨s, rfl, hk, ha⟩
  | none =>
    dsimp only
    have hst := still_mapErr (fun _ => HostError.provider) (still_state (b := b) hP (satMul e r.spec.slotsPerEpoch) a) s hk ha
    have hr : r.state e s = mapErr (fun _ => HostError.provider) (stateAtSlot r.outside (satMul e r.spec.slotsPerEpoch)) s := rfl
    rw [run_bind, hr]
    have hv : ∀ st, ((P (satMul e r.spec.slotsPerEpoch)).mapErr (fun _ => HostError.provider)) = .ok st → ∀ g H,
        (still r g H P).activeValidators e = mapRes (fun (x : Validator × Nat) => match x with
          | (v, i) => do
            let info ← toValidatorInfo r.outside.decompress v
            return (i, info))
        (st.beacon.validators.zipIdx.filter
          (fun (v, _) => decide (v.activationEpoch ≤ e) && decide (e < v.exitEpoch))) := by
      intro st hs g H
      have : (still r g H P).state e = .ok st := hs
      unfold HostReader.activeValidators
      rw [this]
      rfl
    have hv' : ((still r g H P).activeValidators e) = ((still r g H P).state e >>= fun _ => (still r g H P).activeValidators e) := by
      unfold HostReader.activeValidators
      cases (still r g H P).state e <;> rfl
    have hs' : (still r g H P).state e = (P (satMul e r.spec.slotsPerEpoch)).mapErr (fun _ => HostError.provider) := rfl
    rw [hv', hs']
    generalize (P (satMul e r.spec.slotsPerEpoch)).mapErr (fun _ => HostError.provider) = q at hst hv ⊢
    cases q with
    | err x =>
      have hst : mapErr (fun _ => HostError.provider) (stateAtSlot r.outside (satMul e r.spec.slotsPerEpoch)) s = .err x := hst
      rw [hst]; rfl
    | panic =>
      have hst : mapErr (fun _ => HostError.provider) (stateAtSlot r.outside (satMul e r.spec.slotsPerEpoch)) s = .panic := hst
      rw [hst]; rfl
    | ok st =>
      obtain ⟨s1, e1, k1, a1⟩ := hst
      have hv := hv st rfl
      rw [e1, Res.ok_bind, Res.ok_bind, hv g H]
      dsimp only
      rw [run_bind]
      unfold lift
      generalize hq : mapRes (fun (x : Validator × Nat) => match x with
          | (v, i) => do
            let info ← toValidatorInfo r.outside.decompress v
            return (i, info))
        (st.beacon.validators.zipIdx.filter
          (fun (v, _) => decide (v.activationEpoch ≤ e) && decide (e < v.exitEpoch))) = q at hv ⊢
      cases q with
      | err x => rfl
      | panic => rfl
      | ok l =>
        refine ⟨{ s1 with validators := s1.validators ++ [(e, l)] }, rfl, ⟨k1.states, ?_, k1.some⟩, a1⟩
        intro e' l' hl' g H
        have hl' : (s1.validators ++ [(e, l)]).lookup e' = some l' := hl'
        rw [List.lookup_append] at hl'
        cases hq : s1.validators.lookup e' with
        | some l'' =>
          rw [hq] at hl'
          cases hl'
          exact k1.validators e' _ hq g H
        | none =>
          rw [hq] at hl'
          by_cases he : e' = e
          · subst he
            simp at hl'
            subst hl'
            exact hv g H
          · have hb : (e' == e) = false := by simpa using he
            simp [List.lookup_cons, hb] at hl'

theorem still_root {g : Root} (hg : ∀ slot st, P slot = .ok st → st.beacon.genesisValidatorsRoot = g) (a : Known) :
    StillJ r P true (genesisRoot r.outside) (fun _ => .ok g) a a := by
  intro s hk ha
  unfold genesisRoot
  have hne := hk.some rfl
  have hpos : 0 < s.cache.length := List.length_pos_iff.2 hne
  have hlt : r.outside.pick s.picks % s.cache.length < s.cache.length := Nat.mod_lt _ hpos
  rw [List.getElem?_eq_getElem hlt]
  rcases hc : s.cache[r.outside.pick s.picks % s.cache.length] with ⟨slot, st⟩
  dsimp only
  have hm : (slot, st) ∈ s.cache := by rw [← hc]; exact List.getElem_mem _
  rw [hg slot st (hk.states slot st hm)]
  exact ⟨_, rfl, ⟨hk.states, hk.validators, hk.some⟩, ha⟩

end

/-- The rules hold for answers of the provider that do not change. -/
def stillLogic (r : Host) (P : Nat → Res ProviderError HostState) (hP : ∀ k, r.outside.state k = P) (g : Root)
    (hg : ∀ slot st, P slot = .ok st → st.beacon.genesisValidatorsRoot = g) (H : Root → Res HostError (Option Header)) :
    HostLogic r g H Unit where
  J := StillJ r P true
  lift := still_lift
  liftBind := fun q k f a c h s hk ha => by
    cases q with
    | ok y => exact h y rfl s hk ha
    | err e => rfl
    | panic => rfl
  bind := still_bind
  mapErr := still_mapErr
  P := fun _ => P
  state := still_state hP
  root := still_root hg
  active := still_active hP g _
  log := by
    intro ε β u u' hu l n k f c hk s hi ha
    have hn : s.headerRequests = n := congrArg Prod.snd ha
    have hl : s.log = l := congrArg Prod.fst ha
    have h := hk { s with log := u' s.log } ⟨hi.states, hi.validators, hi.some⟩ (by simp [hn, hl])
    have he : ((fun s => .ok (s.log, u s) : Ask Session ε PreflightLog) >>= k) s = k l { s with log := u' s.log } := by
      show k s.log (u s) = _
      rw [hl, hu, hl]
    rw [he]
    exact h
  note := by
    intro ε u l n s hi ha
    have hn : s.headerRequests = n := congrArg Prod.snd ha
    have hl : s.log = l := congrArg Prod.fst ha
    exact ⟨{ s with log := u s.log }, rfl, ⟨hi.states, hi.validators, hi.some⟩, by simp [hn, hl]⟩

theorem still_header (r : Host) (P : Nat → Res ProviderError HostState) (hP : ∀ k, r.outside.state k = P) (g : Root)
    (hg : ∀ slot st, P slot = .ok st → st.beacon.genesisValidatorsRoot = g) :
    (stillLogic r P hP g hg (r.outside.header 1)).HeaderRule := by
  intro root l s hk ha
  have hn : s.headerRequests = 1 := congrArg Prod.snd ha
  have hl : s.log = l := congrArg Prod.fst ha
  unfold Host.header
  rw [hn]
  dsimp only
  cases h : r.outside.header 1 root with
  | ok x => exact ⟨{ s with headerRequests := 1 + 1 }, rfl, ⟨hk.states, hk.validators, hk.some⟩, by simp [hl]⟩
  | err e => rfl
  | panic => rfl

end Signal.Timed
