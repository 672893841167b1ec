import Verif.Props.OddFinality
import Verif.Props.AnyNode

/-! # C66: why acceptance by the guest needs answers that belong to one chain

The host takes the genesis validators root from some state it has read and does not compare it with the one in the trusted state, which the
guest uses. A node that serves the trusted state of one chain and later states and votes of another one makes `build-input` write files that the guest program
rejects, although no balance has changed and the guest accepts the exits. -/

namespace Signal
open Spec Wire Program

set_option maxRecDepth 100000

/-- A vote signed for a chain with another genesis. -/
def bxVote (slot : Nat) (source target : Checkpoint) (signers : List Nat) : Attestation :=
  let data : AttestationData := ⟨slot, 0, List.replicate 32 0, source, target⟩
  .electra {
    aggregationBits := signers.map (fun _ => true)
    data := data
    committeeBits := [true, true] ++ List.replicate 62 false
    signature := padSig (exSpec.signingRoot data (exExt.computeDomain [5, 0, 0, 0] (exRoot32 78)) ++
      signers.map (fun i => UInt8.ofNat (100 + i))) }

def bxVotes : List Attestation :=
  [bxVote 24 exC4 gxC6 [0, 1], bxVote 25 exC4 gxC6 [2, 3, 4], bxVote 26 exC4 gxC6 [5, 6], bxVote 27 exC4 gxC6 [7, 8, 9],
   bxVote 28 gxC6 exC7 [0, 1], bxVote 29 gxC6 exC7 [2, 3, 4], bxVote 30 gxC6 exC7 [5, 6], bxVote 31 gxC6 exC7 [7, 8, 9]]

def bxBlocks (slot : Nat) : Res HostError (Option Block) :=
  .ok (if slot = 25 then some (.electra ((bxVotes.take 4).map some))
    else if slot = 29 then some (.electra ((bxVotes.drop 4).map some))
    else none)

/-- A state of the other chain, with the same registry. -/
def bxState (s : HostState) : HostState := { s with beacon := { s.beacon with genesisValidatorsRoot := exRoot32 78 } }

/-- The state of epoch 3 is of one chain, those of epochs 6 and 7 are of the other. -/
def bxProvider (slot : Nat) : Res ProviderError HostState := do
  let s ← fxProvider slot
  return if slot = 12 then s else bxState s

/-- The node. -/
def bxWorld : World := { fpWorld1 with provider := bxProvider, genesisRoot := .ok (exRoot32 78), getBlock := bxBlocks }

/-- What the host reads, and the same with the genesis of the trusted state. -/
def bxHost : HostReader := { fxHost with provider := bxProvider, genesisRoot := .ok (exRoot32 78), attestations := bxVotes }
def bxGood : HostReader := { fxHost with provider := bxProvider, attestations := bxVotes }

theorem bx_provided {slot : Nat} {s : HostState} (h : bxProvider slot = .ok s) : ∃ s', fxProvider slot = .ok s' ∧
    s.beacon.validators = s'.beacon.validators ∧ s.beacon.fork = s'.beacon.fork ∧ s.randaoMixes = s'.randaoMixes := by
  obtain ⟨s', h1, h2⟩ := Res.bind_eq_ok.1 h
  refine ⟨s', h1, ?_⟩
  have h2 := Res.ok.inj h2
  rw [← h2]
  split <;> exact ⟨rfl, rfl, rfl⟩

theorem bx_state {e : Nat} {s : HostState} (h : bxGood.state e = .ok s) : ∃ s', fxHost.state e = .ok s' ∧
    s.beacon.validators = s'.beacon.validators ∧ s.beacon.fork = s'.beacon.fork ∧ s.randaoMixes = s'.randaoMixes := by
  have h : bxProvider (satMul e 4) = .ok s := Res.mapErr_eq_ok.1 h
  obtain ⟨s', h1, h2⟩ := bx_provided h
  exact ⟨s', Res.mapErr_eq_ok.2 h1, h2⟩

theorem bx_search : hostSearch exSpec.slotsPerEpoch fpAsk fpAsk bxBlocks gxC3 9 =
    some (.ok (⟨exC4, gxC3⟩, ⟨exC7, gxC6⟩, [⟨exC4, gxC6⟩, ⟨gxC6, exC7⟩], bxVotes)) := by decide +kernel

theorem bx_reader : bxWorld.reader exSpec ⟨exC4, gxC3⟩ bxVotes = bxHost := rfl

theorem bx_checkpoint : trustedCheckpoint exExt exSpec bxWorld 3 = .ok gxC3 := fp_checkpoint1

theorem bx_verifies : verify exExt Config.default (preflightReader gxC3.epoch bxHost.toReader) = .ok (⟨exC7, gxC6⟩, 24) := by
  decide +kernel

theorem bx_queries : verifyQueries exExt bxHost.spec bxHost.attestations gxC6.root = fxQueries := by decide +kernel

theorem bx_log : preflightRun gxC3.epoch bxHost .empty fxQueries = .ok fxLog := by decide +kernel
theorem bx_log' : preflightRun gxC3.epoch bxGood .empty fxQueries = .ok fxLog := by decide +kernel

/-- The host with another genesis root. -/
def withGenesis (r : HostReader) (root : Res ProviderError Root) : HostReader := { r with genesisRoot := root }

theorem mixPatches_genesis (r : HostReader) (root : Res ProviderError Root) (l : OMap OSet) (b : OMap PatchBuilder) :
    mixPatches (withGenesis r root) l b = mixPatches r l b := by
  induction l generalizing b with
  | nil => rfl
  | cons x l ih =>
    obtain ⟨e, idx⟩ := x
    unfold mixPatches
    simp only [ih]
    rfl

theorem exitPatches_genesis (r : HostReader) (root : Res ProviderError Root) (t : Nat) (vs : List Validator) (l : OSet)
    (b : OMap PatchBuilder) : exitPatches (withGenesis r root) t vs l b = exitPatches r t vs l b := by
  induction l generalizing b with
  | nil => rfl
  | cons e l ih =>
    unfold exitPatches
    simp only [ih]
    rfl

/-- The input does not depend on the genesis root. -/
theorem toInput_genesis (X : Ext) (order : List Nat → List Nat) (r : HostReader) (root : Res ProviderError Root) (t : Checkpoint)
    (log : PreflightLog) : toInput X order (withGenesis r root) t log = toInput X order r t log := by
  have hs : slotProof X order (withGenesis r root) = slotProof X order r := rfl
  unfold toInput
  simp only [mixPatches_genesis, exitPatches_genesis, hs]
  rfl

theorem preflight_of {X : Ext} {order : List Nat → List Nat} {cfg : Config} {r : HostReader} {t : Checkpoint} {post : ConsensusState}
    {slot : Nat} {log : PreflightLog} {input : GuestInput}
    (h1 : verify X cfg (preflightReader t.epoch r.toReader) = .ok (post, slot))
    (h2 : preflightRun t.epoch r .empty (verifyQueries X r.spec r.attestations post.finalized.root) = .ok log)
    (h3 : toInput X order r t log = .ok input) : preflight X order cfg r t = .ok (input, input.consensusState, post, slot) := by
  unfold preflight
  rw [h1]
  simp only [Res.mapErr, Res.ok_bind]
  rw [h2]
  simp only [Res.ok_bind]
  rw [h3]
  rfl

theorem bx_toInput (log : PreflightLog) : toInput exExt id bxHost gxC3 log = toInput exExt id bxGood gxC3 log :=
  toInput_genesis exExt id bxGood _ gxC3 log

theorem bx_trusted : TrustedState exExt bxGood gxC3 (fxState 12 gxVs) where
  found := fx_trusted.found
  start := fx_trusted.start
  wf := fx_trusted.wf
  header_wf := fx_trusted.header_wf
  fork := fx_trusted.fork
  slots_per_epoch := fx_trusted.slots_per_epoch
  finalized_past := fx_trusted.finalized_past
  justified := fx_trusted.justified
  small := fx_trusted.small
  far := fx_trusted.far
  keys := fx_trusted.keys

theorem bx_consistent : Consistent exExt bxGood gxC3 (fxState 12 gxVs) fxQueries where
  states := by
    intro e s he hs
    obtain ⟨s', h1, h2, -⟩ := bx_state hs
    rw [h2]
    exact fx_consistent.states e s' he h1
  headers := fx_consistent.headers
  genesis := fx_consistent.genesis
  forks := by
    intro e s hs
    obtain ⟨s', h1, -, h2, -⟩ := bx_state hs
    rw [h2]
    exact fx_consistent.forks e s' h1

theorem bx_active : ∃ a, bxGood.activeValidators gxC3.epoch = .ok a := by
  have h : bxGood.activeValidators gxC3.epoch = .ok exActive := by decide +kernel
  exact ⟨_, h⟩

theorem bx_preflight : ∃ input, toInput exExt id bxGood gxC3 fxLog = .ok input ∧
    preflight exExt id Config.default bxHost gxC3 = .ok (input, ⟨exC4, gxC3⟩, ⟨exC7, gxC6⟩, 24) := by
  obtain ⟨input, hi⟩ := C53_input_built exExt id (fun l => List.Perm.refl l) (by decide) bx_trusted bx_consistent bx_log' bx_active
  refine ⟨input, hi, ?_⟩
  have hc : input.consensusState = ⟨exC4, gxC3⟩ := by
    have hf := inputFor_of_toInput exExt id (fun l => List.Perm.refl l) (by decide) bx_trusted bx_consistent bx_log' hi
    exact hf.consensus
  have hl : preflightRun gxC3.epoch bxHost .empty (verifyQueries exExt bxHost.spec bxHost.attestations
      (⟨exC7, gxC6⟩ : ConsensusState).finalized.root) = .ok fxLog := by
    rw [show (⟨exC7, gxC6⟩ : ConsensusState).finalized.root = gxC6.root from rfl, bx_queries, bx_log]
  have := preflight_of bx_verifies hl ((bx_toInput _).trans hi)
  rw [hc] at this
  exact this

/-- The reader of the guest. -/
def bxReader (slots : List (Root × Nat)) : GuestReader := { gxReader with attestations := bxVotes, blockSlots := slots }

theorem bx_loop : verifyLoop exExt Config.default (bxReader []).toReader gxC3 ⟨exC4, gxC3⟩ (chunkBy attLink bxVotes) =
    .err .invalidSignature := by decide +kernel

theorem bx_rejected (slots : List (Root × Nat)) : verify exExt Config.default (bxReader slots).toReader = .err .invalidSignature := by
  have h : verifyLoop exExt Config.default (bxReader slots).toReader gxC3 ⟨exC4, gxC3⟩ (chunkBy attLink bxVotes) =
      verifyLoop exExt Config.default (bxReader []).toReader gxC3 ⟨exC4, gxC3⟩ (chunkBy attLink bxVotes) :=
    verifyLoop_answers fun p _ => ⟨⟨rfl, rfl, fun _ _ => rfl, rfl, fun l hl => ⟨l, hl, rfl⟩⟩, rfl⟩
  have h := h.trans bx_loop
  unfold verify
  show (verifyLoop exExt Config.default (bxReader slots).toReader gxC3 ⟨exC4, gxC3⟩ (chunkBy attLink bxVotes) >>= _) = _
  rw [h]
  rfl

/-! The serialization of these votes. -/

/-- An attestation is written as its number among the votes. -/
def bxWire : WireExt := { exWire with
  encodeAttestation := fun a => [UInt8.ofNat (bxVotes.idxOf a)]
  decodeAttestation := fun b => match b with
    | [i] => bxVotes[i.toNat]?
    | _ => none }

theorem bxVotes_table {a : Attestation} (ha : a ∈ bxVotes) :
    bxVotes[(UInt8.ofNat (bxVotes.idxOf a)).toNat]? = some a ∧ WfCheckpoint a.data.source ∧ WfCheckpoint a.data.target := by
  have hl : bxVotes.length = 8 := by decide
  have hx := List.idxOf_lt_length_iff.2 ha
  refine ⟨?_, ?_⟩
  · have : (UInt8.ofNat (bxVotes.idxOf a)).toNat = bxVotes.idxOf a := by
      simp only [UInt8.toNat_ofNat']
      omega
    rw [this]
    exact (List.getElem?_eq_getElem hx).trans (by rw [List.getElem_idxOf])
  · have h4 : WfCheckpoint exC4 := ⟨by decide, by decide⟩
    have h6 : WfCheckpoint gxC6 := ⟨by decide, exExt.sha256_length _⟩
    have h7 : WfCheckpoint exC7 := ⟨by decide, by decide⟩
    have : ∀ a ∈ bxVotes, (a.data.source = exC4 ∨ a.data.source = gxC6) ∧ (a.data.target = gxC6 ∨ a.data.target = exC7) := by
      decide +kernel
    obtain ⟨h1, h2⟩ := this a ha
    exact ⟨by rcases h1 with h | h <;> rw [h] <;> assumption, by rcases h2 with h | h <;> rw [h] <;> assumption⟩

theorem bxWire_attestation {b : Bytes} {a : Attestation} (h : bxWire.decodeAttestation b = some a) : b.length = 1 ∧ a ∈ bxVotes := by
  match b, h with
  | [i], h =>
    have h' : bxVotes[i.toNat]? = some a := h
    exact ⟨rfl, List.mem_of_getElem? h'⟩

theorem bxWire_laws : WireLaws bxWire where
  bits := exWire_laws.bits
  bits_fit := exWire_laws.bits_fit
  bits_more := exWire_laws.bits_more
  bits_larger := exWire_laws.bits_larger
  attestation := by
    intro b a h
    obtain ⟨h1, h2⟩ := bxWire_attestation h
    exact ⟨(bxVotes_table h2).1, by rw [h1]; exact Nat.le_refl 1⟩
  checkpoints := fun b a h => (bxVotes_table (bxWire_attestation h).2).2

theorem bx_types : WfHost bxWire bxGood :=
  ⟨fun slot s h => by
      obtain ⟨s', h1, -, -, h2⟩ := bx_provided h
      rw [h2]
      exact fx_wf.mixes slot s' h1,
    fun slot s h => by
      obtain ⟨s', h1, h2, -⟩ := bx_provided h
      rw [h2]
      exact fx_wf.exits slot s' h1,
    fun slot s h => by
      obtain ⟨s', h1, h2, -⟩ := bx_provided h
      rw [h2]
      exact fx_wf.keys slot s' h1,
    fx_wf.state, fun _ ha => (bxVotes_table ha).1⟩

theorem bx_patches_computed : (do
    let b1 ← mixPatches bxGood fxLog.mixEpochs []
    let b2 ← exitPatches bxGood gxC3.epoch gxVs fxLog.validatorEpochs b1
    return b2.map (fun (epoch, b) => (epoch, b.patch)) : Res PreflightError _) = .ok gxPatches := by
  decide +kernel

theorem bx_patches {b1 b2 : OMap PatchBuilder} (h1 : mixPatches bxGood fxLog.mixEpochs [] = .ok b1)
    (h2 : exitPatches bxGood gxC3.epoch gxVs fxLog.validatorEpochs b1 = .ok b2) :
    b2.map (fun (epoch, b) => (epoch, b.patch)) = gxPatches := by
  have h := bx_patches_computed
  rw [h1, Res.ok_bind, h2, Res.ok_bind] at h
  exact Res.ok.inj h

theorem bx_guest {input : GuestInput} (hi : toInput exExt id bxGood gxC3 fxLog = .ok input) :
    ∃ slots, input.intoReader exExt exSpec = .ok (bxReader slots) := by
  have hf := inputFor_of_toInput exExt id (fun l => List.Perm.refl l) (by decide) bx_trusted bx_consistent bx_log' hi
  obtain ⟨st, b1, b2, h1, h2, h3, h4⟩ := toInput_patches exExt id hi
  rw [bx_trusted.found] at h1
  cases h1
  have hpt : input.patches = gxPatches := h4.trans (bx_patches h2 h3)
  obtain ⟨slots, -, -, -, s4⟩ := intoReader_built bx_trusted hf
  have hreg : registryOf bxGood.spec (fxState 12 gxVs).beacon bxGood.consensusState = gxVs := fx_registry
  refine ⟨slots, (s4 _).2 ⟨?_, ?_⟩⟩
  · rw [hreg, hpt]
    exact fx_accepted
  · have hpres : present bxGood.decompress gxVs gxC3.epoch = exActive := fx_present
    rw [hreg, hpt, hpres]
    rfl

theorem bx_fits {input : GuestInput} (hi : toInput exExt id bxGood gxC3 fxLog = .ok input) : InputFits bxWire exExt.usizeMod input := by
  have hword : exExt.usizeMod = 2 ^ 32 := rfl
  have hl : (fxState 12 gxVs).beacon.validators.length ≤ 20 := by rw [fxState_beacon]; decide
  have hq : verifyQueries exExt bxGood.spec bxGood.attestations gxC6.root = fxQueries := bx_queries
  have hlog : preflightRun gxC3.epoch bxGood .empty (verifyQueries exExt bxGood.spec bxGood.attestations gxC6.root) = .ok fxLog := by
    rw [hq, bx_log']
  have hc : bxGood.attestations.length = 8 := rfl
  refine (toInput_typed bxWire bxWire_laws exExt id (fun l => List.Perm.refl l) (by decide) bx_trusted.found bx_types
    bx_trusted.wf bx_trusted.header_wf (fun root h hh => (bx_consistent.headers root h hh).1) ?_ ?_ ?_ hlog hi).1
  · rw [hword]; omega
  · rw [hword, hc]; decide
  · intro a _; rw [hword]; exact (by decide : (1 : Nat) < 2 ^ 32)

theorem bx_machine : onMachine exExt (2 ^ 32) 1000000 = exExt := rfl

theorem bx_prepared {input : GuestInput} (hp : preflight exExt id Config.default bxHost gxC3 = .ok (input, ⟨exC4, gxC3⟩, ⟨exC7, gxC6⟩, 24)) :
    prepare bxWire exExt id exSpec Config.default 9 bxWorld 3 = some (.ok ⟨encodeInput bxWire input, ⟨exC4, gxC3⟩, ⟨exC7, gxC6⟩, 24⟩) :=
  prepare_of bx_checkpoint bx_search (bx_reader ▸ hp)

theorem one_pass {W : WireExt} {X : Ext} {order : List Nat → List Nat} {spec : ChainSpec} {cfg : Config} {bound : Nat}
    {w : World} {a e : Nat} {p : Prepared} (ha : ¬a < (e + 1) % U64) (h : prepare W X order spec cfg bound w e = some (.ok p)) :
    (buildLoop W X order spec cfg bound false e [⟨.ok a, w⟩]).1 = roundOps e p := by
  simp only [buildLoop, if_neg ha, h, Bool.false_eq_true, if_false]

theorem bx_fails {input : GuestInput} (hi : toInput exExt id bxGood gxC3 fxLog = .ok input) (journal : Bytes) :
    (guestMain bxWire (onMachine exExt (2 ^ 32) 1000000) exSpec Config.default
      (Frame.encodeInputStdin (encodeInput bxWire input)) : Res Unit Bytes) ≠ .ok journal := by
  intro hj
  have hword : exExt.usizeMod = 2 ^ 32 := rfl
  obtain ⟨slots, hg⟩ := bx_guest hi
  rw [← List.take_length (l := Frame.encodeInputStdin (encodeInput bxWire input))] at hj
  have he := guestMain_take bxWire bxWire_laws exExt exSpec (2 ^ 32) 1000000 (by rw [hword]; decide) (by rw [hword]; decide)
    (by rw [hword]) (bx_fits hi) _ journal hj
  obtain ⟨g, post, slot, q1, q2, -⟩ := guestEntry_eq_ok he
  rw [bx_machine] at q1 q2
  rw [hg] at q1
  cases q1
  rw [bx_rejected] at q2
  cases q2

theorem bx_foreign : bxHost.genesisRoot ≠ .ok (fxState 12 gxVs).beacon.genesisValidatorsRoot := by
  have : exRoot32 78 ≠ exRoot32 77 := by decide
  intro h
  exact this (Res.ok.inj h)

theorem bx_readerFor : ReaderFor exExt exSpec 9 bxWorld 3 bxHost gxC3 := ⟨bx_checkpoint, _, _, _, _, bx_search, bx_reader.symm⟩

theorem bx_found : stateAtCheckpoint exExt (hostStateOps exExt) exSpec.slotsPerEpoch bxWorld.provider gxC3 = .ok (fxState 12 gxVs) :=
  bx_trusted.found

/-- **C66.** Nothing is wrong with the files of `build-input` but that the node's later states and votes belong to another chain than the
trusted state: the host accepts the votes, no balance has changed, the guest accepts the exits, and yet the guest program commits to nothing. -/
theorem C66_foreign_genesis : ∃ (W : WireExt) (X : Ext) (order : List Nat → List Nat) (spec : ChainSpec) (cfg : Config) (bound : Nat)
    (capacity : Nat) (w : World) (epoch head : Nat) (r : HostReader) (trusted : Checkpoint) (st : HostState) (input : GuestInput) (p : Prepared),
    WireLaws W ∧ 126 ≤ capacity ∧ X.usizeMod = 2 ^ 32 ∧
    (∃ slot s, w.provider slot = .ok s ∧ w.genesisRoot = .ok s.beacon.genesisValidatorsRoot) ∧
    ReaderFor X spec bound w epoch r trusted ∧ r.genesisRoot ≠ .ok st.beacon.genesisValidatorsRoot ∧
    stateAtCheckpoint X (hostStateOps X) spec.slotsPerEpoch w.provider trusted = .ok st ∧
    preflight X order cfg r trusted = .ok (input, p.pre, p.post, p.finalizedSlot) ∧
    (∀ a ∈ r.attestations, ∀ s, r.state a.data.target.epoch = .ok s → ∀ (i : Nat) (v v' : Validator),
      st.beacon.validators[i]? = some v → s.beacon.validators[i]? = some v' → v'.effectiveBalance = v.effectiveBalance) ∧
    (∃ g, input.intoReader (onMachine X (2 ^ 32) capacity) spec = .ok g) ∧
    (buildLoop W X order spec cfg bound false epoch [⟨.ok head, w⟩]).1 = roundOps epoch p ∧
    ∀ journal, (guestMain W (onMachine X (2 ^ 32) capacity) spec cfg (Frame.encodeInputStdin p.inputBytes) : Res Unit Bytes) ≠ .ok journal := by
  obtain ⟨input, hi, hp⟩ := bx_preflight
  obtain ⟨slots, hg⟩ := bx_guest hi
  exact ⟨bxWire, exExt, id, exSpec, Config.default, 9, 1000000, bxWorld, 3, 6, bxHost, gxC3, fxState 12 gxVs, input,
    ⟨encodeInput bxWire input, ⟨exC4, gxC3⟩, ⟨exC7, gxC6⟩, 24⟩, bxWire_laws, by decide, rfl,
    ⟨24, bxState (fxState 24 fxVs), rfl, rfl⟩, bx_readerFor, bx_foreign, bx_found, hp, fun a _ s hs i v w hvi hwi => by
      obtain ⟨s', h1, h2, -⟩ := bx_state hs
      rw [h2] at hwi
      exact fx_balances s' h1 i v w hvi hwi,
    ⟨_, bx_machine.symm ▸ hg⟩, one_pass (by decide) (bx_prepared hp), bx_fails hi⟩

end Signal
