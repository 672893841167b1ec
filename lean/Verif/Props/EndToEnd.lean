import Verif.Spec.EndToEnd
import Verif.Props.Patches
import Verif.Props.Guest
import Verif.Props.Abi

/-!
# The guest program as a whole (C40)
-/

namespace Signal
open Spec

/-- A map of records reports a registry faithfully: only true records, and only validators that have
exited by `trustedEpoch` are missing. -/
def Reports (X : Ext) (m : OMap ValidatorInfo) (vs : List Validator) (trustedEpoch : Nat) : Prop :=
  ∀ i, (∀ info, m.get? i = some info → ∃ v, vs[i]? = some v ∧ Matches X info v) ∧
    (m.get? i = none → ∀ v, vs[i]? = some v → v.exitEpoch ≤ trustedEpoch)

theorem electraUpdate_exit (spec : ChainSpec) (fin e : Nat) (v : Validator) :
    (v.electraUpdate spec fin e).exitEpoch = v.exitEpoch := by
  unfold Validator.electraUpdate
  split
  · rfl
  · split <;> rfl

theorem Spec.Matches.electraUpdate {X : Ext} {info : ValidatorInfo} {v : Validator} (h : Matches X info v)
    (spec : ChainSpec) (fin e : Nat) :
    Matches X (Spec.electraUpdate spec fin e info) (v.electraUpdate spec fin e) := by
  obtain ⟨h1, h2, h3, h4, h5, h6⟩ := h
  unfold Spec.electraUpdate Validator.electraUpdate
  simp only [← h2, ← h4, ← h5]
  split
  · exact ⟨h1, rfl, h3, rfl, rfl, h6⟩
  · split
    · exact ⟨h1, rfl, h3, rfl, rfl, h6⟩
    · exact ⟨h1, h2, h3, h4, h5, h6⟩

/-- Registry updates keep a faithful report faithful. -/
theorem registryLoop_reports {ε : Type} (X : Ext) (spec : ChainSpec) (sf tr ju : Nat) (hj : tr ≤ ju) (n : Nat) :
    ∀ (e : Nat) (m m' : OMap ValidatorInfo) (vs : List Validator), sf ≤ e →
    (registryLoop spec sf tr ju n e m : Res ε _) = .ok m' → ∀ t, Reports X m vs t →
    Reports X m' (updateRegistry spec sf tr ju n e vs) t := by
  induction n with
  | zero =>
    intro e m m' vs _ h t hr
    simp only [registryLoop, Res.ok.injEq] at h
    subst h; exact hr
  | succ n ih =>
    intro e m m' vs hsf h t hr
    simp only [registryLoop, Res.bind_eq_ok] at h
    obtain ⟨m1, h1, h2⟩ := h
    have h3 := C34_electra spec _ e m m1 (by split <;> omega) h1
    subst h3
    refine ih (e + 1) _ m' _ (by omega) h2 t ?_
    intro i
    obtain ⟨r1, r2⟩ := hr i
    rw [OMap.get?_map (f := fun _ v => Spec.electraUpdate spec (if e < ju then sf else tr) e v)]
    constructor
    · intro info hi
      obtain ⟨info0, h4, rfl⟩ := Option.map_eq_some_iff.1 hi
      obtain ⟨v, hv, hm⟩ := r1 info0 h4
      exact ⟨_, by rw [List.getElem?_map, hv]; rfl, hm.electraUpdate spec _ e⟩
    · intro hi v hv
      rw [Option.map_eq_none_iff] at hi
      rw [List.getElem?_map] at hv
      obtain ⟨v0, hv0, rfl⟩ := Option.map_eq_some_iff.1 hv
      rw [electraUpdate_exit]
      exact r2 hi v0 hv0

/-- The bytes committed by the guest. -/
theorem guestEntry_eq_ok {ε : Type} {X : Ext} {spec : ChainSpec} {cfg : Config} {input : GuestInput}
    {out : Bytes} (h : (guestEntry X spec cfg input : Res ε Bytes) = .ok out) :
    ∃ r post slot, input.intoReader X spec = .ok r ∧ verify X cfg r.toReader = .ok (post, slot) ∧
      out = Abi.encodeJournal input.consensusState post slot := by
  unfold guestEntry at h
  simp only [Res.bind_eq_ok, Res.unwrap_eq_ok, Res.pure_eq, Res.ok.injEq] at h
  obtain ⟨r, h1, ⟨post, slot⟩, h2, rfl⟩ := h
  exact ⟨r, post, slot, h1, h2, rfl⟩

/-- An accepted input gives a reader whose registry reports the real one. -/
theorem reader_reports {X : Ext} {spec : ChainSpec} {input : GuestInput} {r : GuestReader}
    (hr : input.intoReader X spec = .ok r) {hdr : Header} {st : BeaconState}
    (hreal : RealChain X spec input hdr st)
    (hj : input.consensusState.finalized.epoch ≤ input.consensusState.currentJustified.epoch) :
    r.genesisValidatorsRoot = st.genesisValidatorsRoot ∧
    Reports X r.validators (registryOf spec st input.consensusState)
      input.consensusState.finalized.epoch := by
  obtain ⟨sr, info, vs0, h1, h2, h3, h4, h5, h6, -, -, h9, -, -, -, hg, -⟩ := intoReader_eq_ok hr
  rw [← hreal.block_root] at h1
  have e1 := C33_block_partial X _ hdr hreal.header_wf sr h1 h2 hreal.no_collision.1 hreal.no_wrap.1
  rw [e1, ← hreal.state_root] at h3
  obtain ⟨a1, a2, a3, a4, a5, -⟩ := C33_state_partial X _ st hreal.state_wf info h3 h4
    hreal.no_collision.2.1 hreal.no_wrap.2.1
  rw [a4] at h5
  have hrep := (C32_registry_partial X _ hreal.state_wf.validators _ _ _ _ h5 h6
    hreal.no_collision.2.2 hreal.no_wrap.2.2).2
  refine ⟨hg.trans a1, ?_⟩
  rw [a2, a5] at h9
  exact registryLoop_reports X spec _ _ _ hj _ _ _ _ _ hreal.finalized_past h9 _ hrep

/-- A justified link in terms of the reported registry is a supermajority link of the real one. -/
theorem supermajority_of_justifies {X : Ext} {cfg : Config} {r : GuestReader} {vs : List Validator}
    {genesisRoot : Root} {t : Nat} (hsort : r.validators.Sorted) (hrep : Reports X r.validators vs t)
    (hg : r.genesisValidatorsRoot = genesisRoot) {trusted : Checkpoint} {link : Link}
    {atts all : List Attestation} (hatts : ∀ a ∈ atts, a ∈ all ∧ linkOf a = link)
    (ht : t ≤ link.target.epoch)
    (hact : r.activeValidators link.target.epoch =
      r.validators.filter (fun x => x.2.isActiveAt link.target.epoch))
    {active : OMap ValidatorInfo} {signers : Attestation → List Nat} {voters : List Nat}
    (hj : Justifies X cfg r.toReader trusted link atts active signers voters) :
    Supermajority X cfg r.spec genesisRoot vs link all := by
  obtain ⟨hk, hb⟩ := active_exact X hsort hrep link.target.epoch ht
  have hsf := OMap.sorted_filter hsort (fun x => x.2.isActiveAt link.target.epoch)
  have hactive : active = r.validators.filter (fun x => x.2.isActiveAt link.target.epoch) := by
    obtain ⟨l, h1, rfl⟩ := hj.active_set
    simp only [GuestReader.toReader, Res.ok.injEq] at h1
    subst h1
    rw [hact, OMap.ofList_sorted hsf]
  -- members of the active set
  have hmem : ∀ i info, active.get? i = some info → i ∈ activeIndices vs link.target.epoch ∧
      ∃ v, vs[i]? = some v ∧ Matches X info v := by
    intro i info hi
    have hi' := OMap.get?_eq_some_mem hi
    rw [hactive] at hi'
    refine ⟨?_, (hrep i).1 info (OMap.mem_get? hsort (List.mem_filter.1 hi').1)⟩
    rw [← hk]
    exact List.mem_map.2 ⟨_, hi', rfl⟩
  have hbal : ∀ i info, active.get? i = some info → balance active i = registeredBalance vs i := by
    intro i info hi
    obtain ⟨-, v, hv, hm⟩ := hmem i info hi
    simp [balance, registeredBalance, hi, hv, hm.effectiveBalance]
  have hkey : ∀ i info, active.get? i = some info →
      X.pkSerialize (pubkey active i) = registeredKey vs i := by
    intro i info hi
    obtain ⟨-, v, hv, hm⟩ := hmem i info hi
    simp [pubkey, registeredKey, hi, hv, hm.pubkey]
  have htot : totalWeight active = ((activeIndices vs link.target.epoch).map (registeredBalance vs)).sum := by
    rw [hactive, ← hb]; rfl
  have hwt : weight active voters = (voters.map (registeredBalance vs)).sum := by
    unfold weight
    congr 1
    apply List.map_congr_left
    intro i hi
    obtain ⟨-, info, h1, -⟩ := (hj.voters_iff i).1 hi
    exact hbal i info h1
  refine ⟨voters, hj.voters_nodup, ?_, ?_, ?_⟩
  · intro i hi
    obtain ⟨⟨a, ha, hia⟩, info, h1, h2⟩ := (hj.voters_iff i).1 hi
    obtain ⟨h3, v, hv, hm⟩ := hmem i info h1
    refine ⟨h3, ?_, ?_⟩
    · intro w hw
      rw [hv] at hw; cases hw
      rw [← hm.slashed, h2]
    · obtain ⟨hall, hl⟩ := hatts a ha
      have hvote := hj.votes a ha
      obtain ⟨e, rfl, h4, h5, h6, fork, root, h7, h8, h9⟩ := hvote.electra
      have hs : e.data.source = link.source := by rw [← hl]; rfl
      have htg : e.data.target = link.target := by rw [← hl]; rfl
      simp only [GuestReader.toReader, Res.ok.injEq] at h5 h7 h8 h9
      subst h7 h8
      rw [htg] at h5 h9
      refine ⟨e, hall, hs, htg, h5, h6, signers (.electra e), (signers (.electra e)).map (pubkey active),
        hia, ?_, ?_, ?_⟩
      · intro j hj'
        obtain ⟨info', h10⟩ := hvote.signers_active j hj'
        exact (hmem j info' h10).1
      · rw [List.map_map]
        apply List.map_congr_left
        intro j hj'
        obtain ⟨info', h10⟩ := hvote.signers_active j hj'
        exact hkey j info' h10
      · rw [← hg]; exact h9
  · rw [← htot, ← hwt]; exact hj.threshold
  · rw [← htot, ← hwt]; exact hj.two_thirds

/-- **C40** in terms of the reader and the outcome of `verify`. -/
theorem C40_reader_partial (X : Ext) (spec : ChainSpec) (cfg : Config) (input : GuestInput)
    (r : GuestReader) (hr : input.intoReader X spec = .ok r) (post : ConsensusState) (slot : Nat)
    (hv : verify X cfg r.toReader = .ok (post, slot))
    (hdr : Header) (st : BeaconState) (hreal : RealChain X spec input hdr st)
    (hepoch : input.consensusState.finalized.epoch ≠ 0)
    (hlook : cfg.epochLookaheadLimit ≤ spec.maxSeedLookahead) :
    ∃ links, Blocks input.attestations links ∧ Run input.consensusState links post ∧
      post.finalized ≠ input.consensusState.finalized ∧
      ∀ link ∈ links, Supermajority X cfg spec st.genesisValidatorsRoot
        (registryOf spec st input.consensusState) link input.attestations := by
  obtain ⟨-, -, -, -, -, -, -, -, -, -, -, -, -, -, hspec, -, -, hcs, hat⟩ := intoReader_eq_ok hr
  obtain ⟨pre, atts, links, h1, h2, hb, hrun, hne, hl, -⟩ :=
    C09_exactly_one_finalization X cfg r.toReader post slot hv
  simp only [GuestReader.toReader, Res.ok.injEq] at h1 h2
  rw [hcs] at h1; rw [hat] at h2
  subst h1 h2
  have hvalid : ValidState input.consensusState := by
    obtain ⟨p, hp, hv', -⟩ := C10_strictly_advances X cfg r.toReader post slot hv
    simp only [GuestReader.toReader, Res.ok.injEq] at hp
    rw [hcs] at hp; exact hp ▸ hv'
  have hj : input.consensusState.finalized.epoch ≤ input.consensusState.currentJustified.epoch := by
    rcases hvalid with hv' | hv'
    · omega
    · rw [hv']
  obtain ⟨hg, hrep⟩ := reader_reports hr hreal hj
  refine ⟨links, hb, hrun, hne, ?_⟩
  intro link hlink
  obtain ⟨a, ha, rfl⟩ := hb.nonempty link hlink
  obtain ⟨active, signers, voters, hjust, -⟩ := verify_justifies X cfg r.toReader post slot hv
    input.consensusState (by simp only [GuestReader.toReader, hcs]) input.attestations
    (by simp only [GuestReader.toReader, hat]) a ha
  have hwin := hjust.lookahead
  have hge : input.consensusState.finalized.epoch ≤ (linkOf a).target.epoch := by
    have := (hrun.targets_lt).1 _ hlink
    omega
  have := supermajority_of_justifies (intoReader_sorted hr) hrep hg
    (by intro b hb'; simpa using hb') hge
    (C35_window X spec input r hr hepoch _ (by omega)) hjust
  rw [hspec] at this
  exact this

/-- **C40.** If the guest commits a journal, and the trusted root belongs to a real block with a real state, the
journal holds the given state, a later one and a slot; the attestations of the input consist of one block per
link of a chain that leads from the first state to the second; and every link of it is a supermajority link
of the real registry.

Partial: it assumes that none of the three proofs is 64 levels deep (`RealChain.no_wrap`), which the code does
not check; `C40_forged_journal` shows that this is necessary. It also assumes a trusted epoch other than 0
(see `C38_epoch_zero_unchecked`) and a lookahead limit within `MAX_SEED_LOOKAHEAD`, as in both shipped
configurations. -/
theorem C40_end_to_end_partial {ε : Type} (X : Ext) (spec : ChainSpec) (cfg : Config) (input : GuestInput)
    (out : Bytes) (h : (guestEntry X spec cfg input : Res ε Bytes) = .ok out)
    (hdr : Header) (st : BeaconState) (hreal : RealChain X spec input hdr st)
    (hepoch : input.consensusState.finalized.epoch ≠ 0)
    (hlook : cfg.epochLookaheadLimit ≤ spec.maxSeedLookahead) :
    ∃ post slot links, out = Abi.encodeJournal input.consensusState post slot ∧
      Blocks input.attestations links ∧ Run input.consensusState links post ∧
      post.finalized ≠ input.consensusState.finalized ∧
      ∀ link ∈ links, Supermajority X cfg spec st.genesisValidatorsRoot
        (registryOf spec st input.consensusState) link input.attestations := by
  obtain ⟨r, post, slot, hr, hv, rfl⟩ := guestEntry_eq_ok h
  obtain ⟨links, h1⟩ := C40_reader_partial X spec cfg input r hr post slot hv hdr st hreal hepoch hlook
  exact ⟨post, slot, links, rfl, h1⟩

/-! ## The registry inside the lookahead window -/

/-- The hypotheses are met by the example input, for a journal with two links. -/
example : (guestEntry exExt exSpec Config.default gxInput : Res Unit Bytes) =
      .ok (Abi.encodeJournal ⟨exC4, gxC3⟩ ⟨exC7, gxC6⟩ 24) ∧
    RealChain exExt exSpec gxInput gxHdr gxState ∧ gxInput.consensusState.finalized.epoch ≠ 0 ∧
    Config.default.epochLookaheadLimit ≤ exSpec.maxSeedLookahead := by
  refine ⟨?_, gxInput_real, by decide, by decide⟩
  unfold guestEntry
  rw [gxInput_reader]
  simp only [Res.unwrap, Res.ok_bind, gxReader_verifies]
  rfl

theorem electraUpdate_fields (spec : ChainSpec) (fin epoch : Nat) (v : Validator) :
    let v' := v.electraUpdate spec fin epoch
    v'.effectiveBalance = v.effectiveBalance ∧ v'.pubkey = v.pubkey ∧ v'.slashed = v.slashed ∧
      v'.exitEpoch = v.exitEpoch ∧ (v'.activationEpoch = v.activationEpoch ∨
        v.activationEpoch = spec.farFutureEpoch ∧
          epoch + 1 + spec.maxSeedLookahead ≤ v'.activationEpoch) := by
  unfold Validator.electraUpdate
  split
  · exact ⟨rfl, rfl, rfl, rfl, Or.inl rfl⟩
  · split
    · rename_i h; exact ⟨rfl, rfl, rfl, rfl, Or.inr ⟨h.2, Nat.le_refl _⟩⟩
    · exact ⟨rfl, rfl, rfl, rfl, Or.inl rfl⟩

/-- Registry updates change neither the number of validators, nor balances, nor keys, and the activity of a
validator only from one lookahead after the first processed epoch on. -/
theorem updateRegistry_same (spec : ChainSpec) (fin tr ju : Nat) (n : Nat) :
    ∀ (epoch : Nat) (vs : List Validator), (updateRegistry spec fin tr ju n epoch vs).length = vs.length ∧
    ∀ i : Nat, ∀ v, vs[i]? = some v → ∃ v', (updateRegistry spec fin tr ju n epoch vs)[i]? = some v' ∧
      v'.effectiveBalance = v.effectiveBalance ∧ v'.pubkey = v.pubkey ∧ v'.slashed = v.slashed ∧
      v'.exitEpoch = v.exitEpoch ∧ (v'.activationEpoch = v.activationEpoch ∨
        v.activationEpoch = spec.farFutureEpoch ∧ epoch + 1 + spec.maxSeedLookahead ≤ v'.activationEpoch) := by
  induction n with
  | zero => intro epoch vs; exact ⟨rfl, fun i v hv => ⟨v, hv, rfl, rfl, rfl, rfl, Or.inl rfl⟩⟩
  | succ n ih =>
    intro epoch vs
    obtain ⟨h1, h2⟩ := ih (epoch + 1)
      (vs.map (Validator.electraUpdate spec (if epoch < ju then fin else tr) epoch))
    refine ⟨by rw [updateRegistry, h1, List.length_map], ?_⟩
    intro i v hv
    obtain ⟨v', a1, a2, a3, a4, a5, a6⟩ := h2 i
      (v.electraUpdate spec (if epoch < ju then fin else tr) epoch) (by rw [List.getElem?_map, hv]; rfl)
    obtain ⟨b2, b3, b4, b5, b6⟩ := electraUpdate_fields spec (if epoch < ju then fin else tr) epoch v
    refine ⟨v', a1, a2.trans b2, a3.trans b3, a4.trans b4, a5.trans b5, ?_⟩
    rcases a6 with a6 | ⟨a6, a7⟩
    · rcases b6 with b6 | ⟨b6, b7⟩
      · exact Or.inl (a6.trans b6)
      · exact Or.inr ⟨b6, by omega⟩
    · rcases b6 with b6 | ⟨b6, b7⟩
      · exact Or.inr ⟨b6.symm.trans a6, by omega⟩
      · exact Or.inr ⟨b6, by omega⟩

/-- **C40.** Up to one lookahead after the epoch of the real state, the registry used in C40 has the active
validators, balances and keys of the real state itself. -/
theorem C40_window_registry (spec : ChainSpec) (st : BeaconState) (pre : ConsensusState) (e : Nat)
    (he : e ≤ st.slot / spec.slotsPerEpoch + spec.maxSeedLookahead) (hf : e < spec.farFutureEpoch) :
    activeIndices (registryOf spec st pre) e = activeIndices st.validators e ∧
    (∀ i, registeredBalance (registryOf spec st pre) i = registeredBalance st.validators i) ∧
    ∀ i, registeredKey (registryOf spec st pre) i = registeredKey st.validators i := by
  obtain ⟨h1, h2⟩ := updateRegistry_same spec st.finalizedEpoch pre.finalized.epoch
    pre.currentJustified.epoch (pre.currentJustified.epoch + 1 - st.slot / spec.slotsPerEpoch)
    (st.slot / spec.slotsPerEpoch) st.validators
  have hnone : ∀ i : Nat, st.validators[i]? = none → (registryOf spec st pre)[i]? = none := by
    intro i hi
    rw [List.getElem?_eq_none_iff] at hi ⊢
    unfold registryOf
    omega
  refine ⟨?_, ?_, ?_⟩
  · apply OSet.eq_of_mem_iff (activeIndices_sorted _ _) (activeIndices_sorted _ _)
    intro i
    rw [mem_activeIndices, mem_activeIndices]
    constructor
    · rintro ⟨v', hv', ha⟩
      cases hv : st.validators[i]? with
      | none => rw [hnone i hv] at hv'; cases hv'
      | some v =>
        obtain ⟨w, a1, -, -, -, a5, a6⟩ := h2 i v hv
        unfold registryOf at hv'
        rw [a1] at hv'; cases hv'
        refine ⟨v, rfl, ?_⟩
        unfold Validator.activeAt at ha ⊢
        rw [a5] at ha
        rcases a6 with a6 | ⟨-, a7⟩
        · rw [a6] at ha; exact ha
        · omega
    · rintro ⟨v, hv, ha⟩
      obtain ⟨w, a1, -, -, -, a5, a6⟩ := h2 i v hv
      refine ⟨w, a1, ?_⟩
      unfold Validator.activeAt at ha ⊢
      rw [a5]
      rcases a6 with a6 | ⟨a6, -⟩
      · rw [a6]; exact ha
      · omega
  · intro i
    unfold registeredBalance
    cases hv : st.validators[i]? with
    | none => rw [hnone i hv]
    | some v => obtain ⟨w, a1, a2, -⟩ := h2 i v hv; unfold registryOf; rw [a1]; simp [a2]
  · intro i
    unfold registeredKey
    cases hv : st.validators[i]? with
    | none => rw [hnone i hv]
    | some v => obtain ⟨w, a1, -, a3, -⟩ := h2 i v hv; unfold registryOf; rw [a1]; simp [a3]

/-! ## Forged journals -/

/-- The root of the trusted checkpoint plays no role in the verification of the links. -/
theorem verifyLoop_other_root (X : Ext) (cfg : Config) (R : Reader) (t t' : Checkpoint)
    (ht : t'.epoch = t.epoch) (gs : List (Link × List Attestation)) :
    ∀ (c : Checkpoint) (s : ConsensusState), t.epoch < c.epoch →
    verifyLoop X cfg R t ⟨c, t⟩ gs = .ok s → s.finalized ≠ t →
    verifyLoop X cfg R t' ⟨c, t'⟩ gs = .ok s := by
  induction gs with
  | nil => intro c s _ h hne; rw [verifyLoop_nil] at h; subst h; exact absurd rfl hne
  | cons p gs ih =>
    obtain ⟨l, as⟩ := p
    intro c s hc h hne
    obtain ⟨s1, h1, h2⟩ := verifyLoop_cons.1 h
    obtain ⟨-, hvl, lst, cm, f, g1, g2, g3, g4, g5, g6, g7, g8, g9, hst, hval⟩ := processGroup_ok_iff.1 h1
    obtain ⟨hv, hov, hstep⟩ := (stateTransition_ok_iff _ _ _).1 hst
    have hvl' : validateLink cfg R.spec t' l = .ok () := by
      rw [validateLink_ok_iff] at hvl ⊢; rw [ht]; exact hvl
    have hv' : ValidState ⟨c, t'⟩ := Or.inl (by simp only; omega)
    cases hstep with
    | finalize _ _ b hb =>
      refine verifyLoop_cons.2 ⟨⟨b, c⟩, processGroup_ok_iff.2 ⟨rfl, hvl', lst, cm, f, g1, g2, g3, g4, g5, g6, g7,
        g8, g9, (stateTransition_ok_iff _ _ _).2 ⟨hv', hov, .finalize _ _ _ hb⟩, hval⟩, ?_⟩
      cases gs with
      | nil => rw [verifyLoop_nil] at h2 ⊢; exact h2
      | cons q gs =>
        obtain ⟨l2, as2⟩ := q
        obtain ⟨s2, k1, -⟩ := verifyLoop_cons.1 h2
        have := (processGroup_ok_iff.1 k1).1
        simp only at this
        subst this
        omega
    | justify _ _ b hb =>
      have hval' : ConsensusState.isValid ⟨b, t'⟩ = true :=
        (isValid_iff _).2 (Or.inl (by simp only; omega))
      refine verifyLoop_cons.2 ⟨⟨b, t'⟩, processGroup_ok_iff.2 ⟨rfl, hvl', lst, cm, f, g1, g2, g3, g4, g5, g6, g7,
        g8, g9, (stateTransition_ok_iff _ _ _).2 ⟨hv', hov, .justify _ _ _ hb⟩, hval'⟩, ?_⟩
      exact ih b s (by omega) h2 hne

theorem collectParticipants_toReader (X : Ext) (r : GuestReader) (cs : ConsensusState)
    (active : OMap ValidatorInfo) (c : CommitteeCache) (as : List Attestation) (acc : OSet) :
    collectParticipants X ({ r with consensusState := cs } : GuestReader).toReader active c as acc =
      collectParticipants X r.toReader active c as acc := by
  induction as generalizing acc with
  | nil => rfl
  | cons a as ih =>
    have : processAttestation X ({ r with consensusState := cs } : GuestReader).toReader active c a =
      processAttestation X r.toReader active c a := rfl
    simp only [collectParticipants, this, ih]

/-- The state held by the reader is used only at the start. -/
theorem processGroup_toReader (X : Ext) (cfg : Config) (r : GuestReader) (cs : ConsensusState) (t : Checkpoint)
    (s : ConsensusState) (l : Link) (as : List Attestation) :
    processGroup X cfg ({ r with consensusState := cs } : GuestReader).toReader t s l as =
      processGroup X cfg r.toReader t s l as := by
  have h : ∀ active e, computeCommittees X ({ r with consensusState := cs } : GuestReader).toReader active e =
      computeCommittees X r.toReader active e := fun _ _ => rfl
  unfold processGroup
  simp only [collectParticipants_toReader, h]
  rfl

theorem verifyLoop_toReader (X : Ext) (cfg : Config) (r : GuestReader) (cs : ConsensusState) (t : Checkpoint)
    (s : ConsensusState) (gs : List (Link × List Attestation)) :
    verifyLoop X cfg ({ r with consensusState := cs } : GuestReader).toReader t s gs =
      verifyLoop X cfg r.toReader t s gs := by
  induction gs generalizing s with
  | nil => rfl
  | cons p gs ih =>
    obtain ⟨l, as⟩ := p
    simp only [verifyLoop, processGroup_toReader, ih]

theorem chunksExact_length (data : Bytes) : ∀ c ∈ chunksExact data, c.length = 32 := by
  fun_induction chunksExact data with
  | case1 data h ih =>
    intro c hc
    rcases List.mem_cons.1 hc with rfl | hc
    · simp; omega
    · exact ih c hc
  | case2 => simp

theorem extractBeaconBlock_length {p : Multiproof} {sr : Root} (h : extractBeaconBlock p = .ok sr) :
    sr.length = 32 := by
  have h1 := extractBeaconBlock_eq_ok.1 h
  have h2 : (stateRootGindex, sr) ∈ p.nodes := values_subset (by rw [h1]; simp)
  exact chunksExact_length _ _ (List.of_mem_zip h2).2

/-- **C40** is false without the depth bound. Take any input which the guest accepts, for instance one in
which an attacker made up the whole registry, and from it the journal `(pre, post, slot)`. There is a
chunk `c` such that for *every* block containing `c` anywhere (say, as the graffiti of its proposer) the guest
also accepts an input whose trusted root is the root of that block, with the same registry, and
commits to `(pre with that root, post, slot)`. So a registry that counts the votes need not have anything to do
with the trusted block. -/
theorem C40_forged_journal (X : Ext) (spec : ChainSpec) (cfg : Config) (input : GuestInput) (r : GuestReader)
    (hr : input.intoReader X spec = .ok r) (post : ConsensusState) (slot : Nat)
    (hv : verify X cfg r.toReader = .ok (post, slot))
    (hstart : input.consensusState.finalized.epoch < input.consensusState.currentJustified.epoch) :
    ∃ c : Bytes, c.length = 32 ∧ ∀ block : Tree, block.Chunked →
      (∃ i t, block.nodeAt i = some t ∧ t.root X = c) →
      ∃ input' r', input'.consensusState =
          ⟨input.consensusState.currentJustified, ⟨input.consensusState.finalized.epoch, block.root X⟩⟩ ∧
        input'.intoReader X spec = .ok r' ∧ r'.validators = r.validators ∧
        ∀ ε : Type, (guestEntry X spec cfg input' : Res ε Bytes) =
          .ok (Abi.encodeJournal input'.consensusState post slot) := by
  obtain ⟨sr, info, vs0, h1, h2, h3, h4, h5, h6, h7, h8, h9, h10, h11, k1, k2, k3, k4, k5⟩ :=
    intoReader_eq_ok hr
  obtain ⟨c, hc, hforge⟩ := C33_forged_state_root X sr (extractBeaconBlock_length h2)
  refine ⟨c, hc, ?_⟩
  intro block hb hin
  obtain ⟨p, p1, p2⟩ := hforge block hb hin
  let pre' : ConsensusState :=
    ⟨input.consensusState.currentJustified, ⟨input.consensusState.finalized.epoch, block.root X⟩⟩
  let input' : GuestInput := { input with beaconBlock := p, consensusState := pre' }
  have hr' : input'.intoReader X spec = .ok { r with consensusState := pre' } := by
    unfold GuestInput.intoReader
    simp only [Res.bind_eq_ok, Res.mapErr_eq_ok, ensure_eq_ok, decide_eq_true_eq, slotEpoch_eq_ok_iff,
      Res.pure_eq, Res.ok.injEq]
    refine ⟨(), p1, sr, p2, (), h3, info, h4, (), h5, vs0, h6, _, ⟨h8, rfl⟩, (), h7, r.validators, h9, (), h10,
      r.blockSlots, h11, ?_⟩
    cases r
    simp only at k1 k2 k3 k4 k5
    subst k1 k2 k3 k4 k5
    rfl
  refine ⟨input', { r with consensusState := pre' }, rfl, hr', rfl, ?_⟩
  intro ε
  obtain ⟨pre, atts, v1, v2, v3, v4, v5⟩ := verify_ok hv
  simp only [GuestReader.toReader, Res.ok.injEq] at v1
  rw [k4] at v1
  subst v1
  have hver : verify X cfg ({ r with consensusState := pre' } : GuestReader).toReader = .ok (post, slot) := by
    refine verify_ok_of (pre := pre') rfl v2 ?_ ?_ v5
    · rw [verifyLoop_toReader X cfg r pre']
      exact verifyLoop_other_root X cfg r.toReader input.consensusState.finalized pre'.finalized rfl _ _ _
        hstart v3 v4
    · intro heq
      obtain ⟨q, q1, -, -, q2, -⟩ := C10_strictly_advances X cfg r.toReader post slot hv
      simp only [GuestReader.toReader, Res.ok.injEq] at q1
      rw [k4] at q1
      subst q1
      rw [heq] at q2
      exact absurd q2 (Nat.lt_irrefl _)
  unfold guestEntry
  rw [hr']
  simp only [Res.unwrap, Res.ok_bind, hver]
  rfl

/-- The hypotheses of `C40_forged_journal` are met by the example input. -/
example : gxInput.intoReader exExt exSpec = .ok gxReader ∧
    verify exExt Config.default gxReader.toReader = .ok (⟨exC7, gxC6⟩, 24) ∧
    gxInput.consensusState.finalized.epoch < gxInput.consensusState.currentJustified.epoch :=
  ⟨gxInput_reader, gxReader_verifies, by decide⟩

end Signal
