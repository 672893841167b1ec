import Verif.Props.Networks
import Verif.Props.OneView
import Verif.Props.EndToEnd

/-!
# C108: a trusted root belongs to one network
-/

namespace Signal
open Spec

/-- **C108.** If guests built for two chain specifications both read an input with the same trusted root, they read the same values from the state, and the two specifications
have the same fork record for the slot of this state. Missing: proofs of 64 or more levels, and collisions. -/
theorem C108_record_partial (X : Ext) {spec spec' : ChainSpec} {input input' : GuestInput} {r r' : GuestReader}
    (hr : input.intoReader X spec = .ok r) (hr' : input'.intoReader X spec' = .ok r')
    (hroot : input'.consensusState.finalized.root = input.consensusState.finalized.root)
    (hc : NoCollisionBetween X input.beaconBlock input'.beaconBlock ∧ NoCollisionBetween X input.beaconState input'.beaconState)
    (hw : ∀ p ∈ [input.beaconBlock, input.beaconState, input'.beaconBlock, input'.beaconState], NoWrap p) :
    ∃ state, extractBeaconState input.beaconState = .ok state ∧ extractBeaconState input'.beaconState = .ok state ∧
      r.genesisValidatorsRoot = state.genesisValidatorsRoot ∧ r'.genesisValidatorsRoot = state.genesisValidatorsRoot ∧
      spec.forkAtEpoch (state.slot / spec.slotsPerEpoch) = state.fork ∧ spec'.forkAtEpoch (state.slot / spec'.slotsPerEpoch) = state.fork := by
  obtain ⟨sr, st, _, h1, h2, h3, h4, -, -, h8, -, -, -, -, -, hg, -⟩ := intoReader_eq_ok hr
  obtain ⟨sr', st', _, i1, i2, i3, i4, -, -, i8, -, -, -, -, -, ig, -⟩ := intoReader_eq_ok hr'
  rw [hroot] at i1
  have e1 : sr' = sr := by
    refine (C105_agree_partial X _ _ _ h1 i1 hc.1 (hw _ (by simp)) (hw _ (by simp)) stateRootGindex _ _ (values_subset ?_) (values_subset ?_)).symm
    · rw [extractBeaconBlock_eq_ok.1 h2]; simp
    · rw [extractBeaconBlock_eq_ok.1 i2]; simp
  subst e1
  have e2 : st' = st := by
    have ag := C105_agree_partial X _ _ _ h3 i3 hc.2 (hw _ (by simp)) (hw _ (by simp))
    obtain ⟨c1, c2, c3, c4, c5, c6, c7, c8, c9, e, rfl⟩ := extractBeaconState_eq_ok.1 h4
    obtain ⟨d1, d2, d3, d4, d5, d6, d7, d8, d9, f, rfl⟩ := extractBeaconState_eq_ok.1 i4
    have ag' : ∀ {g v w}, (g, v) ∈ input.beaconState.values → (g, w) ∈ input'.beaconState.values → v = w := fun a b =>
      ag _ _ _ (values_subset a) (values_subset b)
    rw [e, f] at ag'
    rw [ag' (g := genesisValidatorsRootGindex) (v := c1) (w := d1) (by simp) (by simp), ag' (g := slotGindex) (v := c2) (w := d2) (by simp) (by simp),
      ag' (g := forkPreviousVersionGindex) (v := c3) (w := d3) (by simp) (by simp), ag' (g := forkCurrentVersionGindex) (v := c4) (w := d4) (by simp) (by simp),
      ag' (g := forkEpochGindex) (v := c5) (w := d5) (by simp) (by simp), ag' (g := validatorsGindex) (v := c6) (w := d6) (by simp) (by simp),
      ag' (g := finalizedCheckpointEpochGindex) (v := c7) (w := d7) (by simp) (by simp),
      ag' (g := earliestExitEpochGindex) (v := c8) (w := d8) (by simp) (by simp),
      ag' (g := earliestConsolidationEpochGindex) (v := c9) (w := d9) (by simp) (by simp)]
  subst e2
  exact ⟨_, h4, i4, hg, ig, h8.symm, i8.symm⟩

theorem version_mem (s : ForkSchedule) (n : Nat) : s.version n ∈ s.genesisVersion :: s.forks.map (·.1) := by
  cases n with
  | zero => exact List.mem_cons_self
  | succ n =>
    simp only [ForkSchedule.version]
    cases h : s.forks[n]? with
    | none => exact List.mem_cons_self
    | some f => exact List.mem_cons_of_mem _ (List.mem_map.2 ⟨f, List.mem_of_getElem? h, rfl⟩)

/-- **C108** for the shipped networks: what the mainnet guest reads and what the Sepolia guest reads have different trusted roots. Missing: as above. -/
theorem C108_networks_partial (X : Ext) (sign sign' : AttestationData → Bytes → Root) {input input' : GuestInput} {r r' : GuestReader}
    (hr : input.intoReader X (mainnetSpec sign) = .ok r) (hr' : input'.intoReader X (sepoliaSpec sign') = .ok r')
    (hc : NoCollisionBetween X input.beaconBlock input'.beaconBlock ∧ NoCollisionBetween X input.beaconState input'.beaconState)
    (hw : ∀ p ∈ [input.beaconBlock, input.beaconState, input'.beaconBlock, input'.beaconState], NoWrap p) :
    input'.consensusState.finalized.root ≠ input.consensusState.finalized.root := by
  intro hroot
  obtain ⟨st, -, -, -, -, h1, h2⟩ := C108_record_partial X hr hr' hroot hc hw
  have key : ∀ v ∈ sepoliaForks.genesisVersion :: sepoliaForks.forks.map (·.1),
      v ∉ mainnetForks.genesisVersion :: mainnetForks.forks.map (·.1) := by decide
  have h3 : (mainnetForks.forkAt (st.slot / 32)).currentVersion = st.fork.currentVersion := congrArg Fork.currentVersion h1
  have h4 : (sepoliaForks.forkAt (st.slot / 32)).currentVersion = st.fork.currentVersion := congrArg Fork.currentVersion h2
  refine key st.fork.currentVersion ?_ ?_
  · rw [← h4]; exact version_mem _ _
  · rw [← h3]; exact version_mem _ _

/-- **C108** for the journals: a proof of the mainnet guest and one of the Sepolia guest never start from the same finalized root. Missing: as above. -/
theorem C108_journals_partial {ε : Type} (X : Ext) (sign sign' : AttestationData → Bytes → Root) (cfg cfg' : Config) {input input' : GuestInput}
    {journal journal' : Bytes} (h : (guestEntry X (mainnetSpec sign) cfg input : Res ε Bytes) = .ok journal)
    (h' : (guestEntry X (sepoliaSpec sign') cfg' input' : Res ε Bytes) = .ok journal')
    (hc : NoCollisionBetween X input.beaconBlock input'.beaconBlock ∧ NoCollisionBetween X input.beaconState input'.beaconState)
    (hw : ∀ p ∈ [input.beaconBlock, input.beaconState, input'.beaconBlock, input'.beaconState], NoWrap p) :
    ∃ pre post slot pre' post' slot', journal = Abi.encodeJournal pre post slot ∧ journal' = Abi.encodeJournal pre' post' slot' ∧
      pre'.finalized.root ≠ pre.finalized.root := by
  have run : ∀ {spec : ChainSpec} {cfg : Config} {input : GuestInput} {journal : Bytes}, (guestEntry X spec cfg input : Res ε Bytes) = .ok journal →
      ∃ r post slot, input.intoReader X spec = .ok r ∧ journal = Abi.encodeJournal input.consensusState post slot := by
    intro spec cfg input journal h
    unfold guestEntry at h
    cases hr : input.intoReader X spec with
    | panic => rw [hr] at h; cases h
    | err e => rw [hr] at h; cases h
    | ok r =>
      rw [hr] at h
      simp only [Res.unwrap, Res.ok_bind] at h
      cases hv : verify X cfg r.toReader with
      | panic => rw [hv] at h; cases h
      | err e => rw [hv] at h; cases h
      | ok out =>
        rw [hv] at h
        cases h
        exact ⟨r, out.1, out.2, rfl, rfl⟩
  obtain ⟨r, post, slot, hr, rfl⟩ := run h
  obtain ⟨r', post', slot', hr', rfl⟩ := run h'
  exact ⟨_, _, _, _, _, _, rfl, rfl, C108_networks_partial X sign sign' hr hr' hc hw⟩

/-- **C108** is false without the bound on the levels, whatever the hash function is: from any input that the mainnet guest accepts and any that the Sepolia guest accepts one gets two
that they accept for one and the same trusted root. -/
theorem C108_forged (X : Ext) (sign sign' : AttestationData → Bytes → Root) (cfg cfg' : Config) {input input' : GuestInput} {r r' : GuestReader}
    {post post' : ConsensusState} {slot slot' : Nat} (hr : input.intoReader X (mainnetSpec sign) = .ok r) (hr' : input'.intoReader X (sepoliaSpec sign') = .ok r')
    (hv : verify X cfg r.toReader = .ok (post, slot)) (hv' : verify X cfg' r'.toReader = .ok (post', slot'))
    (hs : input.consensusState.finalized.epoch < input.consensusState.currentJustified.epoch)
    (hs' : input'.consensusState.finalized.epoch < input'.consensusState.currentJustified.epoch) :
    ∃ (a a' : GuestInput), a'.consensusState.finalized.root = a.consensusState.finalized.root ∧
      (guestEntry X (mainnetSpec sign) cfg a : Res Unit Bytes) = .ok (Abi.encodeJournal a.consensusState post slot) ∧
      (guestEntry X (sepoliaSpec sign') cfg' a' : Res Unit Bytes) = .ok (Abi.encodeJournal a'.consensusState post' slot') := by
  obtain ⟨c, hc, h⟩ := C40_forged_journal X (mainnetSpec sign) cfg input r hr post slot hv hs
  obtain ⟨d, hd, i⟩ := C40_forged_journal X (sepoliaSpec sign') cfg' input' r' hr' post' slot' hv' hs'
  obtain ⟨a, _, a1, -, -, a2⟩ := h (.node (.leaf c) (.leaf d)) ⟨hc, hd⟩ ⟨2, .leaf c, by simp [Tree.nodeAt], rfl⟩
  obtain ⟨b, _, b1, -, -, b2⟩ := i (.node (.leaf c) (.leaf d)) ⟨hc, hd⟩ ⟨3, .leaf d, by simp [Tree.nodeAt], rfl⟩
  exact ⟨a, b, by rw [a1, b1], a2 _, b2 _⟩

set_option maxRecDepth 100000

/-- The hypotheses of `C108_forged` are met. -/
example : verify exExt Config.default Net.mainnet.reader.toReader = .ok (⟨Net.mainnet.first, Net.mainnet.last⟩, (Net.mainnet.fuluEpoch - 1) * 32) ∧
    verify exExt Config.sepolia Net.sepolia.reader.toReader = .ok (⟨Net.sepolia.first, Net.sepolia.last⟩, (Net.sepolia.fuluEpoch - 1) * 32) ∧
    Net.mainnet.input.consensusState.finalized.epoch < Net.mainnet.input.consensusState.currentJustified.epoch ∧
    Net.sepolia.input.consensusState.finalized.epoch < Net.sepolia.input.consensusState.currentJustified.epoch :=
  ⟨Net.reader_verifies (Or.inl rfl), Net.reader_verifies (Or.inr rfl), by decide, by decide⟩

theorem nets_strings : NoCollisionOn exExt ((Net.mainnet.hdr.tree.hashed exExt ++ Net.sepolia.hdr.tree.hashed exExt ++ Net.mainnet.stateP.hashed exExt ++
    Net.sepolia.stateP.hashed exExt).dedup) :=
  noCollisionOn_of_nodup (by decide +kernel)

/-- The hypotheses are met by the inputs of the two networks. -/
example : Net.mainnet.input.intoReader exExt (mainnetSpec Net.sign) = .ok Net.mainnet.reader ∧
    Net.sepolia.input.intoReader exExt (sepoliaSpec Net.sign) = .ok Net.sepolia.reader ∧
    (NoCollisionBetween exExt Net.mainnet.input.beaconBlock Net.sepolia.input.beaconBlock ∧
      NoCollisionBetween exExt Net.mainnet.input.beaconState Net.sepolia.input.beaconState) ∧
    ∀ p ∈ [Net.mainnet.input.beaconBlock, Net.mainnet.input.beaconState, Net.sepolia.input.beaconBlock, Net.sepolia.input.beaconState], NoWrap p := by
  have hm : Net.mainnet.Shipped := Or.inl rfl
  have hs : Net.sepolia.Shipped := Or.inr rfl
  refine ⟨Net.input_reader hm, Net.input_reader hs, ⟨?_, ?_⟩, ?_⟩
  · intro Q hQ
    rw [C25_tree_unique _ _ _ hQ (proofOf_encodes (Net.hdr_chunked hs) _)]
    exact proofOf_noCollision (Net.hdr_chunked hm) _ nets_strings (fun x hx => by rw [List.mem_dedup]; simp [hx]) (fun x hx => by rw [List.mem_dedup]; simp [hx])
  · intro Q hQ
    rw [C25_tree_unique _ _ _ hQ (proofOf_encodes (Net.stateP_chunked hs) _)]
    exact proofOf_noCollision (Net.stateP_chunked hm) _ nets_strings (fun x hx => by rw [List.mem_dedup]; simp [hx]) (fun x hx => by rw [List.mem_dedup]; simp [hx])
  · simp only [List.forall_mem_cons, List.not_mem_nil, false_implies, implies_true, and_true]
    exact ⟨proofOf_noWrap (Net.hdr_chunked hm) (Net.hdr_depth hm) _, proofOf_noWrap (Net.stateP_chunked hm) (Net.stateP_depth hm) _,
      proofOf_noWrap (Net.hdr_chunked hs) (Net.hdr_depth hs) _, proofOf_noWrap (Net.stateP_chunked hs) (Net.stateP_depth hs) _⟩

end Signal
