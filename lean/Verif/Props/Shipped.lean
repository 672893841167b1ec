import Verif.Spec.Shipped
import Verif.Props.Networks
import Verif.Proofs.ExampleShipped
import Verif.Props.Depth
import Verif.Props.Signing
import Verif.Props.AttestationSsz
import Verif.Props.Wire
import Verif.Props.Host

/-!
# C81: what the shipped guests prove

Partial: `RealChainDigests` excludes proofs that go on below a leaf of the real header, state or registry. The hardness of SHA-256 does not: without the
condition the claim is false (`C40_one_deposit`, `C81_one_deposit`).
-/

namespace Signal
open Spec Wire

/-- What a run of the guest consists of. -/
theorem guestMain_eq_ok {ε : Type} {W : WireExt} {X : Ext} {spec : ChainSpec} {cfg : Config} {stdin journal : Bytes}
    (h : (guestMain W X spec cfg stdin : Res ε Bytes) = .ok journal) :
    ∃ frame input, Frame.readFrame stdin = some frame ∧ decodeInput W X.usizeMod frame = some input ∧
      (guestEntry X spec cfg input : Res ε Bytes) = .ok journal := by
  unfold guestMain at h
  simp only [Res.bind_eq_ok, expect_eq_ok] at h
  obtain ⟨frame, h1, input, h2, h3⟩ := h
  exact ⟨frame, input, h1, h2, h3⟩

/-- Attestations that were read have values of their types. -/
theorem decoded_data {W : WireExt} {sigValid : Bytes → Bool} (hW : WireLaws (Ssz.wire W sigValid)) {word : Nat} {b : Bytes}
    {input : GuestInput} (h : decodeInput (Ssz.wire W sigValid) word b = some input) :
    ∀ a ∈ input.attestations, WfVoteData a.data := by
  intro a ha
  obtain ⟨hf, -⟩ := C63_decoded_fits _ hW word b input h
  have h : Ssz.decodeAttestation sigValid (Ssz.encodeAttestation a) = some a := (hf.attestations a ha).2
  obtain ⟨-, hw⟩ := C75_canonical sigValid _ a h
  cases a with
  | base a => exact ⟨hw.1.slot, hw.1.index, hw.1.root, hw.1.source, hw.1.target⟩
  | electra a => exact ⟨hw.1.slot, hw.1.index, hw.1.root, hw.1.source, hw.1.target⟩

section

variable {ε : Type} (X : Ext) (hdomain : ∀ version root, X.computeDomain version root =
    Signing.computeDomain X.sha256 Signing.beaconAttester version root)
  (signed : Bytes → Bytes → Prop) (hu : Unforgeable X signed)

include hdomain hu

theorem network_journal {s : ForkSchedule} (ho : Ordered s) (hl : s.forks.length = 6) {v5 v6 : Bytes} {e5 e6 : Nat}
    (h5 : s.forks[4]? = some (v5, e5)) (h6 : s.forks[5]? = some (v6, e6)) (hv : ∀ v ∈ s.genesisVersion :: s.forks.map (·.1), v.length = 4)
    (he5 : 4 < e5) (percent : Nat) {input : GuestInput} {journal : Bytes}
    (h : (guestEntry X (networkSpec s (Signing.signingRoot X.sha256)) ⟨5, 6, 4, percent, 100⟩ input : Res ε Bytes) = .ok journal)
    (ht : Typed input) (hdata : ∀ a ∈ input.attestations, WfVoteData a.data) :
    ∃ post slot, journal = Abi.encodeJournal input.consensusState post slot ∧
      Abi.cliReadJournal journal = .ok (input.consensusState, post) ∧ e5 ≤ input.consensusState.finalized.epoch + 4 ∧
      Ahead input.consensusState post ∧
      ∀ hdr st, RealChainDigests X (networkSpec s (Signing.signingRoot X.sha256)) input hdr st →
        ∃ links, Blocks input.attestations links ∧ Run input.consensusState links post ∧
          ∀ link ∈ links, e5 ≤ link.target.epoch ∧ link.target.epoch ≤ input.consensusState.finalized.epoch + 4 ∧
            ∃ voters, CarriedBy X signed percent (if link.target.epoch < e6 then v5 else v6) st.genesisValidatorsRoot
              (registryOf (networkSpec s (Signing.signingRoot X.sha256)) st input.consensusState) input.attestations link voters := by
  obtain ⟨r, post, slot, hr, hver, rfl⟩ := guestEntry_eq_ok h
  obtain ⟨-, -, -, -, -, -, -, -, -, -, -, -, -, -, hspec, -, -, hcs, hat⟩ := intoReader_eq_ok hr
  have hvotes : ∀ a ∈ input.attestations, e5 ≤ a.data.target.epoch ∧ a.data.target.epoch ≤ input.consensusState.finalized.epoch + 4 := by
    intro a ha
    refine ⟨(network_votes X ho hl h5 h6 _ _ rfl rfl r.toReader hspec (fun _ => rfl) post slot hver _ rfl _ rfl a (hat ▸ ha)).1, ?_⟩
    have := (C18_window_and_forks X _ r.toReader post slot hver _ rfl _ rfl a (hat ▸ ha)).1
    rw [hcs] at this
    exact this
  have hne : input.attestations ≠ [] := by
    obtain ⟨pre', atts, links, -, h2, hb, -, -, hl, -⟩ := C09_exactly_one_finalization X _ r.toReader post slot hver
    obtain ⟨l, hl⟩ := List.exists_mem_of_ne_nil _ hl
    obtain ⟨a, ha, -⟩ := hb.nonempty l hl
    simp only [GuestReader.toReader, Res.ok.injEq] at h2
    rw [← hat, h2]
    exact List.ne_nil_of_mem ha
  obtain ⟨a0, ha0⟩ := List.exists_mem_of_ne_nil _ hne
  have hepoch : input.consensusState.finalized.epoch ≠ 0 := by have := hvotes a0 ha0; omega
  obtain ⟨hread, -, -, -, -, hah, -⟩ := verified_parts ht hr hver
  refine ⟨post, slot, rfl, hread, by have := hvotes a0 ha0; omega, hah, fun hdr st hreal => ?_⟩
  obtain ⟨links, hb, hrun, -, hsup⟩ := C40_reader_partial X _ _ input r hr post slot hver hdr st (hreal.realChain hr) hepoch (Nat.le_refl 4)
  refine ⟨links, hb, hrun, fun link hlink => ?_⟩
  obtain ⟨a, ha, rfl⟩ := hb.nonempty link hlink
  obtain ⟨hge, hle⟩ := hvotes a ha
  refine ⟨hge, hle, ?_⟩
  obtain ⟨voters, hn, hm, h1, -⟩ := hsup _ hlink
  refine ⟨voters, hn, fun i hi => (hm i hi).1, fun i hi => (hm i hi).2.1, fun i hi => ?_, ?_⟩
  · obtain ⟨-, -, e, he, hs, ht, hslot, hidx, signers, keys, hi', hact, hk, hsig⟩ := hm i hi
    refine ⟨.electra e, he, by unfold linkOf at *; simp only [Attestation.data, hs, ht], hslot, hidx, hdata _ he, ?_⟩
    have hX : RealSigning X (networkSpec s (Signing.signingRoot X.sha256)) := ⟨hdomain, fun _ _ => rfl⟩
    have hversion := (last_forks ho hl h5 h6 (linkOf a).target.epoch).2 hge
    have hlen : (if (linkOf a).target.epoch < e6 then v5 else v6).length = 4 := by
      split
      · exact hv _ (List.mem_cons_of_mem _ (List.mem_map.2 ⟨_, List.mem_of_getElem? h5, rfl⟩))
      · exact hv _ (List.mem_cons_of_mem _ (List.mem_map.2 ⟨_, List.mem_of_getElem? h6, rfl⟩))
    have hmsg : (if (linkOf a).target.epoch < ((networkSpec s (Signing.signingRoot X.sha256)).forkAtEpoch (linkOf a).target.epoch).epoch
        then ((networkSpec s (Signing.signingRoot X.sha256)).forkAtEpoch (linkOf a).target.epoch).previousVersion
        else ((networkSpec s (Signing.signingRoot X.sha256)).forkAtEpoch (linkOf a).target.epoch).currentVersion) =
        if (linkOf a).target.epoch < e6 then v5 else v6 := hversion
    rw [hmsg, C76_message X _ hX _ _ _ hlen] at hsig
    have : registeredKey (registryOf (networkSpec s (Signing.signingRoot X.sha256)) st input.consensusState) i ∈ keys.map X.pkSerialize := by
      rw [hk]; exact List.mem_map.2 ⟨i, hi', rfl⟩
    obtain ⟨k, hk1, hk2⟩ := List.mem_map.1 this
    rw [← hk2]
    exact hu _ _ _ hsig k hk1
  · have e : ∀ w, floored (networkSpec s (Signing.signingRoot X.sha256)) w = max 1000000000 w := fun w => by
      rw [Nat.max_comm]; rfl
    rw [e, e] at h1
    simp only [balanceOf] at h1 ⊢
    rw [Nat.mul_comm percent, Nat.mul_comm 100]
    exact h1

end

/-- What a run of either guest on a file gives. -/
theorem network_main {ε : Type} {W : WireExt} {sigValid : Bytes → Bool} (hW : WireLaws (Ssz.wire W sigValid)) (X : Ext)
    (hdomain : ∀ version root, X.computeDomain version root =
      Signing.computeDomain X.sha256 Signing.beaconAttester version root)
    (signed : Bytes → Bytes → Prop) (hu : Unforgeable X signed) {s : ForkSchedule} (ho : Ordered s) (hl : s.forks.length = 6)
    {v5 v6 : Bytes} {e5 e6 : Nat} (h5 : s.forks[4]? = some (v5, e5)) (h6 : s.forks[5]? = some (v6, e6))
    (hv : ∀ v ∈ s.genesisVersion :: s.forks.map (·.1), v.length = 4) (he5 : 4 < e5) (percent : Nat) {stdin journal : Bytes}
    (h : (guestMain (Ssz.wire W sigValid) X (networkSpec s (Signing.signingRoot X.sha256)) ⟨5, 6, 4, percent, 100⟩ stdin :
      Res ε Bytes) = .ok journal) :
    ∃ frame input post slot, Frame.readFrame stdin = some frame ∧
      decodeInput (Ssz.wire W sigValid) X.usizeMod frame = some input ∧
      journal = Abi.encodeJournal input.consensusState post slot ∧
      Abi.cliReadJournal journal = .ok (input.consensusState, post) ∧ e5 ≤ input.consensusState.finalized.epoch + 4 ∧
      Ahead input.consensusState post ∧
      ∀ hdr st, RealChainDigests X (networkSpec s (Signing.signingRoot X.sha256)) input hdr st →
        ∃ links, Blocks input.attestations links ∧ Run input.consensusState links post ∧
          ∀ link ∈ links, e5 ≤ link.target.epoch ∧ link.target.epoch ≤ input.consensusState.finalized.epoch + 4 ∧
            ∃ voters, CarriedBy X signed percent (if link.target.epoch < e6 then v5 else v6) st.genesisValidatorsRoot
              (registryOf (networkSpec s (Signing.signingRoot X.sha256)) st input.consensusState) input.attestations link voters := by
  obtain ⟨frame, input, h1, h2, h3⟩ := guestMain_eq_ok h
  obtain ⟨post, slot, h4⟩ := network_journal X hdomain signed hu ho hl h5 h6 hv he5 percent h3 (C63_decoded_fits _ hW _ _ _ h2).2
    (decoded_data hW h2)
  exact ⟨frame, input, post, slot, h1, h2, h4⟩

/-- **C81.** The guest for Ethereum mainnet. -/
theorem C81_mainnet_partial {ε : Type} (W : WireExt) (sigValid : Bytes → Bool) (hW : WireLaws (Ssz.wire W sigValid)) (X : Ext)
    (hdomain : ∀ version root, X.computeDomain version root =
      Signing.computeDomain X.sha256 Signing.beaconAttester version root)
    (signed : Bytes → Bytes → Prop) (hu : Unforgeable X signed) (stdin journal : Bytes)
    (h : (guestMain (Ssz.wire W sigValid) X (mainnetOf X) Config.default stdin : Res ε Bytes) = .ok journal) :
    ∃ frame input post slot, Frame.readFrame stdin = some frame ∧
      decodeInput (Ssz.wire W sigValid) X.usizeMod frame = some input ∧
      journal = Abi.encodeJournal input.consensusState post slot ∧
      Abi.cliReadJournal journal = .ok (input.consensusState, post) ∧
      364028 ≤ input.consensusState.finalized.epoch ∧
      input.consensusState.finalized.epoch < post.finalized.epoch ∧
      input.consensusState.currentJustified.epoch < post.currentJustified.epoch ∧
      ∀ hdr st, RealChainDigests X (mainnetOf X) input hdr st →
        ∃ links, Run input.consensusState links post ∧
          ∀ link ∈ links, 364032 ≤ link.target.epoch ∧ link.target.epoch ≤ input.consensusState.finalized.epoch + 4 ∧
            ∃ voters, CarriedBy X signed 85 (if link.target.epoch < 411392 then [5, 0, 0, 0] else [6, 0, 0, 0])
              st.genesisValidatorsRoot (registryOf (mainnetOf X) st input.consensusState) input.attestations link voters := by
  obtain ⟨frame, input, post, slot, h1, h2, h3, h4, h5, h6, h7⟩ := network_main hW X hdomain signed hu mainnet_ordered rfl rfl rfl
    (by decide) (by decide) 85 h
  refine ⟨frame, input, post, slot, h1, h2, h3, h4, by omega, h6.1, h6.2.1, fun hdr st hreal => ?_⟩
  obtain ⟨links, -, h8⟩ := h7 hdr st hreal
  exact ⟨links, h8⟩

/-- **C81.** The guest for Sepolia. -/
theorem C81_sepolia_partial {ε : Type} (W : WireExt) (sigValid : Bytes → Bool) (hW : WireLaws (Ssz.wire W sigValid)) (X : Ext)
    (hdomain : ∀ version root, X.computeDomain version root =
      Signing.computeDomain X.sha256 Signing.beaconAttester version root)
    (signed : Bytes → Bytes → Prop) (hu : Unforgeable X signed) (stdin journal : Bytes)
    (h : (guestMain (Ssz.wire W sigValid) X (sepoliaOf X) Config.sepolia stdin : Res ε Bytes) = .ok journal) :
    ∃ frame input post slot, Frame.readFrame stdin = some frame ∧
      decodeInput (Ssz.wire W sigValid) X.usizeMod frame = some input ∧
      journal = Abi.encodeJournal input.consensusState post slot ∧
      Abi.cliReadJournal journal = .ok (input.consensusState, post) ∧
      222460 ≤ input.consensusState.finalized.epoch ∧
      input.consensusState.finalized.epoch < post.finalized.epoch ∧
      input.consensusState.currentJustified.epoch < post.currentJustified.epoch ∧
      ∀ hdr st, RealChainDigests X (sepoliaOf X) input hdr st →
        ∃ links, Run input.consensusState links post ∧
          ∀ link ∈ links, 222464 ≤ link.target.epoch ∧ link.target.epoch ≤ input.consensusState.finalized.epoch + 4 ∧
            ∃ voters, CarriedBy X signed 70
              (if link.target.epoch < 272640 then [0x90, 0, 0, 0x74] else [0x90, 0, 0, 0x75])
              st.genesisValidatorsRoot (registryOf (sepoliaOf X) st input.consensusState) input.attestations link voters := by
  obtain ⟨frame, input, post, slot, h1, h2, h3, h4, h5, h6, h7⟩ := network_main hW X hdomain signed hu sepolia_ordered rfl rfl rfl
    (by decide) (by decide) 70 h
  refine ⟨frame, input, post, slot, h1, h2, h3, h4, by omega, h6.1, h6.2.1, fun hdr st hreal => ?_⟩
  obtain ⟨links, -, h8⟩ := h7 hdr st hreal
  exact ⟨links, h8⟩

/-! ## The hypotheses can be met -/

/-- What was signed, in the examples: what the signatures that verify say. -/
def swSigned (key message : Bytes) : Prop :=
  ∃ sig keys, exExt.fastAggregateVerify sig message keys = true ∧ key ∈ keys.map exExt.pkSerialize

theorem swSigned_unforgeable : Unforgeable exExt swSigned :=
  fun sig _ keys h _ hk => ⟨sig, keys, h, List.mem_map.2 ⟨_, hk, rfl⟩⟩

theorem sw_decoded {n : Net} (h : n.Shipped) {frame : Bytes} {input : GuestInput} (h1 : Frame.readFrame n.file = some frame)
    (h2 : decodeInput (Ssz.wire exWire (fun _ => true)) exExt.usizeMod frame = some input) : input = n.input := by
  have hf := readFrame_append _ [] (Net.input_size h)
  rw [List.append_nil] at hf
  unfold Net.file at h1
  rw [hf, Option.some.injEq] at h1
  have hd := C63_round_trip _ szWire_laws exExt.usizeMod (by decide) (by decide) n.input (Net.input_fits h) []
  rw [List.append_nil, h1, h2, Option.some.injEq] at hd
  exact hd

/-- The mainnet guest on a complete file of 18 votes by nine validators of 32 ETH, on both sides of the start of Fulu: all hypotheses of
`C81_mainnet_partial` are met. -/
example : ∃ post links, Run ⟨Net.mainnet.justified, Net.mainnet.trusted⟩ links post ∧ Net.mainnet.trusted.epoch < post.finalized.epoch ∧
    ∀ link ∈ links, ∃ voters, CarriedBy exExt swSigned 85
      (if link.target.epoch < 411392 then [5, 0, 0, 0] else [6, 0, 0, 0]) (exRoot32 77)
      (registryOf (mainnetOf exExt) Net.mainnet.state ⟨Net.mainnet.justified, Net.mainnet.trusted⟩) Net.mainnet.votes link voters := by
  have hn : Net.mainnet.Shipped := Or.inl rfl
  obtain ⟨frame, input, post, slot, h1, h2, -, -, -, h3, -, h4⟩ := C81_mainnet_partial (ε := Unit) exWire (fun _ => true) szWire_laws exExt
    (fun _ _ => rfl) swSigned swSigned_unforgeable Net.mainnet.file _ (Net.file_runs hn)
  have he := sw_decoded hn h1 h2
  subst he
  obtain ⟨links, hrun, h5⟩ := h4 _ _ (Net.input_real hn)
  exact ⟨post, links, hrun, h3, fun l hl => (h5 l hl).2.2⟩

/-- The same for Sepolia. -/
example : ∃ post links, Run ⟨Net.sepolia.justified, Net.sepolia.trusted⟩ links post ∧ Net.sepolia.trusted.epoch < post.finalized.epoch ∧
    ∀ link ∈ links, ∃ voters, CarriedBy exExt swSigned 70
      (if link.target.epoch < 272640 then [0x90, 0, 0, 0x74] else [0x90, 0, 0, 0x75]) (exRoot32 77)
      (registryOf (sepoliaOf exExt) Net.sepolia.state ⟨Net.sepolia.justified, Net.sepolia.trusted⟩) Net.sepolia.votes link voters := by
  have hn : Net.sepolia.Shipped := Or.inr rfl
  obtain ⟨frame, input, post, slot, h1, h2, -, -, -, h3, -, h4⟩ := C81_sepolia_partial (ε := Unit) exWire (fun _ => true) szWire_laws exExt
    (fun _ _ => rfl) swSigned swSigned_unforgeable Net.sepolia.file _ (Net.file_runs hn)
  have he := sw_decoded hn h1 h2
  subst he
  obtain ⟨links, hrun, h5⟩ := h4 _ _ (Net.input_real hn)
  exact ⟨post, links, hrun, h3, fun l hl => (h5 l hl).2.2⟩

end Signal
