import Verif.Proofs.ExampleNetworks
import Verif.Spec.Networks
import Verif.Props.EndToEnd
import Verif.Props.Accept

/-!
# C72: the shipped networks

Specification: `Verif/Spec/Networks.lean`.
-/

namespace Signal
open Spec

section schedule
variable (s : ForkSchedule) (epoch : Nat)

theorem ForkSchedule.nameAt_le : s.nameAt epoch ≤ s.forks.length := by
  unfold ForkSchedule.nameAt
  cases h : (List.range s.forks.length).reverse.find? (s.started epoch) with
  | none => simp
  | some i =>
    have := List.mem_of_find?_eq_some h
    simp only [List.mem_reverse, List.mem_range] at this
    exact this

theorem ForkSchedule.nameAt_started (n : Nat) (h : s.nameAt epoch = n + 1) : ∃ f, s.forks[n]? = some f ∧ f.2 ≤ epoch := by
  unfold ForkSchedule.nameAt at h
  cases hf : (List.range s.forks.length).reverse.find? (s.started epoch) with
  | none => rw [hf] at h; cases h
  | some i =>
    rw [hf] at h
    cases h
    have := List.find?_some hf
    unfold ForkSchedule.started at this
    cases hn : s.forks[n]? with
    | none => rw [hn] at this; cases this
    | some f => rw [hn] at this; exact ⟨f, rfl, of_decide_eq_true this⟩

theorem ForkSchedule.nameAt_later (n : Nat) (f : Bytes × Nat) (hn : s.nameAt epoch ≤ n) (hf : s.forks[n]? = some f) : epoch < f.2 := by
  have hlt : n < s.forks.length := (List.getElem?_eq_some_iff.1 hf).1
  unfold ForkSchedule.nameAt at hn
  cases h : (List.range s.forks.length).reverse.find? (s.started epoch) with
  | none =>
    have := List.find?_eq_none.1 h n (by simpa using hlt)
    simpa [ForkSchedule.started, hf] using this
  | some i =>
    rw [h] at hn
    have hn : i + 1 ≤ n := hn
    obtain ⟨-, l1, l2, h1, h2⟩ := List.find?_eq_some_iff_append.1 h
    have hmem : n ∈ l1 ++ i :: l2 := by rw [← h1]; simpa using hlt
    have hdesc : (l1 ++ i :: l2).Pairwise (· > ·) := by
      rw [← h1, List.pairwise_reverse]
      exact List.pairwise_lt_range
    rcases List.mem_append.1 hmem with hm | hm
    · have := h2 n hm
      simpa [ForkSchedule.started, hf] using this
    · rcases List.mem_cons.1 hm with rfl | hm
      · omega
      · have := (List.pairwise_append.1 hdesc).2.1
        have := (List.pairwise_cons.1 this).1 n hm
        omega

/-- **C72.** In an ordered schedule exactly one fork is in force in an epoch. `fork_name_at_epoch` gives its number and `fork_at_epoch`
gives its version for signatures made in that epoch. -/
theorem C72_in_force (ho : Ordered s) (n : Nat) (version : Bytes) :
    InForce s epoch n version ↔ s.nameAt epoch = n ∧ (s.forkAt epoch).versionAt epoch = version := by
  have hver : (s.forkAt epoch).versionAt epoch = s.version (s.nameAt epoch) := by
    unfold Fork.versionAt ForkSchedule.forkAt
    dsimp only
    cases h : s.nameAt epoch with
    | zero => simp
    | succ m =>
      obtain ⟨f, h1, h2⟩ := s.nameAt_started epoch m h
      simp only [h1]
      rw [if_neg (by omega)]
  have hforce : InForce s epoch (s.nameAt epoch) (s.version (s.nameAt epoch)) := by
    refine ⟨?_, fun v start h => s.nameAt_later epoch _ _ (Nat.le_refl _) h⟩
    cases h : s.nameAt epoch with
    | zero => exact .inl ⟨rfl, rfl⟩
    | succ m =>
      obtain ⟨f, h1, h2⟩ := s.nameAt_started epoch m h
      refine .inr ⟨f.2, by omega, ?_, h2⟩
      simp [ForkSchedule.version, h1]
  have hmono : ∀ (i j : Nat) (f g : Bytes × Nat), i < j → s.forks[i]? = some f → s.forks[j]? = some g → f.2 ≤ g.2 := by
    intro i j f g hij hf hg
    obtain ⟨h1, rfl⟩ := List.getElem?_eq_some_iff.1 hf
    obtain ⟨h2, rfl⟩ := List.getElem?_eq_some_iff.1 hg
    exact List.pairwise_iff_getElem.1 ho i j h1 h2 hij
  have huniq : ∀ n v, InForce s epoch n v → n = s.nameAt epoch := by
    intro n v h
    rcases Nat.lt_trichotomy n (s.nameAt epoch) with hlt | he | hlt
    · exfalso
      obtain ⟨m, hm⟩ : ∃ m, s.nameAt epoch = m + 1 := ⟨s.nameAt epoch - 1, by omega⟩
      obtain ⟨f, h1, h2⟩ := s.nameAt_started epoch m hm
      have hlen := (List.getElem?_eq_some_iff.1 h1).1
      have hn : s.forks[n]? = some (s.forks[n]'(by omega)) := List.getElem?_eq_getElem _
      have h3 := h.2 _ _ (hn.trans (by rfl : _ = some ((s.forks[n]'(by omega)).1, (s.forks[n]'(by omega)).2)))
      rcases Nat.lt_or_ge n m with hnm | hnm
      · have := hmono n m _ _ hnm hn h1
        omega
      · have : n = m := by omega
        subst this
        rw [h1] at hn
        rw [← Option.some.inj hn] at h3
        omega
    · exact he
    · exfalso
      rcases h.1 with ⟨h1, -⟩ | ⟨start, h1, h2, h3⟩
      · omega
      · have := s.nameAt_later epoch (n - 1) _ (by omega) h2
        simp only at this
        omega
  constructor
  · intro h
    have hn := huniq n version h
    subst hn
    refine ⟨rfl, ?_⟩
    rw [hver]
    rcases h.1 with ⟨h1, h2⟩ | ⟨start, h1, h2, h3⟩
    · rw [h1, h2]; rfl
    · obtain ⟨m, hm⟩ : ∃ m, s.nameAt epoch = m + 1 := ⟨s.nameAt epoch - 1, by omega⟩
      rw [hm] at h2 ⊢
      simp only [Nat.add_sub_cancel] at h2
      simp [ForkSchedule.version, h2]
  · rintro ⟨rfl, rfl⟩
    rw [hver]
    exact hforce

/-- **C72.** `fork_at_epoch` gives the record of the fork that `fork_name_at_epoch` names, and no other record is one of that fork. -/
theorem C72_record (record : Fork) : RecordOf s (s.nameAt epoch) record ↔ record = s.forkAt epoch := by
  have hlen := s.nameAt_le epoch
  obtain ⟨pv, cv, e⟩ := record
  unfold RecordOf ForkSchedule.forkAt
  generalize s.nameAt epoch = n at hlen
  match n with
  | 0 => simp [ForkSchedule.version]
  | 1 =>
    have h0 : s.forks[0]? = some (s.forks[0]'(by omega)) := List.getElem?_eq_getElem _
    generalize s.forks[0]'(by omega) = f at h0
    obtain ⟨v, st⟩ := f
    simp only [ForkSchedule.version, h0, Fork.mk.injEq, Option.some.injEq, Prod.mk.injEq]
    constructor
    · rintro (⟨h, -⟩ | ⟨-, ⟨rfl, rfl⟩, ⟨-, h⟩ | ⟨_, h, -⟩⟩)
      · omega
      · exact ⟨h, rfl, rfl⟩
      · omega
    · rintro ⟨rfl, rfl, rfl⟩
      exact .inr ⟨by omega, ⟨rfl, rfl⟩, .inl ⟨trivial, rfl⟩⟩
  | m + 2 =>
    have h1 : s.forks[m + 1]? = some (s.forks[m + 1]'(by omega)) := List.getElem?_eq_getElem _
    have h0 : s.forks[m]? = some (s.forks[m]'(by omega)) := List.getElem?_eq_getElem _
    generalize s.forks[m + 1]'(by omega) = f at h1
    generalize s.forks[m]'(by omega) = g at h0
    obtain ⟨v, st⟩ := f
    obtain ⟨v', st'⟩ := g
    have e1 : m + 2 - 1 = m + 1 := rfl
    have e2 : m + 2 - 2 = m := rfl
    simp only [e1, e2, ForkSchedule.version, h1, h0, Fork.mk.injEq, Option.some.injEq, Prod.mk.injEq]
    constructor
    · rintro (⟨h, -⟩ | ⟨-, ⟨rfl, rfl⟩, ⟨h, -⟩ | ⟨_, -, rfl, -⟩⟩)
      · omega
      · omega
      · exact ⟨rfl, rfl, rfl⟩
    · rintro ⟨rfl, rfl, rfl⟩
      exact .inr ⟨by omega, ⟨rfl, rfl⟩, .inr ⟨st', by omega, rfl, rfl⟩⟩

/-- **C72.** The guest takes a trusted state only if its fork record is that of the fork in force in the epoch of its slot. -/
theorem C72_trusted_record (X : Ext) (ho : Ordered s) (spec : ChainSpec) (hspec : spec.forkAtEpoch = s.forkAt) (input : GuestInput)
    (r : GuestReader) (h : input.intoReader X spec = .ok r) :
    ∃ state n version, extractBeaconState input.beaconState = .ok state ∧ InForce s (state.slot / spec.slotsPerEpoch) n version ∧
      RecordOf s n state.fork := by
  obtain ⟨-, state, -, -, -, -, h4, -, -, hf, -⟩ := intoReader_eq_ok h
  rw [hspec] at hf
  exact ⟨state, _, _, h4, (C72_in_force s _ ho _ _).2 ⟨rfl, rfl⟩, (C72_record s _ _).2 hf⟩

end schedule

theorem mainnet_ordered : Ordered mainnetForks := by unfold Ordered mainnetForks; decide
theorem sepolia_ordered : Ordered sepoliaForks := by unfold Ordered sepoliaForks; decide

/-- The last two forks of a schedule of six. -/
theorem last_forks {s : ForkSchedule} (ho : Ordered s) (hl : s.forks.length = 6) {v5 v6 : Bytes} {e5 e6 : Nat}
    (h5 : s.forks[4]? = some (v5, e5)) (h6 : s.forks[5]? = some (v6, e6)) (epoch : Nat) :
    (5 ≤ s.nameAt epoch ∧ s.nameAt epoch ≤ 6 ↔ e5 ≤ epoch) ∧
    (e5 ≤ epoch → (s.forkAt epoch).versionAt epoch = if epoch < e6 then v5 else v6) := by
  have h56 : e5 ≤ e6 := by
    obtain ⟨k5, h5⟩ := List.getElem?_eq_some_iff.1 h5
    obtain ⟨k6, h6⟩ := List.getElem?_eq_some_iff.1 h6
    have := List.pairwise_iff_getElem.1 ho 4 5 k5 k6 (by omega)
    rw [h5, h6] at this
    exact this
  have hsix : s.forks[6]? = none := by simp [hl]
  have key : e5 ≤ epoch → InForce s epoch (if epoch < e6 then 5 else 6) (if epoch < e6 then v5 else v6) := by
    intro he
    by_cases hlt : epoch < e6
    · simp only [hlt, if_true]
      exact ⟨.inr ⟨e5, by omega, h5, he⟩, fun v start h => by rw [h6] at h; cases h; exact hlt⟩
    · simp only [hlt, if_false]
      exact ⟨.inr ⟨e6, by omega, h6, by omega⟩, fun v start h => by rw [hsix] at h; cases h⟩
  refine ⟨⟨fun ⟨h1, h2⟩ => ?_, fun he => ?_⟩, fun he => ((C72_in_force s epoch ho _ _).1 (key he)).2⟩
  · by_contra hlt
    have := (C72_in_force s epoch ho _ _).2 ⟨rfl, rfl⟩
    have hcase : s.nameAt epoch = 5 ∨ s.nameAt epoch = 6 := by omega
    rcases hcase with h | h
    · rw [h] at this
      rcases this.1 with ⟨k, -⟩ | ⟨start, -, k1, k2⟩
      · omega
      · simp only [Nat.add_one_sub_one] at k1
        rw [h5] at k1
        cases k1
        omega
    · rw [h] at this
      rcases this.1 with ⟨k, -⟩ | ⟨start, -, k1, k2⟩
      · omega
      · simp only [Nat.add_one_sub_one] at k1
        rw [h6] at k1
        cases k1
        omega
  · rw [((C72_in_force s epoch ho _ _).1 (key he)).1]
    split <;> omega

/-- What an accepted vote was signed for, on a network whose two supported forks start at `e5` and `e6`. -/
theorem network_votes (X : Ext) {s : ForkSchedule} (ho : Ordered s) (hl : s.forks.length = 6) {v5 v6 : Bytes} {e5 e6 : Nat}
    (h5 : s.forks[4]? = some (v5, e5)) (h6 : s.forks[5]? = some (v6, e6)) (signingRoot : AttestationData → Bytes → Root) (cfg : Config)
    (hmin : cfg.minVersion = 5) (hmax : cfg.maxVersion = 6) (R : Reader) (hspec : R.spec = networkSpec s signingRoot)
    (hfork : ∀ e, R.fork e = .ok (R.spec.forkAtEpoch e)) (post : ConsensusState) (slot : Nat)
    (h : verify X cfg R = .ok (post, slot)) (pre : ConsensusState) (hpre : R.consensusState = .ok pre) (atts : List Attestation)
    (hatts : R.attestations = .ok atts) (a : Attestation) (ha : a ∈ atts) :
    e5 ≤ a.data.target.epoch ∧ ∃ e keys root, a = .electra e ∧ e.data.slot / 32 = e.data.target.epoch ∧ keys ≠ [] ∧
      R.genesisValidatorsRoot = .ok root ∧
      X.fastAggregateVerify e.signature
        (signingRoot e.data (X.computeDomain (if e.data.target.epoch < e6 then v5 else v6) root)) keys = true := by
  obtain ⟨active, signers, voters, hj, -⟩ := verify_justifies X cfg R post slot h pre hpre atts hatts a ha
  have hsup := hj.fork_supported
  rw [hmin, hmax, hspec] at hsup
  obtain ⟨k1, k2⟩ := last_forks ho hl h5 h6 a.data.target.epoch
  have hge : e5 ≤ a.data.target.epoch := k1.1 hsup
  refine ⟨hge, ?_⟩
  have hv := hj.votes a (List.mem_filter.2 ⟨ha, by simp⟩)
  obtain ⟨e, rfl, -, hs, -, fork, root, hf, hr, hsig⟩ := hv.electra
  refine ⟨e, (signers (.electra e)).map (pubkey active), root, rfl, ?_, ?_, hr, ?_⟩
  · rw [hspec] at hs
    exact hs
  · simpa using hv.signers_nonempty
  · have hver := k2 hge
    rw [hfork] at hf
    cases hf
    rw [hspec] at hsig
    have hver : (s.forkAt e.data.target.epoch).versionAt e.data.target.epoch = if e.data.target.epoch < e6 then v5 else v6 := hver
    rw [← hver]
    exact hsig

/-- **C72.** On mainnet every vote in an accepted input is for an epoch from Electra on. It was signed under the fork version of its
target epoch: Electra's before epoch 411392 and Fulu's from then on. -/
theorem C72_mainnet_votes (X : Ext) (signingRoot : AttestationData → Bytes → Root) (R : Reader) (hspec : R.spec = mainnetSpec signingRoot)
    (hfork : ∀ e, R.fork e = .ok (R.spec.forkAtEpoch e)) (post : ConsensusState) (slot : Nat)
    (h : verify X Config.default R = .ok (post, slot)) (pre : ConsensusState) (hpre : R.consensusState = .ok pre)
    (atts : List Attestation) (hatts : R.attestations = .ok atts) (a : Attestation) (ha : a ∈ atts) :
    364032 ≤ a.data.target.epoch ∧ ∃ e keys root, a = .electra e ∧ e.data.slot / 32 = e.data.target.epoch ∧ keys ≠ [] ∧
      R.genesisValidatorsRoot = .ok root ∧
      X.fastAggregateVerify e.signature
        (signingRoot e.data (X.computeDomain (if e.data.target.epoch < 411392 then [5, 0, 0, 0] else [6, 0, 0, 0]) root)) keys = true :=
  network_votes X mainnet_ordered rfl rfl rfl signingRoot Config.default rfl rfl R hspec hfork post slot h pre hpre atts hatts a ha

/-- **C72.** The same for Sepolia, with its own fork versions and epochs. -/
theorem C72_sepolia_votes (X : Ext) (signingRoot : AttestationData → Bytes → Root) (R : Reader) (hspec : R.spec = sepoliaSpec signingRoot)
    (hfork : ∀ e, R.fork e = .ok (R.spec.forkAtEpoch e)) (post : ConsensusState) (slot : Nat)
    (h : verify X Config.sepolia R = .ok (post, slot)) (pre : ConsensusState) (hpre : R.consensusState = .ok pre)
    (atts : List Attestation) (hatts : R.attestations = .ok atts) (a : Attestation) (ha : a ∈ atts) :
    222464 ≤ a.data.target.epoch ∧ ∃ e keys root, a = .electra e ∧ e.data.slot / 32 = e.data.target.epoch ∧ keys ≠ [] ∧
      R.genesisValidatorsRoot = .ok root ∧
      X.fastAggregateVerify e.signature
        (signingRoot e.data (X.computeDomain
          (if e.data.target.epoch < 272640 then [0x90, 0, 0, 0x74] else [0x90, 0, 0, 0x75]) root)) keys = true :=
  network_votes X sepolia_ordered rfl rfl rfl signingRoot Config.sepolia rfl rfl R hspec hfork post slot h pre hpre atts hatts a ha

/-- **C72.** The guest's reader meets the hypotheses of the two theorems above: what the mainnet guest commits rests on such votes. -/
theorem C72_guest_mainnet {ε : Type} (X : Ext) (signingRoot : AttestationData → Bytes → Root) (input : GuestInput) (out : Bytes)
    (h : (guestEntry X (mainnetSpec signingRoot) Config.default input : Res ε Bytes) = .ok out) (a : Attestation)
    (ha : a ∈ input.attestations) :
    364032 ≤ a.data.target.epoch ∧ ∃ e keys root, a = .electra e ∧ e.data.slot / 32 = e.data.target.epoch ∧ keys ≠ [] ∧
      X.fastAggregateVerify e.signature
        (signingRoot e.data (X.computeDomain (if e.data.target.epoch < 411392 then [5, 0, 0, 0] else [6, 0, 0, 0]) root)) keys = true := by
  obtain ⟨r, post, slot, hr, hv, -⟩ := guestEntry_eq_ok h
  obtain ⟨-, -, -, -, -, -, -, -, -, -, -, -, -, -, hspec, -, -, hcs, hat⟩ := intoReader_eq_ok hr
  obtain ⟨h1, e, keys, root, h2, h3, h4, -, h5⟩ := C72_mainnet_votes X signingRoot r.toReader hspec (fun _ => rfl) post slot hv
    _ rfl _ rfl a (hat ▸ ha)
  exact ⟨h1, e, keys, root, h2, h3, h4, h5⟩

theorem C72_guest_sepolia {ε : Type} (X : Ext) (signingRoot : AttestationData → Bytes → Root) (input : GuestInput) (out : Bytes)
    (h : (guestEntry X (sepoliaSpec signingRoot) Config.sepolia input : Res ε Bytes) = .ok out) (a : Attestation)
    (ha : a ∈ input.attestations) :
    222464 ≤ a.data.target.epoch ∧ ∃ e keys root, a = .electra e ∧ e.data.slot / 32 = e.data.target.epoch ∧ keys ≠ [] ∧
      X.fastAggregateVerify e.signature
        (signingRoot e.data (X.computeDomain
          (if e.data.target.epoch < 272640 then [0x90, 0, 0, 0x74] else [0x90, 0, 0, 0x75]) root)) keys = true := by
  obtain ⟨r, post, slot, hr, hv, -⟩ := guestEntry_eq_ok h
  obtain ⟨-, -, -, -, -, -, -, -, -, -, -, -, -, -, hspec, -, -, hcs, hat⟩ := intoReader_eq_ok hr
  obtain ⟨h1, e, keys, root, h2, h3, h4, -, h5⟩ := C72_sepolia_votes X signingRoot r.toReader hspec (fun _ => rfl) post slot hv
    _ rfl _ rfl a (hat ▸ ha)
  exact ⟨h1, e, keys, root, h2, h3, h4, h5⟩

/-- The versions of a schedule are among those it lists. -/
theorem versionAt_mem (s : ForkSchedule) (ho : Ordered s) (epoch : Nat) :
    (s.forkAt epoch).versionAt epoch ∈ s.genesisVersion :: s.forks.map (·.1) := by
  have h := ((C72_in_force s epoch ho _ _).2 ⟨rfl, rfl⟩).1
  rcases h with ⟨-, h⟩ | ⟨start, -, h, -⟩
  · rw [h]; exact List.mem_cons_self
  · exact List.mem_cons_of_mem _ (List.mem_map.2 ⟨_, List.mem_of_getElem? h, rfl⟩)

/-- **C72.** No epochs of the two networks share a fork version, so with a domain that tells versions apart a vote of one network is not
one of the other. -/
theorem C72_networks_apart (e e' : Nat) :
    (mainnetForks.forkAt e).versionAt e ≠ (sepoliaForks.forkAt e').versionAt e' := by
  have h1 := versionAt_mem mainnetForks mainnet_ordered e
  have h2 := versionAt_mem sepoliaForks sepolia_ordered e'
  intro h
  rw [h] at h1
  have key : ∀ v ∈ sepoliaForks.genesisVersion :: sepoliaForks.forks.map (·.1),
      v ∉ mainnetForks.genesisVersion :: mainnetForks.forks.map (·.1) := by decide
  exact key _ h2 h1

/-! ## Examples: an accepted mainnet input across the start of Fulu -/

/-- The signing root of the consensus specification, over the toy hash function. -/
def nxSign : AttestationData → Bytes → Root := Signing.signingRoot toyHash

def nxSpec : ChainSpec := mainnetSpec nxSign

/-- With three validators and 32 slots, the committees of slots 10, 21 and 31 have one member each. -/
def nxVote (version : Bytes) (slot : Nat) (source target : Checkpoint) (i : Nat) : Attestation :=
  let data : AttestationData := ⟨slot, 0, List.replicate 32 0, source, target⟩
  .electra ⟨[true], data, true :: List.replicate 63 false,
    padSig (nxSign data (exExt.computeDomain version (exRoot32 77)) ++ [UInt8.ofNat (100 + i)])⟩

def nxC (k : Nat) : Checkpoint := ⟨411380 + k, exRoot32 (UInt8.ofNat k)⟩

def nxVotes : List Attestation :=
  [nxVote [5, 0, 0, 0] (411391 * 32 + 10) (nxC 9) (nxC 11) 0, nxVote [5, 0, 0, 0] (411391 * 32 + 21) (nxC 9) (nxC 11) 1,
   nxVote [5, 0, 0, 0] (411391 * 32 + 31) (nxC 9) (nxC 11) 2,
   nxVote [6, 0, 0, 0] (411392 * 32 + 10) (nxC 11) (nxC 12) 0, nxVote [6, 0, 0, 0] (411392 * 32 + 21) (nxC 11) (nxC 12) 1,
   nxVote [6, 0, 0, 0] (411392 * 32 + 31) (nxC 11) (nxC 12) 2]

def nxReader : Reader where
  spec := nxSpec
  genesisValidatorsRoot := .ok (exRoot32 77)
  fork := fun e => .ok (nxSpec.forkAtEpoch e)
  activeValidators := fun _ => .ok ((List.range 3).map (fun i => (i, ⟨exKey i, 32000000000, false, 0, 0, u64Max⟩)))
  randaoMix := fun _ _ => .ok (some (exRoot32 1))
  attestations := .ok nxVotes
  consensusState := .ok ⟨nxC 9, nxC 8⟩
  slotForBlock := fun _ => .ok (411391 * 32)

set_option maxRecDepth 100000 in
theorem nxReader_verifies : verify exExt Config.default nxReader = .ok (⟨nxC 12, nxC 11⟩, 411391 * 32) := by
  decide +kernel

/-- The hypotheses of `C72_mainnet_votes` are met, by votes on both sides of the fork. -/
example : ∀ a ∈ nxVotes, 364032 ≤ a.data.target.epoch := fun a ha =>
  (C72_mainnet_votes exExt nxSign nxReader rfl (fun _ => rfl) _ _ nxReader_verifies _ rfl _ rfl a ha).1

set_option maxRecDepth 100000 in
/-- A vote of epoch 411392 signed under Electra's version is refused. -/
example : verify exExt Config.default { nxReader with
    attestations := .ok (nxVotes.take 3 ++ [nxVote [5, 0, 0, 0] (411392 * 32 + 10) (nxC 11) (nxC 12) 0] ++ nxVotes.drop 4) } =
      .err .invalidSignature := by
  decide +kernel

/-- The same on Sepolia, across the start of its Fulu. -/
def sxC (k : Nat) : Checkpoint := ⟨272628 + k, exRoot32 (UInt8.ofNat k)⟩

def sxVotes : List Attestation :=
  [nxVote [0x90, 0, 0, 0x74] (272639 * 32 + 10) (sxC 9) (sxC 11) 0, nxVote [0x90, 0, 0, 0x74] (272639 * 32 + 21) (sxC 9) (sxC 11) 1,
   nxVote [0x90, 0, 0, 0x74] (272639 * 32 + 31) (sxC 9) (sxC 11) 2,
   nxVote [0x90, 0, 0, 0x75] (272640 * 32 + 10) (sxC 11) (sxC 12) 0, nxVote [0x90, 0, 0, 0x75] (272640 * 32 + 21) (sxC 11) (sxC 12) 1,
   nxVote [0x90, 0, 0, 0x75] (272640 * 32 + 31) (sxC 11) (sxC 12) 2]

def sxReader : Reader where
  spec := sepoliaSpec nxSign
  genesisValidatorsRoot := .ok (exRoot32 77)
  fork := fun e => .ok ((sepoliaSpec nxSign).forkAtEpoch e)
  activeValidators := nxReader.activeValidators
  randaoMix := nxReader.randaoMix
  attestations := .ok sxVotes
  consensusState := .ok ⟨sxC 9, sxC 8⟩
  slotForBlock := fun _ => .ok (272639 * 32)

set_option maxRecDepth 100000 in
theorem sxReader_verifies : verify exExt Config.sepolia sxReader = .ok (⟨sxC 12, sxC 11⟩, 272639 * 32) := by
  decide +kernel

example : ∀ a ∈ sxVotes, 222464 ≤ a.data.target.epoch := fun a ha =>
  (C72_sepolia_votes exExt nxSign sxReader rfl (fun _ => rfl) _ _ sxReader_verifies _ rfl _ rfl a ha).1

/-- The guest of either network accepts a complete input with votes on both sides of the start of Fulu. -/
theorem Net.input_runs {ε : Type} {n : Net} (h : n.Shipped) : (guestEntry exExt n.spec n.cfg n.input : Res ε Bytes) =
    .ok (Abi.encodeJournal ⟨n.justified, n.trusted⟩ ⟨n.first, n.last⟩ ((n.fuluEpoch - 1) * 32)) := by
  unfold guestEntry
  rw [Net.input_reader h]
  simp only [Res.unwrap, Res.ok_bind, Net.reader_verifies h]
  rfl

/-- The hypotheses of `C72_guest_mainnet` are met. -/
example : ∀ a ∈ Net.mainnet.votes, 364032 ≤ a.data.target.epoch := fun a ha =>
  (C72_guest_mainnet (ε := Unit) exExt Net.sign Net.mainnet.input _ (Net.input_runs (Or.inl rfl)) a ha).1

/-- The hypotheses of `C72_guest_sepolia` are met. -/
example : ∀ a ∈ Net.sepolia.votes, 222464 ≤ a.data.target.epoch := fun a ha =>
  (C72_guest_sepolia (ε := Unit) exExt Net.sign Net.sepolia.input _ (Net.input_runs (Or.inr rfl)) a ha).1

set_option maxRecDepth 100000 in
/-- The weight counts: with one vote fewer the link across the fork has 8 of 10 and mainnet's threshold is not met. -/
example : ¬ ∃ x, verify exExt Config.default
    { Net.mainnet.reader with attestations := Net.mainnet.votes.dropLast }.toReader = .ok x := by
  have h : (match verify exExt Config.default
      { Net.mainnet.reader with attestations := Net.mainnet.votes.dropLast }.toReader with
    | .ok _ => true
    | _ => false) = false := by decide +kernel
  rintro ⟨x, hx⟩
  rw [hx] at h
  cases h

example : InForce mainnetForks 364031 4 [4, 0, 0, 0] ∧ InForce mainnetForks 364032 5 [5, 0, 0, 0] ∧ InForce sepoliaForks 49 0 [0x90, 0, 0, 0x69] :=
  ⟨(C72_in_force _ _ mainnet_ordered _ _).2 (by decide), (C72_in_force _ _ mainnet_ordered _ _).2 (by decide),
    (C72_in_force _ _ sepolia_ordered _ _).2 (by decide)⟩

/-- The schedule of the example chain. Its guest input meets the hypotheses of `C72_trusted_record`. -/
def exForks : ForkSchedule := ⟨[3, 0, 0, 0], [([4, 0, 0, 0], 0), ([5, 0, 0, 0], 3)]⟩

theorem exForks_ordered : Ordered exForks := by unfold Ordered exForks; decide

theorem exForks_forkAt : exSpec.forkAtEpoch = exForks.forkAt := by
  funext e
  refine (C72_record exForks e _).1 ?_
  have key : exForks.nameAt e = if e < 3 then 1 else 2 := by
    refine ((C72_in_force exForks e exForks_ordered _ (if e < 3 then [4, 0, 0, 0] else [5, 0, 0, 0])).1 ?_).1
    by_cases h : e < 3
    · simp only [h, if_true]
      exact ⟨.inr ⟨0, by omega, rfl, by omega⟩, fun v st hv => by cases hv; exact h⟩
    · simp only [h, if_false]
      exact ⟨.inr ⟨3, by omega, rfl, by omega⟩, fun v st hv => by cases hv⟩
  rw [key]
  by_cases h : e < 3
  · simp only [h, if_true, exSpec]
    exact .inr ⟨by omega, rfl, .inl ⟨rfl, rfl⟩⟩
  · simp only [h, if_false, exSpec]
    exact .inr ⟨by omega, rfl, .inr ⟨0, by omega, rfl⟩⟩

example : ∃ state n version, extractBeaconState gxInput.beaconState = .ok state ∧ InForce exForks (state.slot / 4) n version ∧
    RecordOf exForks n state.fork :=
  C72_trusted_record exForks exExt exForks_ordered exSpec exForks_forkAt gxInput gxReader gxInput_reader

/-- Records on both sides of the start of Fulu, and of the base. -/
example : RecordOf mainnetForks 5 ⟨[4, 0, 0, 0], [5, 0, 0, 0], 364032⟩ ∧ RecordOf mainnetForks 6 ⟨[5, 0, 0, 0], [6, 0, 0, 0], 411392⟩ ∧
    RecordOf sepoliaForks 0 ⟨[0x90, 0, 0, 0x69], [0x90, 0, 0, 0x69], 0⟩ :=
  ⟨(C72_record mainnetForks 411391 _).2 (by decide), (C72_record mainnetForks 411392 _).2 (by decide),
    (C72_record sepoliaForks 49 _).2 (by decide)⟩

end Signal
