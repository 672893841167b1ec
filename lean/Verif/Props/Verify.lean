import Verif.Proofs.Verify
import Verif.Proofs.Example
import Verif.Props.Committee

/-!
# C09–C21: what a successful `verify` guarantees

All theorems quantify over every external function (hash, shuffle, signature check, …), every
configuration and every input reader.
-/

namespace Signal
open Spec

theorem blocks_of_run {X : Ext} {cfg : Config} {R : Reader} {t : Checkpoint} {s s' : ConsensusState}
    {atts : List Attestation} (h : verifyLoop X cfg R t s (chunkBy linkOf atts) = .ok s') :
    Blocks atts ((chunkBy linkOf atts).map (·.1)) := by
  refine ⟨groups_nodup h, ?_, ?_⟩
  · intro l hl
    obtain ⟨⟨k, g⟩, h1, rfl⟩ := List.mem_map.1 hl
    obtain ⟨hne, hk⟩ := chunkBy_key h1
    obtain ⟨a, ha⟩ := List.exists_mem_of_ne_nil g hne
    refine ⟨a, ?_, hk a ha⟩
    rw [← chunkBy_flatten (key := linkOf) atts]
    exact List.mem_flatMap.2 ⟨_, h1, ha⟩
  · conv_lhs => rw [← chunkBy_flatten (key := linkOf) atts]
    rw [List.flatMap_map]
    apply List.flatMap_congr
    rintro ⟨l, g⟩ hg
    exact group_of_link h hg

/-- **C09.** A successful verification finalizes exactly once, with its last link: the input is a
sequence of blocks of votes for `links`; before each of the links the finalized checkpoint is the initial
one, and after the last link it is a different one. -/
theorem C09_exactly_one_finalization (X : Ext) (cfg : Config) (R : Reader) (post : ConsensusState)
    (slot : Nat) (h : verify X cfg R = .ok (post, slot)) :
    ∃ pre atts links, R.consensusState = .ok pre ∧ R.attestations = .ok atts ∧ Blocks atts links ∧
      Run pre links post ∧ post.finalized ≠ pre.finalized ∧ links ≠ [] ∧
      ∀ before l after, links = before ++ l :: after →
        ∃ s s', Run pre before s ∧ s.finalized = pre.finalized ∧ Step s l s' ∧ Run s' after post := by
  obtain ⟨pre, atts, h1, h2, h3, h4, _⟩ := verify_ok h
  refine ⟨pre, atts, _, h1, h2, blocks_of_run h3, verifyLoop_run h3, h4, ?_, ?_⟩
  · intro h0
    rw [List.map_eq_nil_iff] at h0
    rw [h0, verifyLoop_nil] at h3
    rw [h3] at h4; exact h4 rfl
  · have key : ∀ (t : Checkpoint) (gs : List (Link × List Attestation)) (before : List Link)
        (s₀ : ConsensusState), verifyLoop X cfg R t s₀ gs = .ok post →
        ∀ l after, gs.map (·.1) = before ++ l :: after →
        ∃ s s', Run s₀ before s ∧ s.finalized = t ∧ Step s l s' ∧ Run s' after post := by
      intro t gs before
      induction before generalizing gs with
      | nil =>
        intro s₀ h3 l after hs
        cases gs with
        | nil => simp at hs
        | cons p gs =>
          obtain ⟨l', g⟩ := p
          simp only [List.map_cons, List.nil_append, List.cons.injEq] at hs
          obtain ⟨rfl, rfl⟩ := hs
          obtain ⟨s₁, h5, h6⟩ := verifyLoop_cons.1 h3
          obtain ⟨g1, _, g3, _⟩ := processGroup_justifies h5
          exact ⟨s₀, s₁, .nil _, g1, g3, verifyLoop_run h6⟩
      | cons b before ih =>
        intro s₀ h3 l after hs
        cases gs with
        | nil => simp at hs
        | cons p gs =>
          obtain ⟨l', g⟩ := p
          simp only [List.map_cons, List.cons_append, List.cons.injEq] at hs
          obtain ⟨rfl, hs⟩ := hs
          obtain ⟨s₁, h5, h6⟩ := verifyLoop_cons.1 h3
          obtain ⟨_, _, g3, _⟩ := processGroup_justifies h5
          obtain ⟨s, s', k1, k2, k3, k4⟩ := ih gs s₁ h6 l after hs
          exact ⟨s, s', .cons g3 k1, k2, k3, k4⟩
    intro before l after hs
    exact key _ _ before pre h3 l after hs

/-- **C11.** A successful verification is an Atomic Finalization from the justified checkpoint of the
initial state: consecutive supermajority links, in the order of the input, all but the last skipping an
epoch, the last one spanning exactly one. The only exception is the all-zero initial state, where one
additional first link to epoch 1 may come before (it would "finalize" the genesis checkpoint that already
is finalized). -/
theorem C11_atomic_finalization (X : Ext) (cfg : Config) (R : Reader) (post : ConsensusState)
    (slot : Nat) (h : verify X cfg R = .ok (post, slot)) :
    ∃ pre atts links, R.consensusState = .ok pre ∧ R.attestations = .ok atts ∧ Blocks atts links ∧
      (AtomicFinalization pre.currentJustified links (post.finalized, post.currentJustified) ∨
        pre = ⟨⟨0, List.replicate 32 0⟩, ⟨0, List.replicate 32 0⟩⟩ ∧
          ∃ b links', b.epoch = 1 ∧ links = ⟨pre.currentJustified, b⟩ :: links' ∧
            AtomicFinalization b links' (post.finalized, post.currentJustified)) := by
  obtain ⟨pre, atts, h1, h2, h3, h4, _⟩ := verify_ok h
  refine ⟨pre, atts, _, h1, h2, blocks_of_run h3, ?_⟩
  by_cases hz : pre = ConsensusState.zero
  · generalize chunkBy linkOf atts = gs at h3
    cases gs with
    | nil => rw [verifyLoop_nil] at h3; rw [h3] at h4; exact absurd rfl h4
    | cons p gs =>
      obtain ⟨l, as⟩ := p
      obtain ⟨s₁, h5, h6⟩ := verifyLoop_cons.1 h3
      obtain ⟨_, hv, hstep, _⟩ := processGroup_justifies h5
      cases hstep with
      | justify c f b hb =>
        left
        exact .skip _ _ _ _ hb (verifyLoop_atomic h6 rfl h4 (by
          intro h0; simp only [ConsensusState.zero, ConsensusState.mk.injEq] at h0
          rw [h0.1] at hb; simp [Checkpoint.zero] at hb))
      | finalize c f b hb =>
        simp only [ConsensusState.zero, ConsensusState.mk.injEq] at hz
        obtain ⟨rfl, rfl⟩ := hz
        right
        refine ⟨rfl, b, gs.map (·.1), by simpa [Checkpoint.zero] using hb, rfl, ?_⟩
        exact verifyLoop_atomic h6 rfl h4 (by
          intro h0; simp only [ConsensusState.zero, ConsensusState.mk.injEq] at h0
          rw [h0.1] at hb; simp [Checkpoint.zero] at hb)
  · left
    exact verifyLoop_atomic h3 rfl h4 hz

theorem Spec.AtomicFinalization.epochs {c ls out} (h : AtomicFinalization c ls out) :
    c.epoch ≤ out.1.epoch ∧ out.2.epoch = out.1.epoch + 1 := by
  induction h with
  | last c b h => exact ⟨le_refl _, h⟩
  | skip c b links out h _ ih => exact ⟨by omega, ih.2⟩

/-- **C10.** A successful verification strictly advances. -/
theorem C10_strictly_advances (X : Ext) (cfg : Config) (R : Reader) (post : ConsensusState)
    (slot : Nat) (h : verify X cfg R = .ok (post, slot)) :
    ∃ pre, R.consensusState = .ok pre ∧ ValidState pre ∧ ValidState post ∧
      pre.finalized.epoch < post.finalized.epoch ∧
      pre.currentJustified.epoch ≤ post.finalized.epoch ∧
      post.currentJustified.epoch = post.finalized.epoch + 1 := by
  obtain ⟨pre, atts, h1, h2, h3, h4, _⟩ := verify_ok h
  have hv := verify_pre_valid h3 (by rintro rfl; exact h4 rfl)
  refine ⟨pre, h1, hv, (verifyLoop_run h3).valid hv, ?_⟩
  obtain ⟨pre', _, _, h1', _, _, ha⟩ := C11_atomic_finalization X cfg R post slot h
  rw [h1] at h1'; cases h1'
  have hkey : pre.currentJustified.epoch ≤ post.finalized.epoch ∧
      post.currentJustified.epoch = post.finalized.epoch + 1 ∧
      (pre = ConsensusState.zero → post.finalized.epoch ≠ 0) := by
    rcases ha with ha | ⟨hz, b, links', hb, _, ha⟩
    · refine ⟨ha.epochs.1, ha.epochs.2, ?_⟩
      rintro hz h0
      generalize hout : (post.finalized, post.currentJustified) = out at ha
      cases ha with
      | last b h =>
        simp only [Prod.mk.injEq] at hout
        rw [hout.1, hz] at h4; exact h4 rfl
      | @skip _ _ _ _ hs rest =>
        have := rest.epochs.1
        rw [← hout] at this
        simp only at this
        omega
    · have := ha.epochs
      simp only at this
      rw [hz]
      exact ⟨by simp only; omega, this.2, fun _ => by omega⟩
  refine ⟨?_, hkey.1, hkey.2.1⟩
  rcases hv with hv | hv
  · omega
  · have := hkey.2.2 hv
    rw [hv]; simp only; omega

/-- **C12, C14, C16, C17, C18** in one: every link voted for anywhere in the input is justified by the
votes of the input for it, and the signers of each vote are those selected by its bits over the committees
of the shuffled active set. -/
theorem verify_justifies (X : Ext) (cfg : Config) (R : Reader) (post : ConsensusState) (slot : Nat)
    (h : verify X cfg R = .ok (post, slot)) (pre : ConsensusState) (hpre : R.consensusState = .ok pre)
    (atts : List Attestation) (hatts : R.attestations = .ok atts) (a : Attestation) (ha : a ∈ atts) :
    ∃ active signers voters,
      Justifies X cfg R pre.finalized (linkOf a)
        (atts.filter (fun b => decide (linkOf b = linkOf a))) active signers voters ∧
      ∃ seed sh, R.getSeed X (linkOf a).target.epoch R.spec.domainBeaconAttester = .ok seed ∧
        X.shuffleList active.keys R.spec.shuffleRoundCount seed = some sh ∧
        let perSlot := max 1 (min R.spec.maxCommitteesPerSlot
          (active.length / R.spec.slotsPerEpoch / R.spec.targetCommitteeSize))
        NoUsizeWrap X.usizeMod sh.length perSlot R.spec.slotsPerEpoch →
          ∀ b ∈ atts, linkOf b = linkOf a → SelectedBy sh perSlot R.spec.slotsPerEpoch b (signers b) := by
  obtain ⟨pre', atts', h1, h2, h3, h4, _⟩ := verify_ok h
  rw [hpre] at h1; cases h1
  rw [hatts] at h2; cases h2
  obtain ⟨g, hg, hag⟩ := exists_group ha
  obtain ⟨s₁, s₂, hp⟩ := verifyLoop_mem h3 _ hg
  rw [group_of_link h3 hg] at hp
  obtain ⟨_, _, _, active, signers, voters, hj, seed, sh, hs1, hs2, hsel⟩ := processGroup_justifies hp
  refine ⟨active, signers, voters, hj, seed, sh, hs1, hs2, ?_⟩
  intro perSlot hw b hb hbl e he
  obtain ⟨c, hc, hi⟩ := hsel b (List.mem_filter.2 ⟨hb, by simpa using hbl⟩) hw e he
  have := (C22_attesting_indices_partial X R.spec seed active.keys sh perSlot _ c hc hs2 hw e (signers b)).1 hi
  exact ⟨this.2.1, this.2.2.2⟩

/-- **C12.** Every link meets the configured supermajority, counted over distinct unslashed voters and
compared exactly. -/
theorem C12_supermajority (X : Ext) (cfg : Config) (R : Reader) (post : ConsensusState) (slot : Nat)
    (h : verify X cfg R = .ok (post, slot)) (atts : List Attestation)
    (hatts : R.attestations = .ok atts) (a : Attestation) (ha : a ∈ atts) :
    ∃ l voters, R.activeValidators a.data.target.epoch = .ok l ∧ voters.Nodup ∧
      (∀ i ∈ voters, (∃ v, (OMap.ofList l).get? i = some v ∧ v.slashed = false) ∧
        ∃ b ∈ atts, linkOf b = linkOf a ∧ ∃ signers, i ∈ signers ∧
          Vote X R (OMap.ofList l) b signers) ∧
      floored R.spec (totalWeight (OMap.ofList l)) * cfg.justificationThresholdFactor ≤
        floored R.spec (weight (OMap.ofList l) voters) * cfg.justificationThresholdQuotient := by
  obtain ⟨pre, _, h1, _⟩ := verify_ok h
  obtain ⟨active, signers, voters, hj, _⟩ := verify_justifies X cfg R post slot h pre h1 atts hatts a ha
  obtain ⟨l, hl, rfl⟩ := hj.active_set
  refine ⟨l, voters, hl, hj.voters_nodup, ?_, hj.threshold⟩
  intro i hi
  obtain ⟨⟨b, hb, hib⟩, hun⟩ := (hj.voters_iff i).1 hi
  obtain ⟨hb1, hb2⟩ := List.mem_filter.1 hb
  exact ⟨hun, b, hb1, by simpa using hb2, signers b, hib, hj.votes b hb⟩

/-- **C13.** Every link has two thirds, whatever the configuration. Missing: the balances are floored at one increment, as in the code; for
smaller balances the plain statement is false (`C13_fails_below_floor`). -/
theorem C13_two_thirds_partial (X : Ext) (cfg : Config) (R : Reader) (post : ConsensusState) (slot : Nat)
    (h : verify X cfg R = .ok (post, slot)) (atts : List Attestation)
    (hatts : R.attestations = .ok atts) (a : Attestation) (ha : a ∈ atts) :
    ∃ l voters, R.activeValidators a.data.target.epoch = .ok l ∧ voters.Nodup ∧
      (∀ i ∈ voters, (∃ v, (OMap.ofList l).get? i = some v ∧ v.slashed = false) ∧
        ∃ b ∈ atts, linkOf b = linkOf a ∧ ∃ signers, i ∈ signers ∧
          Vote X R (OMap.ofList l) b signers) ∧
      2 * floored R.spec (totalWeight (OMap.ofList l)) ≤
        3 * floored R.spec (weight (OMap.ofList l) voters) := by
  obtain ⟨pre, _, h1, _⟩ := verify_ok h
  obtain ⟨active, signers, voters, hj, _⟩ := verify_justifies X cfg R post slot h pre h1 atts hatts a ha
  obtain ⟨l, hl, rfl⟩ := hj.active_set
  refine ⟨l, voters, hl, hj.voters_nodup, ?_, hj.two_thirds⟩
  intro i hi
  obtain ⟨⟨b, hb, hib⟩, hun⟩ := (hj.voters_iff i).1 hi
  obtain ⟨hb1, hb2⟩ := List.mem_filter.1 hb
  exact ⟨hun, b, hb1, by simpa using hb2, signers b, hib, hj.votes b hb⟩

/-- **C13.** With a configured threshold of at least two thirds the hard-coded check never fires: it
follows from the configured one. -/
theorem C13_check_redundant (cfg : Config) (w T : Nat) (hq : 0 < cfg.justificationThresholdQuotient)
    (hc : 2 * cfg.justificationThresholdQuotient ≤ 3 * cfg.justificationThresholdFactor)
    (h : checkThreshold cfg w T = .ok ()) : 2 * T ≤ 3 * w := by
  rw [checkThreshold_ok_iff] at h
  have h1 : T * (2 * cfg.justificationThresholdQuotient) ≤ T * (3 * cfg.justificationThresholdFactor) :=
    Nat.mul_le_mul_left _ hc
  have h2 : (2 * T) * cfg.justificationThresholdQuotient ≤ (3 * w) * cfg.justificationThresholdQuotient := by
    calc (2 * T) * cfg.justificationThresholdQuotient
        = T * (2 * cfg.justificationThresholdQuotient) := by ring
      _ ≤ T * (3 * cfg.justificationThresholdFactor) := h1
      _ = 3 * (T * cfg.justificationThresholdFactor) := by ring
      _ ≤ 3 * (w * cfg.justificationThresholdQuotient) := Nat.mul_le_mul_left _ h
      _ = (3 * w) * cfg.justificationThresholdQuotient := by ring
  exact Nat.le_of_mul_le_mul_right h2 hq

/-- Both shipped configurations are above two thirds. -/
theorem C13_shipped_configs :
    ∀ cfg ∈ [Config.default, Config.sepolia], 0 < cfg.justificationThresholdQuotient ∧
      2 * cfg.justificationThresholdQuotient ≤ 3 * cfg.justificationThresholdFactor := by
  intro cfg h
  simp only [List.mem_cons, List.not_mem_nil, or_false] at h
  rcases h with rfl | rfl <;> decide

/-- **C14.** Counted votes are real votes, and their signers are exactly those selected by the bits over
the committees of the specification (the latter as long as committee positions fit in `usize`). -/
theorem C14_counted_votes_are_real_partial (X : Ext) (cfg : Config) (R : Reader) (post : ConsensusState)
    (slot : Nat) (h : verify X cfg R = .ok (post, slot)) (pre : ConsensusState)
    (hpre : R.consensusState = .ok pre) (atts : List Attestation)
    (hatts : R.attestations = .ok atts) (a : Attestation) (ha : a ∈ atts) :
    ∃ l signers seed sh, R.activeValidators a.data.target.epoch = .ok l ∧
      Vote X R (OMap.ofList l) a signers ∧
      R.getSeed X a.data.target.epoch R.spec.domainBeaconAttester = .ok seed ∧
      X.shuffleList (OMap.ofList l).keys R.spec.shuffleRoundCount seed = some sh ∧
      let perSlot := max 1 (min R.spec.maxCommitteesPerSlot
        ((OMap.ofList l).length / R.spec.slotsPerEpoch / R.spec.targetCommitteeSize))
      (NoUsizeWrap X.usizeMod sh.length perSlot R.spec.slotsPerEpoch →
        SelectedBy sh perSlot R.spec.slotsPerEpoch a signers) := by
  obtain ⟨active, signers, voters, hj, seed, sh, h1, h2, h3⟩ :=
    verify_justifies X cfg R post slot h pre hpre atts hatts a ha
  obtain ⟨l, hl, rfl⟩ := hj.active_set
  exact ⟨l, signers a, seed, sh, hl, hj.votes a (List.mem_filter.2 ⟨ha, by simp⟩), h1, h2,
    fun hw => h3 hw a ha rfl⟩

/-- **C16.** The voters counted for a link are exactly its unslashed signers, while the total they
are compared with includes every active validator, slashed or not. -/
theorem C16_slashed_not_counted (X : Ext) (cfg : Config) (R : Reader) (post : ConsensusState) (slot : Nat)
    (h : verify X cfg R = .ok (post, slot)) (atts : List Attestation)
    (hatts : R.attestations = .ok atts) (a : Attestation) (ha : a ∈ atts) :
    ∃ l, ∃ signers : Attestation → List Nat, ∃ voters,
      R.activeValidators a.data.target.epoch = .ok l ∧ voters.Nodup ∧
      (∀ b ∈ atts, linkOf b = linkOf a → Vote X R (OMap.ofList l) b (signers b)) ∧
      (∀ i, i ∈ voters ↔ (∃ b ∈ atts, linkOf b = linkOf a ∧ i ∈ signers b) ∧
        ∃ v, (OMap.ofList l).get? i = some v ∧ v.slashed = false) ∧
      floored R.spec ((OMap.ofList l).map (·.2.effectiveBalance)).sum * cfg.justificationThresholdFactor ≤
        floored R.spec (weight (OMap.ofList l) voters) * cfg.justificationThresholdQuotient := by
  obtain ⟨pre, _, h1, _⟩ := verify_ok h
  obtain ⟨active, signers, voters, hj, _⟩ := verify_justifies X cfg R post slot h pre h1 atts hatts a ha
  obtain ⟨l, hl, rfl⟩ := hj.active_set
  refine ⟨l, signers, voters, hl, hj.voters_nodup, ?_, ?_, hj.threshold⟩
  · intro b hb hbl
    exact hj.votes b (List.mem_filter.2 ⟨hb, by simpa using hbl⟩)
  · intro i
    rw [hj.voters_iff i]
    simp only [List.mem_filter, decide_eq_true_eq, and_assoc]

/-- **C17.** Nothing is skipped: one attestation that is not a genuine vote of active validators makes
`verify` fail. -/
theorem C17_bad_attestation_rejects (X : Ext) (cfg : Config) (R : Reader) (atts : List Attestation)
    (hatts : R.attestations = .ok atts) (a : Attestation) (ha : a ∈ atts)
    (hbad : ¬ ∃ l signers, R.activeValidators a.data.target.epoch = .ok l ∧
      Vote X R (OMap.ofList l) a signers) :
    ∀ r, verify X cfg R ≠ .ok r := by
  rintro ⟨post, slot⟩ h
  obtain ⟨pre, _, h1, _⟩ := verify_ok h
  obtain ⟨l, signers, _, _, h2, h3, _⟩ :=
    C14_counted_votes_are_real_partial X cfg R post slot h pre h1 atts hatts a ha
  exact hbad ⟨l, signers, h2, h3⟩

/-- **C17.** The single causes, spelled out. -/
theorem C17_causes (X : Ext) (cfg : Config) (R : Reader) (atts : List Attestation)
    (hatts : R.attestations = .ok atts) (a : Attestation) (ha : a ∈ atts)
    (hbad : (∀ e, a ≠ .electra e) ∨
      a.data.slot / R.spec.slotsPerEpoch ≠ a.data.target.epoch ∨
      a.data.index ≠ 0 ∨
      (∀ e root fork keys, a = .electra e → R.genesisValidatorsRoot = .ok root →
        R.fork e.data.target.epoch = .ok fork →
        X.fastAggregateVerify e.signature (R.spec.signingRoot e.data (X.computeDomain
          (if e.data.target.epoch < fork.epoch then fork.previousVersion else fork.currentVersion) root))
          keys = false)) :
    ∀ r, verify X cfg R ≠ .ok r := by
  apply C17_bad_attestation_rejects X cfg R atts hatts a ha
  rintro ⟨l, signers, _, hv⟩
  obtain ⟨e, rfl, _, hslot, hidx, fork, root, hf, hr, hsig⟩ := hv.electra
  rcases hbad with hb | hb | hb | hb
  · exact hb e rfl
  · exact hb hslot
  · exact hb hidx
  · rw [hb e root fork _ rfl hr hf] at hsig; cases hsig

/-- **C18.** Accepted links stay inside the lookahead window and the supported forks. -/
theorem C18_window_and_forks (X : Ext) (cfg : Config) (R : Reader) (post : ConsensusState) (slot : Nat)
    (h : verify X cfg R = .ok (post, slot)) (pre : ConsensusState) (hpre : R.consensusState = .ok pre)
    (atts : List Attestation) (hatts : R.attestations = .ok atts) (a : Attestation) (ha : a ∈ atts) :
    a.data.target.epoch ≤ pre.finalized.epoch + cfg.epochLookaheadLimit ∧
    cfg.minVersion ≤ R.spec.forkNameAtEpoch a.data.target.epoch ∧
    R.spec.forkNameAtEpoch a.data.target.epoch ≤ cfg.maxVersion := by
  obtain ⟨active, signers, voters, hj, _⟩ := verify_justifies X cfg R post slot h pre hpre atts hatts a ha
  exact ⟨hj.lookahead, hj.fork_supported⟩

/-- **C18.** Hence also the resulting justified and finalized epochs. -/
theorem C18_result_in_window (X : Ext) (cfg : Config) (R : Reader) (post : ConsensusState) (slot : Nat)
    (h : verify X cfg R = .ok (post, slot)) (pre : ConsensusState) (hpre : R.consensusState = .ok pre) :
    post.currentJustified.epoch ≤ pre.finalized.epoch + cfg.epochLookaheadLimit := by
  obtain ⟨pre', atts, links, h1, h2, hb, hr, hne, _⟩ := C09_exactly_one_finalization X cfg R post slot h
  rw [hpre] at h1; cases h1
  have hlast : ∀ {s ls s'}, Run s ls s' → s = s' ∨ ∃ l ∈ ls, l.target = s'.currentJustified := by
    intro s ls s' hr
    induction hr with
    | nil => left; rfl
    | cons hs _ ih =>
      right
      rcases ih with ih | ⟨l, hl, hl'⟩
      · subst ih; exact ⟨_, by simp, hs.target.1.symm⟩
      · exact ⟨l, by simp [hl], hl'⟩
  rcases hlast hr with hr | ⟨l, hl, hl'⟩
  · rw [hr] at hne; exact absurd rfl hne
  · obtain ⟨a, ha, rfl⟩ := hb.nonempty l hl
    rw [← hl']
    exact (C18_window_and_forks X cfg R post slot h pre hpre atts h2 a ha).1

theorem Spec.AtomicFinalization.length {c ls out} (h : AtomicFinalization c ls out) :
    c.epoch + 2 * ls.length ≤ out.2.epoch + 1 := by
  induction h with
  | last c b h => simp only [List.length_singleton]; omega
  | skip c b links out h _ ih => simp only [List.length_cons]; omega

/-- **C18.** The number of links: at most half of the lookahead limit. Only from the all-zero state there can be one more. -/
theorem C18_link_count (X : Ext) (cfg : Config) (R : Reader) (post : ConsensusState) (slot : Nat)
    (h : verify X cfg R = .ok (post, slot)) (pre : ConsensusState) (hpre : R.consensusState = .ok pre)
    (atts : List Attestation) (hatts : R.attestations = .ok atts) :
    ∃ links, Blocks atts links ∧ 2 * links.length ≤ cfg.epochLookaheadLimit + 2 ∧
      (pre ≠ ⟨⟨0, List.replicate 32 0⟩, ⟨0, List.replicate 32 0⟩⟩ → 2 * links.length ≤ cfg.epochLookaheadLimit) := by
  have hw := C18_result_in_window X cfg R post slot h pre hpre
  obtain ⟨pre', atts', links, h1, h2, hb, hcase⟩ := C11_atomic_finalization X cfg R post slot h
  rw [hpre] at h1; cases h1
  rw [hatts] at h2; cases h2
  obtain ⟨pre'', h1, hv, -⟩ := C10_strictly_advances X cfg R post slot h
  rw [hpre] at h1; cases h1
  have hj : pre.finalized.epoch ≤ pre.currentJustified.epoch := by
    rcases hv with hv | hv
    · exact Nat.le_of_lt hv
    · rw [hv]
  refine ⟨links, hb, ?_⟩
  rcases hcase with ha | ⟨hz, b, links', hb1, rfl, ha⟩
  · have hl := ha.length
    dsimp only at hl
    refine ⟨by omega, fun hne => ?_⟩
    have hlt : pre.finalized.epoch < pre.currentJustified.epoch := hv.resolve_right hne
    omega
  · have hl := ha.length
    dsimp only at hl
    have : pre.finalized.epoch = 0 := by rw [hz]
    exact ⟨by rw [List.length_cons]; omega, fun hne => absurd hz hne⟩

/-- **C19.** In an accepted input the votes for each link are contiguous, the links are distinct and
their target epochs strictly increase along the input. -/
theorem C19_links_contiguous (X : Ext) (cfg : Config) (R : Reader) (post : ConsensusState) (slot : Nat)
    (h : verify X cfg R = .ok (post, slot)) (atts : List Attestation)
    (hatts : R.attestations = .ok atts) :
    (∃ links, Blocks atts links) ∧
    atts.Pairwise (fun a b => linkOf a = linkOf b ∨ a.data.target.epoch < b.data.target.epoch) := by
  obtain ⟨pre, atts', h1, h2, h3, _⟩ := verify_ok h
  rw [hatts] at h2; cases h2
  refine ⟨⟨_, blocks_of_run h3⟩, ?_⟩
  have hp := (verifyLoop_run h3).targets_lt.2
  rw [List.pairwise_map] at hp
  rw [← chunkBy_flatten (key := linkOf) atts, List.flatMap_def, List.pairwise_flatten]
  constructor
  · intro g hg
    obtain ⟨⟨l, g'⟩, hg', rfl⟩ := List.mem_map.1 hg
    refine List.pairwise_of_forall_mem_list ?_
    intro a ha b hb
    left
    rw [(chunkBy_key hg').2 a ha, (chunkBy_key hg').2 b hb]
  · rw [List.pairwise_map]
    refine List.Pairwise.imp_of_mem ?_ hp
    rintro ⟨l, g⟩ ⟨l', g'⟩ hg hg' hlt a ha b hb
    right
    have e1 := (chunkBy_key hg).2 a ha
    have e2 := (chunkBy_key hg').2 b hb
    simp only at hlt
    rw [← e1, ← e2] at hlt
    exact hlt

/-- **C20.** A total balance is the exact sum, floored at one increment; it is an overflow error exactly
if the sum does not fit in `u64`, and never aborts. -/
theorem C20_total_balance_exact (spec : ChainSpec) (vs : List ValidatorInfo) :
    getTotalBalance spec vs =
      if (vs.map (·.effectiveBalance)).sum < 2 ^ 64 then
        .ok (max (vs.map (·.effectiveBalance)).sum spec.effectiveBalanceIncrement)
      else .err .overflow := by
  split
  · rename_i h; exact getTotalBalance_ok_iff.2 ⟨h, rfl⟩
  · rename_i h
    rcases getTotalBalance_cases spec vs with ⟨r, hr⟩ | hr
    · exact absurd (getTotalBalance_ok_iff.1 hr).1 h
    · exact hr

/-- **C20.** The threshold comparison is the exact comparison of `w / T` with `factor / quotient`, without
overflow or rounding. If it fails, `w` and the threshold are reported; a configuration with quotient 0 (there
is none among the shipped ones) aborts instead, because the reported threshold divides by it. -/
theorem C20_threshold_exact (cfg : Config) (w T : Nat) :
    (checkThreshold cfg w T = .ok () ↔
      T * cfg.justificationThresholdFactor ≤ w * cfg.justificationThresholdQuotient) ∧
    (cfg.justificationThresholdQuotient ≠ 0 → checkThreshold cfg w T ≠ .ok () →
      ∃ t, checkThreshold cfg w T = .err (.thresholdNotMet w t)) ∧
    (cfg.justificationThresholdQuotient = 0 → checkThreshold cfg w T ≠ .ok () →
      checkThreshold cfg w T = .panic) := by
  refine ⟨checkThreshold_ok_iff, fun hq => ?_, fun hq => ?_⟩
  · unfold checkThreshold
    simp only
    split
    · simp
    · exact fun _ => ⟨_, rfl⟩
  · unfold checkThreshold
    simp only
    split
    · simp
    · exact fun _ => rfl

/-- **C21.** The outcome of a successful verification is determined by the initial state and the links
of the input: two successful runs that differ in anything else (RANDAO mixes, shuffle, hash, active sets,
configuration, signatures) end in the same state. -/
theorem C21_outcome_independent_of_shuffling (X X' : Ext) (cfg cfg' : Config) (R R' : Reader)
    (hs : R'.consensusState = R.consensusState) (ha : R'.attestations = R.attestations)
    (hb : R'.slotForBlock = R.slotForBlock) (r r' : ConsensusState × Nat)
    (h : verify X cfg R = .ok r) (h' : verify X' cfg' R' = .ok r') : r = r' := by
  obtain ⟨post, slot⟩ := r
  obtain ⟨post', slot'⟩ := r'
  obtain ⟨pre, atts, h1, h2, h3, _, h5⟩ := verify_ok h
  obtain ⟨pre', atts', h1', h2', h3', _, h5'⟩ := verify_ok h'
  rw [hs, h1] at h1'; cases h1'
  rw [ha, h2] at h2'; cases h2'
  have hdet : ∀ {s ls s₁ s₂}, Run s ls s₁ → Run s ls s₂ → s₁ = s₂ := by
    intro s ls s₁ s₂ r1 r2
    induction r1 with
    | nil => cases r2; rfl
    | cons a _ ih =>
      cases r2 with
      | cons b r2 => rw [a.det b] at ih; exact ih r2
  have := hdet (verifyLoop_run h3) (verifyLoop_run h3')
  subst this
  rw [hb, h5] at h5'
  cases h5'; rfl

/-- **C21.** In particular the guarantees on votes and thresholds hold whatever the RANDAO mixes and the
shuffle are: replacing both in an accepted run by anything else that is still accepted justifies the
same links by genuine votes. -/
theorem C21_guarantees_for_any_shuffling (X : Ext) (cfg : Config) (R : Reader)
    (shuffle : List Nat → Nat → Bytes → Option (List Nat))
    (mix : Nat → Nat → Res ReaderError (Option Root)) (post : ConsensusState) (slot : Nat)
    (h : verify { X with shuffleList := shuffle } cfg { R with randaoMix := mix } = .ok (post, slot))
    (pre : ConsensusState) (hpre : R.consensusState = .ok pre)
    (atts : List Attestation) (hatts : R.attestations = .ok atts) (a : Attestation) (ha : a ∈ atts) :
    ∃ active signers voters, Justifies X cfg R pre.finalized (linkOf a)
        (atts.filter (fun b => decide (linkOf b = linkOf a))) active signers voters := by
  obtain ⟨active, signers, voters, hj, _⟩ := verify_justifies { X with shuffleList := shuffle } cfg
    { R with randaoMix := mix } post slot h pre hpre atts hatts a ha
  refine ⟨active, signers, voters, hj.fork_supported, hj.lookahead, hj.active_set, ?_, hj.voters_nodup,
    hj.voters_iff, hj.threshold, hj.two_thirds⟩
  intro b hb
  obtain ⟨v1, v2, v3, v4⟩ := hj.votes b hb
  exact ⟨v1, v2, v3, v4⟩

end Signal
