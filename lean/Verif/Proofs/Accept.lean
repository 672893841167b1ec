import Verif.Spec.Accept
import Verif.Proofs.Verdict
import Verif.Props.VerifyOrder

/-! What an input must contain to be accepted: helper lemmas. -/

namespace Signal
open Spec

/-! ## Seeds and committees -/

theorem fillPositions_of {sh : List Nat} : ∀ {i : Nat} {pos : List (Option Nat)}, (∀ v ∈ sh, v < pos.length) →
    ∃ pos', fillPositions sh i pos = .ok pos' := by
  induction sh with
  | nil => intro i pos _; exact ⟨pos, rfl⟩
  | cons w sh ih =>
    intro i pos h
    obtain ⟨pos', h'⟩ := ih (i := i + 1) (pos := pos.set w (some (i + 1))) (by
      intro v hv; rw [List.length_set]; exact h v (by simp [hv]))
    exact ⟨pos', by simp only [fillPositions, Res.bind_eq_ok, ensure_eq_ok, decide_eq_true_eq]
                    exact ⟨(), h w (by simp), h'⟩⟩

theorem getSeed_ok_iff {X : Ext} {R : Reader} {e : Nat} {d seed : Bytes}
    (h1 : R.spec.minSeedLookahead < R.spec.epochsPerHistoricalVector)
    (h2 : R.spec.epochsPerHistoricalVector ≤ 2 ^ 32) (h3 : R.spec.epochsPerHistoricalVector ∣ X.usizeMod) :
    R.getSeed X e d = .ok seed ↔
      e + R.spec.epochsPerHistoricalVector < U64 ∧
      ∃ mix, R.randaoMix e
        ((e + R.spec.epochsPerHistoricalVector - R.spec.minSeedLookahead - 1) % R.spec.epochsPerHistoricalVector) =
          .ok (some mix) ∧ seed = X.sha256 (d ++ leBytes 8 e ++ mix) := by
  have hidx : ∀ n, n % X.usizeMod % R.spec.epochsPerHistoricalVector % 2 ^ 32 =
      n % R.spec.epochsPerHistoricalVector := by
    intro n
    rw [Nat.mod_mod_of_dvd _ h3, Nat.mod_eq_of_lt]
    exact lt_of_lt_of_le (Nat.mod_lt _ (by omega)) h2
  simp only [Reader.getSeed, Reader.getRandaoMix, Res.bind_eq_ok, Res.mapErr_eq_ok, safeAdd_eq_ok, safeSub_eq_ok,
    safeRem_eq_ok, Res.pure_eq, Res.ok.injEq, expect_eq_ok]
  constructor
  · rintro ⟨_, ⟨g1, rfl⟩, _, ⟨g2, rfl⟩, _, ⟨g3, rfl⟩, mix, ⟨_, ⟨g4, rfl⟩, m, g5, rfl⟩, rfl⟩
    rw [hidx] at g5
    exact ⟨g1, mix, g5, rfl⟩
  · rintro ⟨g1, mix, g2, rfl⟩
    refine ⟨_, ⟨g1, rfl⟩, _, ⟨by omega, rfl⟩, _, ⟨by omega, rfl⟩, mix, ⟨_, ⟨by omega, rfl⟩, some mix, ?_, rfl⟩, rfl⟩
    rw [hidx]
    exact g2

theorem max?_lt_iff {l : List Nat} {m b : Nat} (h : l.max? = some m) : m < b ↔ ∀ i ∈ l, i < b := by
  rw [List.max?_eq_some_iff] at h
  exact ⟨fun hm i hi => lt_of_le_of_lt (h.2 i hi) hm, fun h' => h' m h.1⟩

/-- The committees of a group exist exactly if the active set can be shuffled. -/
theorem computeCommittees_shuffled {X : Ext} {R : Reader} (hs : Setting X R) {active : OMap ValidatorInfo} {e : Nat}
    {c : CommitteeCache} (h : computeCommittees X R active e = .ok c) :
    Shuffled X R active e c.shuffling := by
  obtain ⟨seed, perSlot, h1, _, _, h4, rfl⟩ := computeCommittees_ok h
  obtain ⟨_, _, g3, _, _, _, m, g4, g5, _⟩ := initialized_ok h1
  rw [getSeed_ok_iff hs.lookahead hs.mixes hs.mixes_word] at h4
  obtain ⟨h4, mix, h5, rfl⟩ := h4
  refine ⟨h4, ?_, mix, h5, g3⟩
  intro i v hi
  have := (max?_lt_iff g4).1 g5 i (List.mem_map.2 ⟨_, hi, rfl⟩)
  omega

theorem computeCommittees_of_shuffled {X : Ext} {R : Reader} (hs : Setting X R) {active : OMap ValidatorInfo} {e : Nat}
    {sh : List Nat} (h0 : R.spec.slotsPerEpoch ≠ 0) (hne : active ≠ []) (h : Shuffled X R active e sh) :
    ∃ seed c, computeCommittees X R active e = .ok c ∧
      CommitteeCache.initialized X R.spec seed active.keys (committeesPerSlot R.spec active.length) e = .ok c ∧
      X.shuffleList active.keys R.spec.shuffleRoundCount seed = some sh := by
  obtain ⟨h1, h2, mix, h3, h4⟩ := h
  have hseed := (getSeed_ok_iff (d := R.spec.domainBeaconAttester) hs.lookahead hs.mixes hs.mixes_word).2
    ⟨h1, mix, h3, rfl⟩
  have hk : active.keys ≠ [] := by simpa [OMap.keys] using hne
  obtain ⟨m, hm⟩ : ∃ m, active.keys.max? = some m := by
    cases hm : active.keys.max? with
    | none => rw [List.max?_eq_none_iff] at hm; exact absurd hm hk
    | some m => exact ⟨m, rfl⟩
  have hb : m < X.usizeMod - 1 := by
    rw [max?_lt_iff hm]
    intro i hi
    obtain ⟨⟨j, v⟩, hj, rfl⟩ := List.mem_map.1 hi
    have := h2 j v hj
    dsimp only
    omega
  obtain ⟨pos, hpos⟩ := fillPositions_of (sh := sh) (i := 0) (pos := List.replicate (m + 1) none) (by
    intro v hv
    rw [List.length_replicate]
    have := (hs.shuffle _ _ _ h4).mem_iff.1 hv
    exact (max?_lt_iff hm).1 (Nat.lt_succ_self m) v this)
  have hcps : 0 < committeesPerSlot R.spec active.length := by
    unfold committeesPerSlot; exact lt_of_lt_of_le Nat.one_pos (le_max_left _ _)
  have hinit : CommitteeCache.initialized X R.spec (X.sha256 (R.spec.domainBeaconAttester ++ leBytes 8 e ++ mix))
      active.keys (committeesPerSlot R.spec active.length) e = .ok ⟨some e, sh, pos,
        committeesPerSlot R.spec active.length, R.spec.slotsPerEpoch⟩ := by
    simp only [CommitteeCache.initialized, Res.bind_eq_ok, ensure_eq_ok, okOr_eq_ok, Res.pure_eq, decide_eq_true_eq]
    exact ⟨(), hcps, m, hm, sh, h4, (), hb, pos, hpos, rfl⟩
  refine ⟨_, _, ?_, hinit, h4⟩
  simp only [computeCommittees, committeeCountPerSlot, Res.bind_eq_ok, Res.mapErr_eq_ok, safeDiv_eq_ok,
    Res.pure_eq, Res.ok.injEq]
  refine ⟨_, hseed, _, ⟨_, ⟨h0, rfl⟩, _, ⟨hs.committee_size, rfl⟩, rfl⟩, ?_⟩
  rw [← hinit]
  simp [OMap.keys, committeesPerSlot]

/-! ## One block -/

theorem shuffled_length {X : Ext} {R : Reader} (hs : Setting X R) {active : OMap ValidatorInfo} {seed : Bytes}
    {sh : List Nat} (h : X.shuffleList active.keys R.spec.shuffleRoundCount seed = some sh) :
    sh.length = active.length := by
  rw [(hs.shuffle _ _ _ h).length_eq]; simp [OMap.keys]

/-- The counted voters of a block, declaratively. -/
theorem countedVoters_iff {X : Ext} {R : Reader} (hs : Setting X R) {link : Link} {atts : List Attestation}
    (hne : atts ≠ []) (hk : ∀ a ∈ atts, linkOf a = link) {l : List (Nat × ValidatorInfo)}
    (hl : R.activeValidators link.target.epoch = .ok l) {v : List Nat} :
    CountedVoters X R link atts v ↔
      v.Pairwise (· < ·) ∧ ∃ (signers : Attestation → List Nat) (sh : List Nat), (∀ a ∈ atts, Vote X R (OMap.ofList l) a (signers a)) ∧
        (∀ i, i ∈ v ↔ (∃ a ∈ atts, i ∈ signers a) ∧ ∃ w, (OMap.ofList l).get? i = some w ∧ w.slashed = false) ∧
        Shuffled X R (OMap.ofList l) link.target.epoch sh ∧
        ∀ a ∈ atts, SelectedBy sh (committeesPerSlot R.spec (OMap.ofList l).length) R.spec.slotsPerEpoch a
          (signers a) := by
  have hw := hs.fits _ _ hl
  have hmem : ∀ f : Attestation → OSet, ∀ i, i ∈ unslashed (OMap.ofList l) (OSet.extend [] (atts.flatMap f)) ↔
      (∃ a ∈ atts, i ∈ f a) ∧ ∃ w, (OMap.ofList l).get? i = some w ∧ w.slashed = false := by
    intro f i
    rw [mem_unslashed, OSet.mem_extend]
    simp only [List.not_mem_nil, List.mem_flatMap, false_or]
  have hasc : ∀ f : Attestation → OSet,
      (unslashed (OMap.ofList l) (OSet.extend [] (atts.flatMap f))).Pairwise (· < ·) := by
    intro f
    exact List.Pairwise.filter _ (OSet.sorted_extend List.Pairwise.nil _)
  constructor
  · rintro ⟨l', c, f, h1, h2, h3, rfl⟩
    rw [hl] at h1; cases h1
    refine ⟨hasc f, f, c.shuffling, fun a ha => (processAttestation_ok_iff.1 (h3 a ha)).1, hmem f,
      computeCommittees_shuffled hs h2, ?_⟩
    intro a ha e he
    obtain ⟨_, e', he', hg⟩ := processAttestation_ok_iff.1 (h3 a ha)
    rw [he] at he'; cases he'
    obtain ⟨seed, perSlot, g1, _, _, _, rfl⟩ := computeCommittees_ok h2
    have g2 := (initialized_ok g1).2.2.1
    have := (C22_attesting_indices_partial X R.spec seed _ _ _ _ c g1 g2
      (by rw [shuffled_length hs g2]; exact hw) e (f a)).1 hg
    exact ⟨this.2.1, this.2.2.2⟩
  · rintro ⟨hv, signers, sh, h1, h2, h3, h4⟩
    obtain ⟨a₀, ha₀⟩ := List.exists_mem_of_ne_nil _ hne
    have h0 : R.spec.slotsPerEpoch ≠ 0 := by
      obtain ⟨e, _, h0, _⟩ := (h1 a₀ ha₀).electra
      exact h0
    have hact : OMap.ofList l ≠ [] := by
      obtain ⟨i, hi⟩ := List.exists_mem_of_ne_nil _ (h1 a₀ ha₀).signers_nonempty
      obtain ⟨w, hw⟩ := (h1 a₀ ha₀).signers_active i hi
      intro h; rw [h] at hw; simp [OMap.get?] at hw
    obtain ⟨seed, c, hc, hinit, hsh⟩ := computeCommittees_of_shuffled hs h0 hact h3
    refine ⟨l, c, signers, hl, hc, ?_, ?_⟩
    · intro a ha
      obtain ⟨e, rfl, _, hslot, _⟩ := (h1 a ha).electra
      refine processAttestation_ok_iff.2 ⟨h1 _ ha, e, rfl, ?_⟩
      obtain ⟨g1, g2⟩ := h4 _ ha e rfl
      refine (C22_attesting_indices_partial X R.spec seed _ _ _ _ c hinit hsh
        (by rw [shuffled_length hs hsh]; exact hw) e _).2 ⟨fun _ => ?_, g1, (h1 _ ha).signers_ascending, g2⟩
      rw [hslot, ← hk _ ha]; rfl
    · refine OSet.eq_of_mem_iff hv (hasc signers) ?_
      intro i
      rw [h2, hmem]

theorem weight_perm {m : OMap ValidatorInfo} {a b : List Nat} (h : a.Perm b) : weight m a = weight m b :=
  (h.map _).sum_nat

/-- One iteration, declaratively. -/
theorem processGroup_carries {X : Ext} {cfg : Config} {R : Reader} (hs : Setting X R) {trusted : Checkpoint}
    {st st' : ConsensusState} {link : Link} {atts : List Attestation}
    (hne : atts ≠ []) (hk : ∀ a ∈ atts, linkOf a = link) :
    processGroup X cfg R trusted st link atts = .ok st' ↔
      st.finalized = trusted ∧ Carries X cfg R trusted link atts ∧
      ValidState st ∧ Step st link st' := by
  rw [processGroup_voters, validateLink_ok_iff]
  constructor
  · rintro ⟨h1, ⟨h2, h3⟩, ⟨l, v, h4, h5, h6⟩, h7, h8⟩
    obtain ⟨hv, _, hstep⟩ := (stateTransition_ok_iff _ _ _).1 h7
    obtain ⟨g1, signers, sh, g2, g3, g4, g5⟩ := (countedVoters_iff hs hne hk h4).1 h5
    exact ⟨h1, ⟨_, signers, v, sh, ⟨h2, h3, ⟨l, h4, rfl⟩, g2, g1.imp (fun h => Nat.ne_of_lt h), g3, h6.threshold, h6.two_thirds⟩, h6, g4, g5⟩,
      hv, hstep⟩
  · rintro ⟨h1, ⟨active, signers, v, sh, hj, h6, g4, g5⟩, hv, hstep⟩
    obtain ⟨l, h4, rfl⟩ := hj.active_set
    have hfit : link.source.epoch + 1 < U64 := by
      have e1 := hstep.target
      have e2 : link.target.epoch < 2 ^ 64 := lt_of_le_of_lt (Nat.le_add_right _ _) g4.epoch_fits
      rw [e1.2.1]
      have : (2 : Nat) ^ 64 = U64 := by norm_num
      omega
    have hperm : (v.mergeSort (· ≤ ·)).Perm v := List.mergeSort_perm v _
    have hnd : (v.mergeSort (· ≤ ·)).Nodup := hperm.nodup_iff.2 hj.voters_nodup
    have hle : (v.mergeSort (· ≤ ·)).Pairwise (· ≤ ·) := by
      have := List.pairwise_mergeSort (le := fun a b : Nat => decide (a ≤ b))
        (by intro a b c; simp; omega) (by intro a b; simp; omega) v
      simpa using this
    refine ⟨h1, ⟨hj.fork_supported, hj.lookahead⟩, ⟨l, v.mergeSort (· ≤ ·), h4,
      (countedVoters_iff hs hne hk h4).2 ⟨?_, signers, sh, hj.votes, ?_, g4, g5⟩, ?_⟩,
      (stateTransition_ok_iff _ _ _).2 ⟨hv, hfit, hstep⟩, (isValid_iff _).2 (hstep.valid hv)⟩
    · exact hle.imp₂ (fun a b h h' => lt_of_le_of_ne h h') hnd
    · intro i; rw [hperm.mem_iff]; exact hj.voters_iff i
    · obtain ⟨k1, k2, k3, k4⟩ := h6
      rw [← weight_perm hperm] at k1 k3 k4
      exact ⟨k1, k2, k3, k4⟩

/-! ## The whole run -/

theorem verifyLoop_of_atomic {X : Ext} {cfg : Config} {R : Reader} (hs : Setting X R) {t : Checkpoint}
    {group : Link → List Attestation} {c : Checkpoint} {links : List Link} {out : Checkpoint × Checkpoint}
    (h : AtomicFinalization c links out) :
    (∀ l ∈ links, group l ≠ [] ∧ (∀ a ∈ group l, linkOf a = l) ∧ Carries X cfg R t l (group l)) →
    ∀ s : ConsensusState, s.currentJustified = c → s.finalized = t → ValidState s →
      verifyLoop X cfg R t s (links.map (fun l => (l, group l))) = .ok ⟨out.2, out.1⟩ := by
  induction h with
  | last c b hb =>
    rintro hg ⟨c', f⟩ rfl hf hv
    obtain ⟨g1, g2, g3⟩ := hg ⟨c', b⟩ List.mem_cons_self
    rw [List.map_cons, verifyLoop_cons]
    exact ⟨⟨b, c'⟩, (processGroup_carries hs g1 g2).2 ⟨hf, g3, hv, .finalize _ _ _ hb⟩, rfl⟩
  | skip c b links out hb _ ih =>
    rintro hg ⟨c', f⟩ rfl hf hv
    obtain ⟨g1, g2, g3⟩ := hg ⟨c', b⟩ List.mem_cons_self
    rw [List.map_cons, verifyLoop_cons]
    have hstep : Step ⟨c', f⟩ ⟨c', b⟩ ⟨b, f⟩ := .justify _ _ _ hb
    exact ⟨⟨b, f⟩, (processGroup_carries hs g1 g2).2 ⟨hf, g3, hv, hstep⟩,
      ih (fun l hl => hg l (by simp [hl])) ⟨b, f⟩ rfl hf (hstep.valid hv)⟩

theorem block_nonempty {atts : List Attestation} {links : List Link} (hb : Blocks atts links) {l : Link}
    (hl : l ∈ links) : atts.filter (fun a => decide (linkOf a = l)) ≠ [] ∧
      ∀ a ∈ atts.filter (fun a => decide (linkOf a = l)), linkOf a = l := by
  obtain ⟨a, ha, hal⟩ := hb.nonempty l hl
  exact ⟨List.ne_nil_of_mem (List.mem_filter.2 ⟨ha, by simpa using hal⟩), fun b hb => by
    simpa using (List.mem_filter.1 hb).2⟩

end Signal
