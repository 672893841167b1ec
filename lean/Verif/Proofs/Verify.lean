import Verif.Spec.Verify
import Verif.Proofs.Committee
import Verif.Proofs.Consensus
import Mathlib.Data.List.Basic
import Mathlib.Data.List.Nodup

namespace Signal
open Spec

/-! ## Balances -/

theorem sumBalances_ok_iff {vs : List ValidatorInfo} : ∀ {acc r : Nat},
    acc < U64 →
    (sumBalances acc vs = .ok r ↔
      acc + (vs.map (·.effectiveBalance)).sum < U64 ∧ r = acc + (vs.map (·.effectiveBalance)).sum) := by
  induction vs with
  | nil => intro acc r h; simp [sumBalances, h, eq_comm]
  | cons v vs ih =>
    intro acc r h
    simp only [sumBalances, Res.bind_eq_ok, safeAdd_eq_ok, List.map_cons, List.sum_cons]
    constructor
    · rintro ⟨a, ⟨h1, rfl⟩, h2⟩
      rw [ih h1] at h2
      omega
    · rintro ⟨h1, h2⟩
      exact ⟨acc + v.effectiveBalance, ⟨by omega, rfl⟩, (ih (by omega)).2 ⟨by omega, by omega⟩⟩

theorem sumBalances_not_panic {vs : List ValidatorInfo} : ∀ {acc : Nat},
    (∃ r, sumBalances acc vs = .ok r) ∨ sumBalances acc vs = .err .overflow := by
  induction vs with
  | nil => intro acc; left; exact ⟨acc, rfl⟩
  | cons v vs ih =>
    intro acc
    unfold sumBalances safeAdd
    split
    · exact ih
    · right; rfl

theorem getTotalBalance_ok_iff {spec : ChainSpec} {vs : List ValidatorInfo} {r : Nat} :
    getTotalBalance spec vs = .ok r ↔
      (vs.map (·.effectiveBalance)).sum < U64 ∧
        r = floored spec (vs.map (·.effectiveBalance)).sum := by
  simp only [getTotalBalance, Res.bind_eq_ok, sumBalances_ok_iff (show 0 < U64 by decide),
    Res.pure_eq, Res.ok.injEq, Nat.zero_add, floored]
  constructor
  · rintro ⟨a, ⟨h1, rfl⟩, rfl⟩; exact ⟨h1, rfl⟩
  · rintro ⟨h1, rfl⟩; exact ⟨_, ⟨h1, rfl⟩, rfl⟩

theorem getTotalBalance_cases (spec : ChainSpec) (vs : List ValidatorInfo) :
    (∃ r, getTotalBalance spec vs = .ok r) ∨ getTotalBalance spec vs = .err .overflow := by
  unfold getTotalBalance
  rcases @sumBalances_not_panic vs 0 with ⟨r, h⟩ | h
  · left; rw [h]; exact ⟨_, rfl⟩
  · right; rw [h]; rfl

theorem checkThreshold_ok_iff {cfg : Config} {t T : Nat} :
    checkThreshold cfg t T = .ok () ↔
      T * cfg.justificationThresholdFactor ≤ t * cfg.justificationThresholdQuotient := by
  unfold checkThreshold
  simp only
  split
  · simp_all
  · split <;> simp_all

/-! ## Grouping -/

section chunk
variable {α κ : Type} [DecidableEq κ] {key : α → κ}

theorem chunkBy_flatten (l : List α) : (chunkBy key l).flatMap (·.2) = l := by
  induction l with
  | nil => rfl
  | cons a l ih =>
    unfold chunkBy
    split
    · rename_i h; rw [h] at ih; simp at ih ⊢; exact ih
    · rename_i k g rest h
      rw [h] at ih
      split <;> simp_all

theorem chunkBy_key {l : List α} {k : κ} {g : List α} (h : (k, g) ∈ chunkBy key l) :
    g ≠ [] ∧ ∀ a ∈ g, key a = k := by
  induction l generalizing k g with
  | nil => simp [chunkBy] at h
  | cons a l ih =>
    unfold chunkBy at h
    split at h
    · simp at h; obtain ⟨rfl, rfl⟩ := h; simp
    · rename_i k' g' rest he
      rw [he] at ih
      split at h
      · rename_i hk
        rcases List.mem_cons.1 h with h | h
        · cases h
          refine ⟨by simp, ?_⟩
          intro b hb
          rcases List.mem_cons.1 hb with hb | hb
          · rw [hb, hk]
          · exact (ih (k := k) (by simp)).2 b hb
        · exact ih (by simp [h])
      · rcases List.mem_cons.1 h with h | h
        · cases h; simp
        · exact ih h

theorem chunkBy_ne_nil {l : List α} (h : l ≠ []) : chunkBy key l ≠ [] := by
  cases l with
  | nil => exact absurd rfl h
  | cons a l => unfold chunkBy; split <;> [simp; (split <;> simp)]

/-- Groups with pairwise different keys are exactly the filters of the input. -/
theorem group_eq_filter {gs : List (κ × List α)} (hnd : (gs.map (·.1)).Nodup)
    (hkey : ∀ p ∈ gs, ∀ a ∈ p.2, key a = p.1) {k : κ} {g : List α} (h : (k, g) ∈ gs) :
    (gs.flatMap (·.2)).filter (fun a => decide (key a = k)) = g := by
  induction gs with
  | nil => simp at h
  | cons p gs ih =>
    obtain ⟨k', g'⟩ := p
    simp only [List.map_cons, List.nodup_cons, List.mem_map, Prod.exists, exists_and_right,
      exists_eq_right, not_exists] at hnd
    rw [List.flatMap_cons, List.filter_append]
    rcases List.mem_cons.1 h with h | h
    · cases h
      rw [List.filter_eq_self.2 (by intro a ha; simpa using hkey _ (by simp) a ha),
        List.filter_eq_nil_iff.2, List.append_nil]
      intro a ha
      obtain ⟨q, hq, ha⟩ := List.mem_flatMap.1 ha
      have := hkey q (by simp [hq]) a ha
      simp only [decide_eq_true_eq]
      intro hc
      exact hnd.1 q.2 (by rw [← hc, this]; exact hq)
    · rw [List.filter_eq_nil_iff.2, List.nil_append]
      · exact ih hnd.2 (fun p hp => hkey p (by simp [hp])) h
      · intro a ha
        have : key a = k' := hkey (k', g') (by simp) a ha
        simp only [decide_eq_true_eq]
        intro hc
        exact hnd.1 g (by rw [← this, hc]; exact h)

end chunk

/-! ## Attestations -/

theorem mapRes_lookup_iff {ε : Type} {active : OMap ValidatorInfo} {f : Nat → Res ε ValidatorInfo}
    (hf : ∀ i v, f i = .ok v ↔ active.get? i = some v) {s : List Nat} {vs : List ValidatorInfo} :
    mapRes f s = .ok vs ↔ s.map active.get? = vs.map some := by
  rw [mapRes_eq_ok]
  induction s generalizing vs with
  | nil => cases vs <;> simp
  | cons i s ih =>
    cases vs with
    | nil => simp
    | cons v vs => simp only [List.map_cons, List.cons.injEq, hf, ih]

theorem lookup_pubkeys {active : OMap ValidatorInfo} {s : List Nat} {vs : List ValidatorInfo}
    (h : s.map active.get? = vs.map some) :
    vs.map (·.pubkey) = s.map (pubkey active) ∧
    vs.map (·.effectiveBalance) = s.map (balance active) := by
  induction s generalizing vs with
  | nil => cases vs <;> simp_all
  | cons i s ih =>
    cases vs with
    | nil => simp at h
    | cons v vs =>
      simp only [List.map_cons, List.cons.injEq] at h
      simp [ih h.2, pubkey, balance, h.1]

theorem lookup_exists {active : OMap ValidatorInfo} {s : List Nat}
    (h : ∀ i ∈ s, ∃ v, active.get? i = some v) : ∃ vs : List ValidatorInfo, s.map active.get? = vs.map some := by
  induction s with
  | nil => exact ⟨[], rfl⟩
  | cons i s ih =>
    obtain ⟨v, hv⟩ := h i (by simp)
    obtain ⟨vs, hvs⟩ := ih (fun j hj => h j (by simp [hj]))
    exact ⟨v :: vs, by simp [hv, hvs]⟩

theorem lookup_mem {active : OMap ValidatorInfo} {s : List Nat} {vs : List ValidatorInfo}
    (h : s.map active.get? = vs.map some) : ∀ i ∈ s, ∃ v, active.get? i = some v := by
  intro i hi
  have : active.get? i ∈ vs.map some := h ▸ List.mem_map_of_mem hi
  obtain ⟨v, _, hv⟩ := List.mem_map.1 this
  exact ⟨v, hv.symm⟩

/-- `process_attestation` accepts exactly the genuine votes of the indices it computes. -/
theorem processAttestation_ok_iff {X : Ext} {R : Reader} {active : OMap ValidatorInfo}
    {c : CommitteeCache} {a : Attestation} {s : OSet} :
    processAttestation X R active c a = .ok s ↔
      Vote X R active a s ∧ ∃ e, a = .electra e ∧ getAttestingIndices X R.spec e c = .ok s := by
  cases a with
  | base d =>
    simp only [processAttestation, reduceCtorEq, false_iff, not_and]
    rintro ⟨_, _, _, e, he, _⟩
    cases he
  | electra e =>
    unfold processAttestation slotEpoch
    dsimp only
    constructor
    · intro h
      split at h
      · simp at h
      · rename_i hspe
        simp only [Res.bind_eq_ok, assert_eq_ok, ensure_eq_ok, decide_eq_true_eq, Res.mapErr_eq_ok,
          Res.pure_eq, Res.ok.injEq, exists_eq_left'] at h
        obtain ⟨_, h1, _, h2, s', h3, vs, h4, b, h5, _, rfl, rfl⟩ := h
        rw [mapRes_lookup_iff (active := active) (by intro i v; simp)] at h4
        unfold isValidIndexedAttestation at h5
        split at h5
        · simp at h5
        · rename_i hne
          simp only [Res.bind_eq_ok, Res.mapErr_eq_ok, Res.pure_eq, Res.ok.injEq] at h5
          obtain ⟨fork, hf, root, hr, h5⟩ := h5
          refine ⟨⟨?_, (getAttestingIndices_sound h3).1, lookup_mem h4, e, rfl, hspe, h1.symm, h2, fork, root,
            hf, hr, ?_⟩, e, rfl, h3⟩
          · rintro rfl
            cases vs with
            | nil => exact hne rfl
            | cons => simp at h4
          · rw [← (lookup_pubkeys h4).1]
            exact h5
    · rintro ⟨⟨hne, _, hact, e', he', hspe, h1, h2, fork, root, hf, hr, hsig⟩, e'', he'', h3⟩
      cases he'; cases he''
      rw [if_neg hspe]
      simp only [Res.bind_eq_ok, assert_eq_ok, ensure_eq_ok, decide_eq_true_eq, Res.mapErr_eq_ok,
        Res.pure_eq, Res.ok.injEq, exists_eq_left']
      obtain ⟨vs, hvs⟩ := lookup_exists hact
      refine ⟨(), h1.symm, (), h2, s, h3, vs, ?_, true, ?_, (), rfl, rfl⟩
      · rw [mapRes_lookup_iff (active := active) (by intro i v; simp)]; exact hvs
      · unfold isValidIndexedAttestation
        rw [if_neg]
        · simp only [Res.bind_eq_ok, Res.mapErr_eq_ok, Res.pure_eq, Res.ok.injEq]
          refine ⟨fork, hf, root, hr, ?_⟩
          rw [(lookup_pubkeys hvs).1]
          exact hsig
        · rintro rfl
          cases s with
          | nil => exact hne rfl
          | cons => simp at hvs

theorem collectParticipants_ok_iff {X : Ext} {R : Reader} {active : OMap ValidatorInfo}
    {c : CommitteeCache} {atts : List Attestation} : ∀ {acc s : OSet},
    collectParticipants X R active c atts acc = .ok s ↔
      ∃ f : Attestation → OSet, (∀ a ∈ atts, processAttestation X R active c a = .ok (f a)) ∧
        s = acc.extend (atts.flatMap f) := by
  induction atts with
  | nil =>
    intro acc s
    simp only [collectParticipants, Res.ok.injEq, List.not_mem_nil, false_implies, implies_true,
      List.flatMap_nil, true_and, OSet.extend, List.foldl_nil, exists_const]
    exact eq_comm
  | cons a atts ih =>
    intro acc s
    simp only [collectParticipants, Res.bind_eq_ok, ih]
    constructor
    · rintro ⟨s₁, h1, f, h2, rfl⟩
      refine ⟨fun b => if b = a then s₁ else f b, ?_, ?_⟩
      · intro b hb
        simp only
        split
        · subst_vars; exact h1
        · rename_i hne
          exact h2 b ((List.mem_cons.1 hb).resolve_left hne)
      · rw [extend_extend]
        congr 1
        simp only [List.flatMap_cons, if_true, List.append_cancel_left_eq]
        apply List.flatMap_congr
        intro b hb
        split
        · subst_vars
          have := h2 _ hb
          rw [h1] at this; cases this; rfl
        · rfl
    · rintro ⟨f, h1, rfl⟩
      exact ⟨f a, h1 a (by simp), f, fun b hb => h1 b (by simp [hb]), by
        rw [extend_extend]; simp⟩

/-! ## Groups -/

/-- The unslashed members of a list of validators, as indices. -/
def unslashed (active : OMap ValidatorInfo) (s : List Nat) : List Nat :=
  s.filter (fun i => ((active.get? i).map (fun v => !v.slashed)).getD false)

theorem mem_unslashed {active : OMap ValidatorInfo} {s : List Nat} {i : Nat} :
    i ∈ unslashed active s ↔ i ∈ s ∧ ∃ v, active.get? i = some v ∧ v.slashed = false := by
  simp only [unslashed, List.mem_filter]
  cases active.get? i <;> simp

theorem unslashed_sum {active : OMap ValidatorInfo} {s : List Nat} {vs : List ValidatorInfo}
    (h : s.map active.get? = vs.map some) :
    ((vs.filter (fun v => !v.slashed)).map (·.effectiveBalance)).sum =
      weight active (unslashed active s) := by
  unfold weight unslashed
  induction s generalizing vs with
  | nil => cases vs <;> simp_all
  | cons i s ih =>
    cases vs with
    | nil => simp at h
    | cons v vs =>
      simp only [List.map_cons, List.cons.injEq] at h
      obtain ⟨h1, h2⟩ := h
      cases hv : v.slashed with
      | true =>
        rw [List.filter_cons_of_neg (by simp [hv]), List.filter_cons_of_neg (by simp [h1, hv])]
        exact ih h2
      | false =>
        rw [List.filter_cons_of_pos (by simp [hv]), List.filter_cons_of_pos (by simp [h1, hv])]
        simp [ih h2, balance, h1]

theorem validateLink_ok_iff {cfg : Config} {spec : ChainSpec} {t : Checkpoint} {l : Link} :
    validateLink cfg spec t l = .ok () ↔
      (cfg.minVersion ≤ spec.forkNameAtEpoch l.target.epoch ∧
        spec.forkNameAtEpoch l.target.epoch ≤ cfg.maxVersion) ∧
      l.target.epoch ≤ t.epoch + cfg.epochLookaheadLimit := by
  simp only [validateLink, Res.bind_eq_ok, ensure_eq_ok, Config.isSupportedVersion, Bool.and_eq_true,
    decide_eq_true_eq, exists_const]
  simp only [Nat.sub_le_iff_le_add, Nat.add_comm]

/-- Everything one iteration of `verify` checks. -/
theorem processGroup_ok_iff {X : Ext} {cfg : Config} {R : Reader} {trusted : Checkpoint}
    {st st' : ConsensusState} {link : Link} {atts : List Attestation} :
    processGroup X cfg R trusted st link atts = .ok st' ↔
      st.finalized = trusted ∧ validateLink cfg R.spec trusted link = .ok () ∧
      ∃ l c f, R.activeValidators link.target.epoch = .ok l ∧
        computeCommittees X R (OMap.ofList l) link.target.epoch = .ok c ∧
        (∀ a ∈ atts, processAttestation X R (OMap.ofList l) c a = .ok (f a)) ∧
        let voters := unslashed (OMap.ofList l) (OSet.extend [] (atts.flatMap f))
        let w := floored R.spec (weight (OMap.ofList l) voters)
        let T := floored R.spec (totalWeight (OMap.ofList l))
        weight (OMap.ofList l) voters < U64 ∧ totalWeight (OMap.ofList l) < U64 ∧
        T * cfg.justificationThresholdFactor ≤ w * cfg.justificationThresholdQuotient ∧
        w * 3 < U64 ∧ T * 2 < U64 ∧ T * 2 ≤ w * 3 ∧
        st.stateTransition link = .ok st' ∧ st'.isValid = true := by
  have htot : ∀ l : List (Nat × ValidatorInfo), ((OMap.ofList l).values.map (·.effectiveBalance)).sum =
      totalWeight (OMap.ofList l) := by
    intro l; simp only [OMap.values, totalWeight, List.map_map]; rfl
  unfold processGroup
  simp only [Res.bind_eq_ok, ensure_eq_ok, assert_eq_ok, decide_eq_true_eq, Res.mapErr_eq_ok,
    collectParticipants_ok_iff, getTotalBalance_ok_iff, safeMul_eq_ok, Res.pure_eq, Res.ok.injEq, htot]
  constructor
  · rintro ⟨_, h1, _, h2, l, h3, c, h4, s, ⟨f, h5, rfl⟩, vs, h6, w, ⟨h7, rfl⟩, T, ⟨h8, rfl⟩, _, h9, _, ⟨h10, rfl⟩,
      _, ⟨h11, rfl⟩, _, h12, st'', h13, _, h14, rfl⟩
    rw [mapRes_lookup_iff (active := OMap.ofList l) (by intro i v; simp)] at h6
    rw [unslashed_sum h6] at h7 h9 h10 h12
    exact ⟨h1, h2, l, c, f, h3, h4, h5, h7, h8, checkThreshold_ok_iff.1 h9, h10, h11, h12, h13, h14⟩
  · rintro ⟨h1, h2, l, c, f, h3, h4, h5, h7, h8, h9, h10, h11, h12, h13, h14⟩
    have hact : ∀ i ∈ OSet.extend [] (atts.flatMap f), ∃ v, (OMap.ofList l).get? i = some v := by
      intro i hi
      rw [OSet.mem_extend] at hi
      simp only [List.not_mem_nil, List.mem_flatMap, false_or] at hi
      obtain ⟨a, ha, hi⟩ := hi
      exact (processAttestation_ok_iff.1 (h5 a ha)).1.signers_active i hi
    obtain ⟨vs, hvs⟩ := lookup_exists hact
    refine ⟨(), h1, (), h2, l, h3, c, h4, _, ⟨f, h5, rfl⟩, vs, ?_, _, ⟨?_, rfl⟩, _, ⟨h8, rfl⟩, (), ?_, _, ⟨?_, rfl⟩,
      _, ⟨h11, rfl⟩, (), ?_, st', h13, (), h14, rfl⟩
    · rw [mapRes_lookup_iff (active := OMap.ofList l) (by intro i v; simp)]; exact hvs
    all_goals rw [unslashed_sum hvs]
    · exact h7
    · exact checkThreshold_ok_iff.2 h9
    · exact h10
    · exact h12

/-- The committees used for a group: a shuffling of the active set. -/
theorem computeCommittees_ok {X : Ext} {R : Reader} {active : OMap ValidatorInfo} {e : Nat}
    {c : CommitteeCache} (h : computeCommittees X R active e = .ok c) :
    ∃ seed perSlot, CommitteeCache.initialized X R.spec seed active.keys perSlot e = .ok c ∧
      R.spec.slotsPerEpoch ≠ 0 ∧ R.spec.targetCommitteeSize ≠ 0 ∧
      R.getSeed X e R.spec.domainBeaconAttester = .ok seed ∧
      perSlot = max 1 (min R.spec.maxCommitteesPerSlot
        (active.length / R.spec.slotsPerEpoch / R.spec.targetCommitteeSize)) := by
  simp only [computeCommittees, committeeCountPerSlot, Res.bind_eq_ok, Res.mapErr_eq_ok, safeDiv_eq_ok,
    Res.pure_eq, Res.ok.injEq] at h
  obtain ⟨seed, h1, cps, ⟨a, ⟨h2, rfl⟩, b, ⟨h3, rfl⟩, rfl⟩, h4⟩ := h
  exact ⟨seed, _, h4, h2, h3, h1, by simp [OMap.keys]⟩

theorem processGroup_justifies {X : Ext} {cfg : Config} {R : Reader} {trusted : Checkpoint}
    {st st' : ConsensusState} {link : Link} {atts : List Attestation}
    (h : processGroup X cfg R trusted st link atts = .ok st') :
    st.finalized = trusted ∧ ValidState st ∧ Step st link st' ∧
    ∃ active signers voters, Justifies X cfg R trusted link atts active signers voters ∧
      (∃ seed sh, R.getSeed X link.target.epoch R.spec.domainBeaconAttester = .ok seed ∧
        X.shuffleList active.keys R.spec.shuffleRoundCount seed = some sh ∧
        let perSlot := max 1 (min R.spec.maxCommitteesPerSlot
          (active.length / R.spec.slotsPerEpoch / R.spec.targetCommitteeSize))
        ∀ a ∈ atts, NoUsizeWrap X.usizeMod sh.length perSlot R.spec.slotsPerEpoch →
          ∀ e, a = .electra e → ∃ c, CommitteeCache.initialized X R.spec seed active.keys perSlot
              link.target.epoch = .ok c ∧ getAttestingIndices X R.spec e c = .ok (signers a)) := by
  obtain ⟨h1, h2, l, c, f, h3, h4, h5, h6, h7, h8, h9, h10, h11, h12, h13⟩ := processGroup_ok_iff.1 h
  obtain ⟨hv, _, hstep⟩ := (stateTransition_ok_iff _ _ _).1 h12
  obtain ⟨hfork, hla⟩ := validateLink_ok_iff.1 h2
  refine ⟨h1, hv, hstep, OMap.ofList l, f, _, ⟨hfork, hla, ⟨l, h3, rfl⟩, ?_, ?_, ?_, h8, ?_⟩, ?_⟩
  · intro a ha; exact (processAttestation_ok_iff.1 (h5 a ha)).1
  · exact (List.Nodup.filter _ (OSet.sorted_extend List.Pairwise.nil _).nodup)
  · intro i
    rw [mem_unslashed, OSet.mem_extend]
    simp only [List.not_mem_nil, List.mem_flatMap, false_or]
  · omega
  · obtain ⟨seed, perSlot, g1, _, _, g2, rfl⟩ := computeCommittees_ok h4
    refine ⟨seed, c.shuffling, g2, (initialized_ok g1).2.2.1, ?_⟩
    intro perSlot a ha hw e he
    obtain ⟨e', he', hg⟩ := (processAttestation_ok_iff.1 (h5 a ha)).2
    rw [he] at he'; cases he'
    exact ⟨c, g1, hg⟩

/-! ## The whole run -/

theorem verifyLoop_nil {X : Ext} {cfg : Config} {R : Reader} {t : Checkpoint} {s s' : ConsensusState} :
    verifyLoop X cfg R t s [] = .ok s' ↔ s' = s := by simp [verifyLoop, eq_comm]

theorem verifyLoop_cons {X : Ext} {cfg : Config} {R : Reader} {t : Checkpoint} {s s' : ConsensusState}
    {l : Link} {as : List Attestation} {gs : List (Link × List Attestation)} :
    verifyLoop X cfg R t s ((l, as) :: gs) = .ok s' ↔
      ∃ s₁, processGroup X cfg R t s l as = .ok s₁ ∧ verifyLoop X cfg R t s₁ gs = .ok s' := by
  simp only [verifyLoop, Res.bind_eq_ok]

theorem verifyLoop_run {X : Ext} {cfg : Config} {R : Reader} {t : Checkpoint}
    {gs : List (Link × List Attestation)} : ∀ {s s' : ConsensusState},
    verifyLoop X cfg R t s gs = .ok s' → Run s (gs.map (·.1)) s' := by
  induction gs with
  | nil => intro s s' h; rw [verifyLoop_nil] at h; subst h; exact .nil _
  | cons p gs ih =>
    obtain ⟨l, as⟩ := p
    intro s s' h
    obtain ⟨s₁, h1, h2⟩ := verifyLoop_cons.1 h
    exact .cons (processGroup_justifies h1).2.2.1 (ih h2)

theorem verifyLoop_mem {X : Ext} {cfg : Config} {R : Reader} {t : Checkpoint}
    {gs : List (Link × List Attestation)} : ∀ {s s' : ConsensusState},
    verifyLoop X cfg R t s gs = .ok s' → ∀ p ∈ gs, ∃ s₁ s₂, processGroup X cfg R t s₁ p.1 p.2 = .ok s₂ := by
  induction gs with
  | nil => intro s s' h p hp; simp at hp
  | cons q gs ih =>
    obtain ⟨l, as⟩ := q
    intro s s' h p hp
    obtain ⟨s₁, h1, h2⟩ := verifyLoop_cons.1 h
    rcases List.mem_cons.1 hp with hp | hp
    · subst hp; exact ⟨s, s₁, h1⟩
    · exact ih h2 p hp

theorem Spec.Run.justified_le {s ls s'} (h : Run s ls s') :
    s.currentJustified.epoch ≤ s'.currentJustified.epoch := by
  induction h with
  | nil => exact le_refl _
  | cons h1 _ ih => exact le_trans (le_of_lt h1.justified_lt) ih

theorem Spec.Run.valid {s ls s'} (h : Run s ls s') : ValidState s → ValidState s' := by
  induction h with
  | nil => exact id
  | cons h1 _ ih => exact fun hv => ih (h1.valid hv)

theorem Spec.Step.target {s l s'} (h : Step s l s') :
    s'.currentJustified = l.target ∧ l.source = s.currentJustified ∧
      s.currentJustified.epoch < l.target.epoch := by
  cases h <;> simp <;> omega

theorem Spec.Run.targets_lt {s ls s'} (h : Run s ls s') :
    (∀ l ∈ ls, s.currentJustified.epoch < l.target.epoch) ∧
      ls.Pairwise (fun a b => a.target.epoch < b.target.epoch) := by
  induction h with
  | nil => simp
  | cons h1 _ ih =>
    obtain ⟨e1, _, e3⟩ := h1.target
    rw [e1] at ih
    refine ⟨?_, List.pairwise_cons.2 ⟨ih.1, ih.2⟩⟩
    intro l hl
    rcases List.mem_cons.1 hl with hl | hl
    · subst hl; exact e3
    · have := ih.1 l hl; omega

theorem verifyLoop_atomic {X : Ext} {cfg : Config} {R : Reader} {t : Checkpoint}
    {gs : List (Link × List Attestation)} : ∀ {s s' : ConsensusState},
    verifyLoop X cfg R t s gs = .ok s' → s.finalized = t → s'.finalized ≠ t → s ≠ ConsensusState.zero →
    AtomicFinalization s.currentJustified (gs.map (·.1)) (s'.finalized, s'.currentJustified) := by
  induction gs with
  | nil => intro s s' h hf hn _; rw [verifyLoop_nil] at h; subst h; exact absurd hf hn
  | cons p gs ih =>
    obtain ⟨l, as⟩ := p
    intro s s' h hf hn hz
    obtain ⟨s₁, h1, h2⟩ := verifyLoop_cons.1 h
    obtain ⟨_, hv, hstep, _⟩ := processGroup_justifies h1
    cases hstep with
    | justify c f b hb =>
      exact .skip _ _ _ _ hb (ih h2 hf hn (by
        intro h0; simp only [ConsensusState.zero, ConsensusState.mk.injEq] at h0
        rw [h0.1] at hb; simp [Checkpoint.zero] at hb))
    | finalize c f b hb =>
      cases gs with
      | nil =>
        rw [verifyLoop_nil] at h2; subst h2
        exact .last _ _ hb
      | cons q gs =>
        exfalso
        obtain ⟨l2, as2⟩ := q
        obtain ⟨s₂, h3, _⟩ := verifyLoop_cons.1 h2
        have := (processGroup_justifies h3).1
        simp only at this hf
        rcases hv with hv | hv
        · simp only at hv; rw [hf, this] at hv; omega
        · exact hz hv

theorem linkOf_eq : attLink = linkOf := rfl

/-- What a successful `verify` has done. -/
theorem verify_ok {X : Ext} {cfg : Config} {R : Reader} {post : ConsensusState} {slot : Nat}
    (h : verify X cfg R = .ok (post, slot)) :
    ∃ pre atts, R.consensusState = .ok pre ∧ R.attestations = .ok atts ∧
      verifyLoop X cfg R pre.finalized pre (chunkBy linkOf atts) = .ok post ∧
      post.finalized ≠ pre.finalized ∧ R.slotForBlock post.finalized.root = .ok slot := by
  simp only [verify, Res.bind_eq_ok, Res.unwrap_eq_ok, ensure_eq_ok, decide_eq_true_eq,
    Res.mapErr_eq_ok, Res.pure_eq, Res.ok.injEq] at h
  obtain ⟨pre, h1, atts, h2, st, h3, _, h4, sl, h5, h6⟩ := h
  cases h6
  exact ⟨pre, atts, h1, h2, h3, h4, h5⟩

theorem verify_ok_of {X : Ext} {cfg : Config} {R : Reader} {pre post : ConsensusState} {slot : Nat}
    {atts : List Attestation} (h1 : R.consensusState = .ok pre) (h2 : R.attestations = .ok atts)
    (h3 : verifyLoop X cfg R pre.finalized pre (chunkBy linkOf atts) = .ok post)
    (h4 : post.finalized ≠ pre.finalized) (h5 : R.slotForBlock post.finalized.root = .ok slot) :
    verify X cfg R = .ok (post, slot) := by
  simp only [verify, Res.bind_eq_ok, Res.unwrap_eq_ok, ensure_eq_ok, decide_eq_true_eq,
    Res.mapErr_eq_ok, Res.pure_eq, Res.ok.injEq]
  exact ⟨pre, h1, atts, h2, post, h3, (), h4, slot, h5, rfl⟩

theorem verify_pre_valid {X : Ext} {cfg : Config} {R : Reader} {t : Checkpoint} {s s' : ConsensusState}
    {gs : List (Link × List Attestation)} (h : verifyLoop X cfg R t s gs = .ok s')
    (hne : s' ≠ s) : ValidState s := by
  cases gs with
  | nil => rw [verifyLoop_nil] at h; exact absurd h hne
  | cons p gs =>
    obtain ⟨l, as⟩ := p
    obtain ⟨s₁, h1, _⟩ := verifyLoop_cons.1 h
    exact (processGroup_justifies h1).2.1

/-- The groups of a successful run have different links. -/
theorem groups_nodup {X : Ext} {cfg : Config} {R : Reader} {t : Checkpoint} {s s' : ConsensusState}
    {gs : List (Link × List Attestation)} (h : verifyLoop X cfg R t s gs = .ok s') :
    (gs.map (·.1)).Nodup := by
  refine (verifyLoop_run h).targets_lt.2.imp ?_
  rintro a b hab rfl
  omega

/-- The group of a link in a successful run is everything in the input that votes for it. -/
theorem group_of_link {X : Ext} {cfg : Config} {R : Reader} {t : Checkpoint} {s s' : ConsensusState}
    {atts : List Attestation} (h : verifyLoop X cfg R t s (chunkBy linkOf atts) = .ok s')
    {l : Link} {g : List Attestation} (hg : (l, g) ∈ chunkBy linkOf atts) :
    g = atts.filter (fun a => decide (linkOf a = l)) := by
  have := group_eq_filter (key := linkOf) (groups_nodup h) (fun p hp => (chunkBy_key hp).2) hg
  rw [chunkBy_flatten] at this
  exact this.symm

theorem exists_group {atts : List Attestation} {a : Attestation} (ha : a ∈ atts) :
    ∃ g, (linkOf a, g) ∈ chunkBy linkOf atts ∧ a ∈ g := by
  rw [← chunkBy_flatten (key := linkOf) atts] at ha
  obtain ⟨⟨l, g⟩, h1, h2⟩ := List.mem_flatMap.1 ha
  have := (chunkBy_key h1).2 a h2
  subst this
  exact ⟨g, h1, h2⟩

end Signal
