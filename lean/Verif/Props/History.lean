import Verif.Spec.History
import Verif.Props.Signing

/-!
# Property C79: safety over histories of proofs

Specification: `Verif/Spec/History.lean`, `Verif/Spec/Slashing.lean`, `Verif/Spec/Signing.lean`.
-/

namespace Signal
open Spec

/-- Two sets of voters, each weighed by its own balances, overlap in at least the excess of their weights over the greater weight of everything. -/
theorem overlap_two (f g : Nat → Nat) (v v' all : List Nat) (hv : v.Nodup) (hv' : v'.Nodup)
    (hs : ∀ i ∈ v, i ∈ all) (hs' : ∀ i ∈ v', i ∈ all) :
    (v.map f).sum + (v'.map g).sum ≤
      ((v.filter (fun i => decide (i ∈ v'))).map (fun i => min (f i) (g i))).sum + (all.map (fun i => max (f i) (g i))).sum := by
  have e1 := sum_filter_add f (fun i => decide (i ∈ v')) v
  have e2 := sum_filter_add g (fun i => decide (i ∈ v)) v'
  have e3 : ((v'.filter (fun i => decide (i ∈ v))).map g).sum = ((v.filter (fun i => decide (i ∈ v'))).map g).sum := by
    refine Nat.le_antisymm (sum_le_of_subset g _ _ (hv'.filter _) ?_) (sum_le_of_subset g _ _ (hv.filter _) ?_)
    · intro i hi
      simp only [List.mem_filter, decide_eq_true_eq] at hi ⊢
      exact hi.symm
    · intro i hi
      simp only [List.mem_filter, decide_eq_true_eq] at hi ⊢
      exact hi.symm
  have e4 : ∀ l : List Nat, (l.map f).sum + (l.map g).sum =
      (l.map (fun i => min (f i) (g i))).sum + (l.map (fun i => max (f i) (g i))).sum := by
    intro l
    induction l with
    | nil => rfl
    | cons a l ih => simp only [List.map_cons, List.sum_cons]; omega
  have e4 := e4 (v.filter (fun i => decide (i ∈ v')))
  have e5 : ∀ l : List Nat, (l.map f).sum ≤ (l.map (fun i => max (f i) (g i))).sum ∧
      (l.map g).sum ≤ (l.map (fun i => max (f i) (g i))).sum := by
    intro l
    induction l with
    | nil => simp
    | cons a l ih => simp only [List.map_cons, List.sum_cons]; omega
  have e6 := (e5 (v.filter (fun i => !decide (i ∈ v')))).1
  have e7 := (e5 (v'.filter (fun i => !decide (i ∈ v)))).2
  have hd : (v.filter (fun i => decide (i ∈ v')) ++ (v.filter (fun i => !decide (i ∈ v')) ++ v'.filter (fun i => !decide (i ∈ v)))).Nodup := by
    rw [List.nodup_append]
    refine ⟨hv.filter _, ?_, ?_⟩
    · rw [List.nodup_append]
      refine ⟨hv.filter _, hv'.filter _, ?_⟩
      rintro a ha b hb rfl
      simp only [List.mem_filter, Bool.not_eq_true', decide_eq_false_iff_not] at ha hb
      exact hb.2 ha.1
    · rintro a ha b hb rfl
      simp only [List.mem_filter, List.mem_append, Bool.not_eq_true', decide_eq_false_iff_not, decide_eq_true_eq] at ha hb
      rcases hb with hb | hb
      · exact hb.2 ha.2
      · exact hb.2 ha.1
  have := sum_le_of_subset (fun i => max (f i) (g i)) _ all hd (by
    intro i hi
    simp only [List.mem_append, List.mem_filter] at hi
    rcases hi with hi | hi | hi
    · exact hs i hi.1
    · exact hs i hi.1
    · exact hs' i hi.1)
  rw [List.map_append, List.sum_append, List.map_append, List.sum_append] at this
  omega

/-- What a history of journals over a real chain says: the links up to any of its states are one run, and each has the support of the registry
of its proof. -/
theorem history_run {X : Ext} {spec : ChainSpec} {cfg : Config} {pre : ConsensusState}
    {journals : List (GuestInput × Bytes)} {states : List ConsensusState} (h : Chained X spec cfg pre journals states)
    {chain : Chain} (hreal : RealHistory X spec chain journals) (hepoch : pre.finalized.epoch ≠ 0)
    (hlook : cfg.epochLookaheadLimit ≤ spec.maxSeedLookahead) :
    ∀ s ∈ states, ∃ links, Run pre links s ∧ pre.finalized.epoch < s.finalized.epoch ∧
      ∀ l ∈ links, ∃ j ∈ journals, (∃ a ∈ j.1.attestations, linkOf a = l) ∧
        Supermajority X cfg spec (stateBehind chain j.1).genesisValidatorsRoot (registryBehind spec chain j.1) l j.1.attestations := by
  induction h with
  | nil s => simp
  | @cons pre post input journal journals states ht hc hread _ ih =>
    obtain ⟨hpre, -, -, hah, -⟩ := journal_run ht hc hread
    have hlt : pre.finalized.epoch < post.finalized.epoch := hah.1
    have ih := ih (fun j hj => hreal j (List.mem_cons_of_mem _ hj)) (by omega)
    obtain ⟨r, post', slot, hr, hv, rfl⟩ := guestEntry_eq_ok hc
    have hre := (verified_parts ht hr hv).1
    rw [hre] at hread
    cases hread
    obtain ⟨links, hb, hrun, -, hs⟩ := C40_reader_partial X spec cfg input r hr post slot hv _ _
      (hreal _ List.mem_cons_self) hepoch hlook
    intro s hmem
    rcases List.mem_cons.1 hmem with rfl | hmem
    · exact ⟨links, hrun, hlt, fun l hl => ⟨_, List.mem_cons_self, hb.nonempty l hl, hs l hl⟩⟩
    · obtain ⟨links', hrun', hle', hs'⟩ := ih s hmem
      refine ⟨links ++ links', hrun.append hrun', by omega, fun l hl => ?_⟩
      rcases List.mem_append.1 hl with hl | hl
      · exact ⟨_, List.mem_cons_self, hb.nonempty l hl, hs l hl⟩
      · obtain ⟨j, hj, h1⟩ := hs' l hl
        exact ⟨j, List.mem_cons_of_mem _ hj, h1⟩

/-- **C79.** Two histories of proofs from the same state, over one chain of real states, of any lengths: if of two checkpoints that the one and the
other have finalized at any time neither is an ancestor of the other, then there are a proof of the one and a proof of the other history, two links voted for in
them which form a slashable pair, and validators who signed votes for both. With `W` the active balance at the target epoch in the registry by which
the first proof counts, `W'` that of the second, `U` the balance of the validators active in either, each taken with the greater of their
balances, the lesser balances of the offenders add up to at least `2/3 W + 2/3 W' - U`.

Partial: the conditions of `C40_end_to_end_partial` and `C41_accountable_safety_partial`, for each proof of the histories. -/
theorem C79_accountable_safety_partial (X : Ext) (spec : ChainSpec) (cfg : Config) (pre : ConsensusState)
    (journals journals' : List (GuestInput × Bytes)) (states states' : List ConsensusState)
    (h : Chained X spec cfg pre journals states) (h' : Chained X spec cfg pre journals' states')
    (s s' : ConsensusState) (hs : s ∈ states) (hs' : s' ∈ states')
    (chain : Chain) (hreal : RealHistory X spec chain journals) (hreal' : RealHistory X spec chain journals')
    (hepoch : pre.finalized.epoch ≠ 0) (hlook : cfg.epochLookaheadLimit ≤ spec.maxSeedLookahead)
    (hbig : ∀ j ∈ journals ++ journals', ∀ a ∈ j.1.attestations, 3 * spec.effectiveBalanceIncrement <
      2 * balanceOf (registryBehind spec chain j.1) (activeIndices (registryBehind spec chain j.1) a.data.target.epoch))
    (anc : Checkpoint → Checkpoint → Prop) (hanc : Ancestry anc (allVotes journals ++ allVotes journals'))
    (hconf : ¬ anc s.finalized s'.finalized) (hconf' : ¬ anc s'.finalized s.finalized) :
    ∃ j ∈ journals, ∃ j' ∈ journals', ∃ link link' : Link, (∃ a ∈ j.1.attestations, linkOf a = link) ∧
      (∃ a ∈ j'.1.attestations, linkOf a = link') ∧ Slashable link link' ∧ ∃ offenders : List Nat, offenders.Nodup ∧
      let vs := registryBehind spec chain j.1
      let vs' := registryBehind spec chain j'.1
      let active := activeIndices vs link.target.epoch
      let active' := activeIndices vs' link'.target.epoch
      (∀ i ∈ offenders,
        SignedVote X spec (stateBehind chain j.1).genesisValidatorsRoot vs link j.1.attestations i ∧
        SignedVote X spec (stateBehind chain j'.1).genesisValidatorsRoot vs' link' j'.1.attestations i) ∧
      2 * balanceOf vs active + 2 * balanceOf vs' active' ≤
        3 * lesserBalance vs vs' offenders + 3 * greaterBalance vs vs' (union active active') := by
  obtain ⟨links, hrun, hf, hs⟩ := history_run h hreal hepoch hlook s hs
  obtain ⟨links', hrun', hf', hs'⟩ := history_run h' hreal' hepoch hlook s' hs'
  have hvotes : ∀ {js : List (GuestInput × Bytes)} {ls : List Link}, (∀ j ∈ js, ∀ a ∈ j.1.attestations, anc a.data.source a.data.target) →
      (∀ l ∈ ls, ∃ j ∈ js, ∃ a ∈ j.1.attestations, linkOf a = l) → ∀ l ∈ ls, anc l.source l.target := by
    intro js ls hjs hls l hl
    obtain ⟨j, hj, a, ha, rfl⟩ := hls l hl
    exact hjs j hj a ha
  obtain ⟨l, hl, l', hl', hsl⟩ := conflict_slashable hrun hrun' (fun e => by rw [e] at hf; omega) (fun e => by rw [e] at hf'; omega) hanc.refl hanc.trans
    (hvotes (js := journals) (fun j hj a ha => hanc.votes a (List.mem_append_left _ (List.mem_flatMap.2 ⟨j, hj, ha⟩)))
      (fun l hl => by obtain ⟨j, hj, h1, -⟩ := hs l hl; exact ⟨j, hj, h1⟩))
    (hvotes (js := journals') (fun j hj a ha => hanc.votes a (List.mem_append_right _ (List.mem_flatMap.2 ⟨j, hj, ha⟩)))
      (fun l hl => by obtain ⟨j, hj, h1, -⟩ := hs' l hl; exact ⟨j, hj, h1⟩)) hconf hconf'
  obtain ⟨j, hj, hl, v, n1, m1, -, w1⟩ := hs l hl
  obtain ⟨j', hj', hl', v', n2, m2, -, w2⟩ := hs' l' hl'
  refine ⟨j, hj, j', hj', l, l', hl, hl', hsl, v.filter (fun i => decide (i ∈ v')), n1.filter _, ?_⟩
  have b1 : 3 * spec.effectiveBalanceIncrement <
      2 * balanceOf (registryBehind spec chain j.1) (activeIndices (registryBehind spec chain j.1) l.target.epoch) := by
    obtain ⟨a, ha, rfl⟩ := hl
    exact hbig j (List.mem_append_left _ hj) a ha
  have b2 : 3 * spec.effectiveBalanceIncrement <
      2 * balanceOf (registryBehind spec chain j'.1) (activeIndices (registryBehind spec chain j'.1) l'.target.epoch) := by
    obtain ⟨a, ha, rfl⟩ := hl'
    exact hbig j' (List.mem_append_right _ hj') a ha
  dsimp only
  generalize registryBehind spec chain j.1 = vs at *
  generalize registryBehind spec chain j'.1 = vs' at *
  have t1 : 2 * balanceOf vs (activeIndices vs l.target.epoch) ≤ 3 * balanceOf vs v := unfloored (spec := spec) b1 w1
  have t2 : 2 * balanceOf vs' (activeIndices vs' l'.target.epoch) ≤ 3 * balanceOf vs' v' := unfloored (spec := spec) b2 w2
  refine ⟨?_, ?_⟩
  · intro i hi
    simp only [List.mem_filter, decide_eq_true_eq] at hi
    exact ⟨(m1 i hi.1).2.2, (m2 i hi.2).2.2⟩
  · have := overlap_two (registeredBalance vs) (registeredBalance vs') v v'
      (union (activeIndices vs l.target.epoch) (activeIndices vs' l'.target.epoch)) n1 n2
      (by intro i hi; exact List.mem_append_left _ (m1 i hi).1)
      (by
        intro i hi
        have hia := (m2 i hi).1
        by_cases h : i ∈ activeIndices vs l.target.epoch
        · exact List.mem_append_left _ h
        · exact List.mem_append_right _ (List.mem_filter.2 ⟨hia, by simpa using h⟩))
    simp only [balanceOf, lesserBalance, greaterBalance] at *
    omega

/-- **C79** with a bound on how much the validators change: if for any two proofs of the histories the validators active in either have, each
with the greater balance, at most `d` more than the active balance that each of the two proofs counts, then the offenders have at least a third of
the active balance less `d`, be it by the registry of the one or of the other proof. -/
theorem C79_one_third_partial (X : Ext) (spec : ChainSpec) (cfg : Config) (pre : ConsensusState)
    (journals journals' : List (GuestInput × Bytes)) (states states' : List ConsensusState)
    (h : Chained X spec cfg pre journals states) (h' : Chained X spec cfg pre journals' states')
    (s s' : ConsensusState) (hs : s ∈ states) (hs' : s' ∈ states')
    (chain : Chain) (hreal : RealHistory X spec chain journals) (hreal' : RealHistory X spec chain journals')
    (hepoch : pre.finalized.epoch ≠ 0) (hlook : cfg.epochLookaheadLimit ≤ spec.maxSeedLookahead)
    (hbig : ∀ j ∈ journals ++ journals', ∀ a ∈ j.1.attestations, 3 * spec.effectiveBalanceIncrement <
      2 * balanceOf (registryBehind spec chain j.1) (activeIndices (registryBehind spec chain j.1) a.data.target.epoch))
    (anc : Checkpoint → Checkpoint → Prop) (hanc : Ancestry anc (allVotes journals ++ allVotes journals'))
    (hconf : ¬ anc s.finalized s'.finalized) (hconf' : ¬ anc s'.finalized s.finalized)
    (d : Nat) (hdrift : ∀ j ∈ journals, ∀ j' ∈ journals', ∀ a ∈ j.1.attestations, ∀ a' ∈ j'.1.attestations,
      let vs := registryBehind spec chain j.1
      let vs' := registryBehind spec chain j'.1
      let active := activeIndices vs a.data.target.epoch
      let active' := activeIndices vs' a'.data.target.epoch
      greaterBalance vs vs' (union active active') ≤ balanceOf vs active + d ∧
        greaterBalance vs vs' (union active active') ≤ balanceOf vs' active' + d) :
    ∃ j ∈ journals, ∃ j' ∈ journals', ∃ link link' : Link, (∃ a ∈ j.1.attestations, linkOf a = link) ∧
      (∃ a ∈ j'.1.attestations, linkOf a = link') ∧ Slashable link link' ∧ ∃ offenders : List Nat, offenders.Nodup ∧
      let vs := registryBehind spec chain j.1
      let vs' := registryBehind spec chain j'.1
      (∀ i ∈ offenders,
        SignedVote X spec (stateBehind chain j.1).genesisValidatorsRoot vs link j.1.attestations i ∧
        SignedVote X spec (stateBehind chain j'.1).genesisValidatorsRoot vs' link' j'.1.attestations i) ∧
      balanceOf vs (activeIndices vs link.target.epoch) ≤ 3 * balanceOf vs offenders + 3 * d ∧
      balanceOf vs' (activeIndices vs' link'.target.epoch) ≤ 3 * balanceOf vs' offenders + 3 * d := by
  obtain ⟨j, hj, j', hj', l, l', ⟨a, ha, rfl⟩, ⟨a', ha', rfl⟩, hsl, off, hn, hsig, hw⟩ := C79_accountable_safety_partial X spec cfg pre journals
    journals' states states' h h' s s' hs hs' chain hreal hreal' hepoch hlook hbig anc hanc hconf hconf'
  refine ⟨j, hj, j', hj', _, _, ⟨a, ha, rfl⟩, ⟨a', ha', rfl⟩, hsl, off, hn, hsig, ?_⟩
  obtain ⟨d1, d2⟩ := hdrift j hj j' hj' a ha a' ha'
  have hmin : ∀ vs vs' : List Validator, lesserBalance vs vs' off ≤ balanceOf vs off ∧ lesserBalance vs vs' off ≤ balanceOf vs' off := by
    intro vs vs'
    unfold lesserBalance balanceOf
    generalize off = l
    induction l with
    | nil => simp
    | cons a l ih => simp only [List.map_cons, List.sum_cons]; omega
  have hm := hmin (registryBehind spec chain j.1) (registryBehind spec chain j'.1)
  dsimp only [linkOf] at *
  omega

/-- A validator who follows the protocol does not sign votes for two slashable links, counted by two registries. -/
theorem honest_not_both_two (X : Ext) (spec : ChainSpec) (hX : RealSigning X spec) (signed : Bytes → Bytes → Prop) (hu : Unforgeable X signed)
    {root : Root} {vs vs' : List Validator} {link link' : Link} {atts atts' votes : List Attestation} {i : Nat}
    (hfork : ∀ e, (spec.forkAtEpoch e).previousVersion.length = 4 ∧ (spec.forkAtEpoch e).currentVersion.length = 4)
    (hroot : root.length = 32) (hdata : ∀ a ∈ votes, WfVoteData a.data)
    (hsub : ∀ a ∈ atts, a ∈ votes) (hsub' : ∀ a ∈ atts', a ∈ votes) (hkey : registeredKey vs i = registeredKey vs' i)
    (hh : FollowsProtocol X signed (registeredKey vs i) (countedVotes spec root votes))
    (h : SignedVote X spec root vs link atts i) (h' : SignedVote X spec root vs' link' atts' i) : ¬ Slashable link link' := by
  obtain ⟨duties, ho, hn, hd⟩ := hh
  have key : ∀ {ws : List Validator} {l : Link} {as : List Attestation}, (∀ a ∈ as, a ∈ votes) → registeredKey vs i = registeredKey ws i →
      SignedVote X spec root ws l as i → ∃ d v, Duty.vote d v root ∈ duties ∧ d.source = l.source ∧ d.target = l.target := by
    intro ws l as hsub hk hsv
    obtain ⟨-, e, hm, hs, ht, hsig⟩ := signedVote_signed X spec hX signed hu hfork hsv
    rw [← hk] at hsig
    refine ⟨e.data, _, duty_of_signed X signed _ duties _ _ _ ⟨hdata _ (hsub _ hm), ?_, hroot⟩ ho (fun x hx => ?_) hsig, hs, ht⟩
    · split <;> simp [hfork]
    · refine hd x hx _ (List.mem_map.2 ⟨_, hsub _ hm, ?_⟩)
      simp only [Attestation.data, ht]
  obtain ⟨d, v, hm, hs, ht⟩ := key hsub rfl h
  obtain ⟨d', v', hm', hs', ht'⟩ := key hsub' hkey h'
  have := hn d v d' v' root hm hm'
  rw [hs, ht, hs', ht'] at this
  exact this

/-- **C79.** Two light clients that start from the same state and follow proofs over one network, each their own sequence of any length, never hold
conflicting finalized checkpoints, as long as the validators who do not follow the protocol have less than `2/3 W + 2/3 W' - U` of the
balance, for any two votes of the two histories.

Partial: the conditions of `C79_accountable_safety_partial`. -/
theorem C79_no_conflict_partial (X : Ext) (spec : ChainSpec) (cfg : Config) (hX : RealSigning X spec)
    (hfork : ∀ e, (spec.forkAtEpoch e).previousVersion.length = 4 ∧ (spec.forkAtEpoch e).currentVersion.length = 4)
    (signed : Bytes → Bytes → Prop) (hu : Unforgeable X signed) (pre : ConsensusState)
    (journals journals' : List (GuestInput × Bytes)) (states states' : List ConsensusState)
    (h : Chained X spec cfg pre journals states) (h' : Chained X spec cfg pre journals' states')
    (s s' : ConsensusState) (hs : s ∈ states) (hs' : s' ∈ states')
    (chain : Chain) (hreal : RealHistory X spec chain journals) (hreal' : RealHistory X spec chain journals')
    (root : Root) (hroot : ∀ j ∈ journals ++ journals', (stateBehind chain j.1).genesisValidatorsRoot = root)
    (hepoch : pre.finalized.epoch ≠ 0) (hlook : cfg.epochLookaheadLimit ≤ spec.maxSeedLookahead)
    (hdata : ∀ a ∈ allVotes journals ++ allVotes journals', WfVoteData a.data)
    (hbig : ∀ j ∈ journals ++ journals', ∀ a ∈ j.1.attestations, 3 * spec.effectiveBalanceIncrement <
      2 * balanceOf (registryBehind spec chain j.1) (activeIndices (registryBehind spec chain j.1) a.data.target.epoch))
    (anc : Checkpoint → Checkpoint → Prop) (hanc : Ancestry anc (allVotes journals ++ allVotes journals'))
    (dishonest : List Nat)
    (hhonest : ∀ j ∈ journals, ∀ j' ∈ journals', ∀ a ∈ j.1.attestations, ∀ a' ∈ j'.1.attestations,
      let vs := registryBehind spec chain j.1
      let vs' := registryBehind spec chain j'.1
      ∀ i ∈ activeIndices vs a.data.target.epoch, i ∈ activeIndices vs' a'.data.target.epoch → i ∉ dishonest →
        registeredKey vs i = registeredKey vs' i ∧
        FollowsProtocol X signed (registeredKey vs i) (countedVotes spec root (allVotes journals ++ allVotes journals')))
    (hfew : ∀ j ∈ journals, ∀ j' ∈ journals', ∀ a ∈ j.1.attestations, ∀ a' ∈ j'.1.attestations,
      let vs := registryBehind spec chain j.1
      let vs' := registryBehind spec chain j'.1
      let active := activeIndices vs a.data.target.epoch
      let active' := activeIndices vs' a'.data.target.epoch
      3 * lesserBalance vs vs' dishonest + 3 * greaterBalance vs vs' (union active active') <
        2 * balanceOf vs active + 2 * balanceOf vs' active') :
    anc s.finalized s'.finalized ∨ anc s'.finalized s.finalized := by
  by_contra hcon
  obtain ⟨hc1, hc2⟩ := not_or.1 hcon
  obtain ⟨j, hj, j', hj', l, l', ⟨a, ha, rfl⟩, ⟨a', ha', rfl⟩, hsl, off, hn, hsig, hw⟩ := C79_accountable_safety_partial X spec cfg pre journals
    journals' states states' h h' s s' hs hs' chain hreal hreal' hepoch hlook hbig anc hanc hc1 hc2
  have hr1 := hroot j (List.mem_append_left _ hj)
  have hr2 := hroot j' (List.mem_append_right _ hj')
  have hlen : root.length = 32 := hr1 ▸ (hreal j hj).state_wf.genesisValidatorsRoot
  rw [hr1, hr2] at hsig
  have hsub : ∀ i ∈ off, i ∈ dishonest := by
    intro i hi
    by_contra hni
    obtain ⟨g1, g2⟩ := hsig i hi
    have i1 := (signedVote_signed X spec hX signed hu hfork g1).1
    have i2 := (signedVote_signed X spec hX signed hu hfork g2).1
    obtain ⟨hk, hfp⟩ := hhonest j hj j' hj' a ha a' ha' i i1 i2 hni
    exact honest_not_both_two X spec hX signed hu hfork hlen hdata
      (fun b hb => List.mem_append_left _ (List.mem_flatMap.2 ⟨j, hj, hb⟩))
      (fun b hb => List.mem_append_right _ (List.mem_flatMap.2 ⟨j', hj', hb⟩)) hk hfp g1 g2 hsl
  have hle := sum_le_of_subset (fun i => min (registeredBalance (registryBehind spec chain j.1) i)
    (registeredBalance (registryBehind spec chain j'.1) i)) off dishonest hn hsub
  have := hfew j hj j' hj' a ha a' ha'
  dsimp only [linkOf, lesserBalance] at *
  omega

/-- **C79** when the validators change little: with `d` as in `C79_one_third_partial`, there is no conflict as long as those who do not follow the
protocol have less than a third of the active balance less `d`. -/
theorem C79_less_than_third_partial (X : Ext) (spec : ChainSpec) (cfg : Config) (hX : RealSigning X spec)
    (hfork : ∀ e, (spec.forkAtEpoch e).previousVersion.length = 4 ∧ (spec.forkAtEpoch e).currentVersion.length = 4)
    (signed : Bytes → Bytes → Prop) (hu : Unforgeable X signed) (pre : ConsensusState)
    (journals journals' : List (GuestInput × Bytes)) (states states' : List ConsensusState)
    (h : Chained X spec cfg pre journals states) (h' : Chained X spec cfg pre journals' states')
    (s s' : ConsensusState) (hs : s ∈ states) (hs' : s' ∈ states')
    (chain : Chain) (hreal : RealHistory X spec chain journals) (hreal' : RealHistory X spec chain journals')
    (root : Root) (hroot : ∀ j ∈ journals ++ journals', (stateBehind chain j.1).genesisValidatorsRoot = root)
    (hepoch : pre.finalized.epoch ≠ 0) (hlook : cfg.epochLookaheadLimit ≤ spec.maxSeedLookahead)
    (hdata : ∀ a ∈ allVotes journals ++ allVotes journals', WfVoteData a.data)
    (hbig : ∀ j ∈ journals ++ journals', ∀ a ∈ j.1.attestations, 3 * spec.effectiveBalanceIncrement <
      2 * balanceOf (registryBehind spec chain j.1) (activeIndices (registryBehind spec chain j.1) a.data.target.epoch))
    (anc : Checkpoint → Checkpoint → Prop) (hanc : Ancestry anc (allVotes journals ++ allVotes journals'))
    (dishonest : List Nat)
    (hhonest : ∀ j ∈ journals, ∀ j' ∈ journals', ∀ a ∈ j.1.attestations, ∀ a' ∈ j'.1.attestations,
      let vs := registryBehind spec chain j.1
      let vs' := registryBehind spec chain j'.1
      ∀ i ∈ activeIndices vs a.data.target.epoch, i ∈ activeIndices vs' a'.data.target.epoch → i ∉ dishonest →
        registeredKey vs i = registeredKey vs' i ∧
        FollowsProtocol X signed (registeredKey vs i) (countedVotes spec root (allVotes journals ++ allVotes journals')))
    (d : Nat) (hdrift : ∀ j ∈ journals, ∀ j' ∈ journals', ∀ a ∈ j.1.attestations, ∀ a' ∈ j'.1.attestations,
      let vs := registryBehind spec chain j.1
      let vs' := registryBehind spec chain j'.1
      let active := activeIndices vs a.data.target.epoch
      let active' := activeIndices vs' a'.data.target.epoch
      greaterBalance vs vs' (union active active') ≤ balanceOf vs active + d ∧
        greaterBalance vs vs' (union active active') ≤ balanceOf vs' active' + d ∧
        3 * balanceOf vs dishonest + 3 * d < balanceOf vs active) :
    anc s.finalized s'.finalized ∨ anc s'.finalized s.finalized := by
  refine C79_no_conflict_partial X spec cfg hX hfork signed hu pre journals journals' states states' h h' s s' hs hs' chain hreal hreal'
    root hroot hepoch hlook hdata hbig anc hanc dishonest hhonest (fun j hj j' hj' a ha a' ha' => ?_)
  obtain ⟨d1, d2, d3⟩ := hdrift j hj j' hj' a ha a' ha'
  have hmin : ∀ vs vs' : List Validator, lesserBalance vs vs' dishonest ≤ balanceOf vs dishonest := by
    intro vs vs'
    unfold lesserBalance balanceOf
    generalize dishonest = l
    induction l with
    | nil => simp
    | cons a l ih => simp only [List.map_cons, List.sum_cons]; omega
  have hm := hmin (registryBehind spec chain j.1) (registryBehind spec chain j'.1)
  dsimp only at *
  omega

/-! ## A concrete case

The history of two proofs of `Chained`'s example, against the history of one proof that finalizes another block of epoch 6. -/

/-- Block and state behind the two checkpoints from which proofs start. -/
def hyChain : Chain := fun root => if root = gxC6.root then (gxHdr6, gxState) else (gxHdr, gxState)

theorem hyChain_first : hyChain gxC3.root = (gxHdr, gxState) := by
  have : gxC3.root ≠ gxC6.root := by decide +kernel
  unfold hyChain; rw [if_neg this]

theorem hyChain_second : hyChain gxC6.root = (gxHdr6, gxState) := by unfold hyChain; rw [if_pos rfl]

theorem gxNext_real : RealChain exExt exSpec gxNext gxHdr6 gxState where
  header_wf := gxHdr6_wf
  state_wf := gxState_wf
  block_root := rfl
  state_root := gxInput_real.state_root
  finalized_past := gxInput_real.finalized_past
  no_collision := ⟨proofOf_noCollision gxHdr6_chunked _ gxStrings_noCollision
    (fun _ hx => gx_mem_left (Or.inr (Or.inr (Or.inr (Or.inr hx)))))
    (fun _ hx => gx_mem_left (Or.inr (Or.inr (Or.inr (Or.inr hx))))), gxInput_real.no_collision.2⟩
  no_wrap := ⟨proofOf_noWrap gxHdr6_chunked gxHdr6_depth _, gxInput_real.no_wrap.2⟩

/-- The first history. -/
def hyLong : List (GuestInput × Bytes) := [(gxInput, Abi.encodeJournal ⟨exC4, gxC3⟩ ⟨exC7, gxC6⟩ 24),
  (gxNext, Abi.encodeJournal ⟨exC7, gxC6⟩ ⟨gxC10, gxC9⟩ 36)]

/-- The conflicting history. -/
def hyFork : List (GuestInput × Bytes) := [(gxFork, Abi.encodeJournal ⟨exC4, gxC3⟩ ⟨gxC7', gxC6'⟩ 25)]

set_option maxRecDepth 100000 in
theorem gxFork_typed : Typed gxFork where
  state := gxInput_typed.state
  votes := by
    have h4 : WfCheckpoint exC4 := ⟨by decide, by decide⟩
    have h6 : WfCheckpoint gxC6' := ⟨by decide, exExt.sha256_length _⟩
    have h7 : WfCheckpoint gxC7' := ⟨by decide, by decide⟩
    intro a ha
    simp only [gxFork, gxAllVotes, List.mem_cons, List.not_mem_nil, or_false, List.mem_append] at ha
    rcases ha with (rfl | rfl | rfl | rfl) | rfl | rfl | rfl | rfl
    all_goals first
      | exact ⟨h4, h6⟩
      | exact ⟨h6, h7⟩

theorem hy_states : WfState ⟨exC4, gxC3⟩ ∧ WfState ⟨exC7, gxC6⟩ ∧ WfState ⟨gxC10, gxC9⟩ ∧ WfState ⟨gxC7', gxC6'⟩ :=
  ⟨gxInput_typed.state, gxNext_typed.state, ⟨⟨by decide, by decide⟩, by decide, exExt.sha256_length _⟩,
    ⟨⟨by decide, by decide⟩, by decide, exExt.sha256_length _⟩⟩

theorem hyLong_chained : Chained exExt exSpec Config.default ⟨exC4, gxC3⟩ hyLong [⟨exC7, gxC6⟩, ⟨gxC10, gxC9⟩] := by
  obtain ⟨w0, w1, w2, -⟩ := hy_states
  refine .cons gxInput_typed (guestEntry_of gxInput_reader gxReader_verifies) ?_
    (.cons gxNext_typed (guestEntry_of gxNext_reader gxNext_verifies) ?_ (.nil _))
  · exact (C07_journal_round_trip _ _ 24 w0 (Or.inl (by decide)) w1 (Or.inl (by decide)) (by decide)).2.1
  · exact (C07_journal_round_trip _ _ 36 w1 (Or.inl (by decide)) w2 (Or.inl (by decide)) (by decide)).2.1

theorem hyFork_chained : Chained exExt exSpec Config.default ⟨exC4, gxC3⟩ hyFork [⟨gxC7', gxC6'⟩] := by
  obtain ⟨w0, -, -, w3⟩ := hy_states
  exact .cons gxFork_typed (guestEntry_of gxFork_reader gxFork_verifies)
    (C07_journal_round_trip _ _ 25 w0 (Or.inl (by decide)) w3 (Or.inl (by decide)) (by decide)).2.1 (.nil _)

theorem hyLong_real : RealHistory exExt exSpec hyChain hyLong := by
  intro j hj
  simp only [hyLong, List.mem_cons, List.not_mem_nil, or_false] at hj
  rcases hj with rfl | rfl
  · unfold stateBehind
    rw [show gxInput.consensusState.finalized.root = gxC3.root from rfl, hyChain_first]
    exact gxInput_real
  · unfold stateBehind
    rw [show gxNext.consensusState.finalized.root = gxC6.root from rfl, hyChain_second]
    exact gxNext_real

theorem hyFork_real : RealHistory exExt exSpec hyChain hyFork := by
  intro j hj
  simp only [hyFork, List.mem_cons, List.not_mem_nil, or_false] at hj
  subst hj
  unfold stateBehind
  rw [show gxFork.consensusState.finalized.root = gxC3.root from rfl, hyChain_first]
  exact gxFork_real

/-- The ancestry of the checkpoints in the two histories. -/
def hyAnc (a b : Checkpoint) : Prop := a = b ∨ a = exC4 ∨ (a = gxC6' ∧ b = gxC7') ∨
  (a ∈ [gxC6, exC7, gxC9, gxC10] ∧ b ∈ [gxC6, exC7, gxC9, gxC10] ∧ a.epoch ≤ b.epoch)

theorem hy_off : gxC6' ∉ [gxC6, exC7, gxC9, gxC10] ∧ gxC7' ∉ [gxC6, exC7, gxC9, gxC10] ∧ exC4 ∉ [gxC6, exC7, gxC9, gxC10] := by
  decide +kernel

theorem hyAnc_trans (a b c : Checkpoint) (h : hyAnc a b) (h' : hyAnc b c) : hyAnc a c := by
  obtain ⟨o1, o2, o3⟩ := hy_off
  rcases h with rfl | rfl | ⟨rfl, rfl⟩ | ⟨m1, m2, m3⟩
  · exact h'
  · exact Or.inr (Or.inl rfl)
  · rcases h' with rfl | h' | ⟨h', -⟩ | ⟨h', -⟩
    · exact Or.inr (Or.inr (Or.inl ⟨rfl, rfl⟩))
    · exact absurd (congrArg Checkpoint.epoch h') (by decide)
    · exact absurd (congrArg Checkpoint.epoch h') (by decide)
    · exact absurd h' o2
  · rcases h' with rfl | rfl | ⟨rfl, -⟩ | ⟨k1, k2, k3⟩
    · exact Or.inr (Or.inr (Or.inr ⟨m1, m2, m3⟩))
    · exact absurd m2 o3
    · exact absurd m2 o1
    · exact Or.inr (Or.inr (Or.inr ⟨m1, k2, Nat.le_trans m3 k3⟩))

theorem hyAnc_long : ∀ a ∈ allVotes hyLong, hyAnc a.data.source a.data.target := by
  intro a ha
  simp only [allVotes, hyLong, List.flatMap_cons, List.flatMap_nil, List.append_nil, List.mem_append, gxInput, gxVotes, gxNext, gxAllVotes,
    List.mem_cons, List.not_mem_nil, or_false] at ha
  rcases ha with (rfl | rfl | rfl | rfl | rfl | rfl | rfl | rfl | rfl) | ((rfl | rfl | rfl | rfl) | rfl | rfl | rfl | rfl)
  all_goals first
    | exact Or.inr (Or.inl rfl)
    | exact Or.inr (Or.inr (Or.inr ⟨by simp [exVote, Attestation.data], by simp [exVote, Attestation.data], by decide⟩))

theorem hy_ancestry : Ancestry hyAnc (allVotes hyLong ++ allVotes hyFork) where
  refl _ := Or.inl rfl
  trans := hyAnc_trans
  votes := by
    intro a ha
    rcases List.mem_append.1 ha with ha | ha
    · exact hyAnc_long a ha
    · simp only [allVotes, hyFork, List.flatMap_cons, List.flatMap_nil, List.append_nil, List.mem_append, gxFork, gxAllVotes,
        List.mem_cons, List.not_mem_nil, or_false] at ha
      rcases ha with (rfl | rfl | rfl | rfl) | rfl | rfl | rfl | rfl
      all_goals first
        | exact Or.inr (Or.inl rfl)
        | exact Or.inr (Or.inr (Or.inl ⟨rfl, rfl⟩))

theorem hy_conflict : ¬ hyAnc gxC9 gxC6' ∧ ¬ hyAnc gxC6' gxC9 := by
  obtain ⟨o1, o2, o3⟩ := hy_off
  constructor
  · rintro (h | h | ⟨h, -⟩ | ⟨-, h, -⟩)
    · exact absurd (congrArg Checkpoint.epoch h) (by decide)
    · exact absurd (congrArg Checkpoint.epoch h) (by decide)
    · exact absurd (congrArg Checkpoint.epoch h) (by decide)
    · exact o1 h
  · rintro (h | h | ⟨-, h⟩ | ⟨h, -⟩)
    · exact absurd (congrArg Checkpoint.epoch h) (by decide)
    · exact absurd (congrArg Checkpoint.epoch h) (by decide)
    · exact absurd (congrArg Checkpoint.epoch h) (by decide)
    · exact o1 h

theorem hy_registry (input : GuestInput) : registryBehind exSpec hyChain input = registryOf exSpec gxState input.consensusState ∧
    stateBehind hyChain input = gxState := by
  have : stateBehind hyChain input = gxState := by unfold stateBehind hyChain; split <;> rfl
  exact ⟨by unfold registryBehind; rw [this], this⟩

theorem hy_active : ∀ j ∈ hyLong ++ hyFork, ∀ a ∈ j.1.attestations,
    activeIndices (registryOf exSpec gxState j.1.consensusState) a.data.target.epoch = List.range 10 := by
  intro j hj
  simp only [hyLong, hyFork, List.cons_append, List.nil_append, List.mem_cons, List.not_mem_nil, or_false] at hj
  rcases hj with rfl | rfl | rfl <;> decide +kernel

theorem hy_balance : ∀ j ∈ hyLong ++ hyFork,
    (List.range 10).map (registeredBalance (registryOf exSpec gxState j.1.consensusState)) = List.replicate 10 32 := by
  intro j hj
  simp only [hyLong, hyFork, List.cons_append, List.nil_append, List.mem_cons, List.not_mem_nil, or_false] at hj
  rcases hj with rfl | rfl | rfl <;> decide +kernel

theorem sum_map_const (f : Nat → Nat) (c : Nat) : ∀ l : List Nat, (∀ i ∈ l, f i = c) → (l.map f).sum = l.length * c := by
  intro l
  induction l with
  | nil => simp
  | cons a l ih =>
    intro h
    rw [List.map_cons, List.sum_cons, ih (fun i hi => h i (List.mem_cons_of_mem _ hi)), h a List.mem_cons_self, List.length_cons, Nat.add_mul]
    omega

/-- The weights in the example, for all proofs whose registry is that of the example. -/
theorem hy_weights (js : List (GuestInput × Bytes))
    (hact : ∀ j ∈ js, ∀ a ∈ j.1.attestations, activeIndices (registryOf exSpec gxState j.1.consensusState) a.data.target.epoch = List.range 10)
    (hbal : ∀ j ∈ js, (List.range 10).map (registeredBalance (registryOf exSpec gxState j.1.consensusState)) = List.replicate 10 32)
    (j : GuestInput × Bytes) (hj : j ∈ js) (j' : GuestInput × Bytes) (hj' : j' ∈ js)
    (a : Attestation) (ha : a ∈ j.1.attestations) (a' : Attestation) (ha' : a' ∈ j'.1.attestations) :
    let vs := registryBehind exSpec hyChain j.1
    let vs' := registryBehind exSpec hyChain j'.1
    let active := activeIndices vs a.data.target.epoch
    let active' := activeIndices vs' a'.data.target.epoch
    active = List.range 10 ∧ (∀ i < 10, registeredBalance vs i = 32) ∧ balanceOf vs active = 320 ∧ balanceOf vs' active' = 320 ∧
      greaterBalance vs vs' (union active active') = 320 := by
  have hb : ∀ k ∈ js, ∀ i < 10, registeredBalance (registryOf exSpec gxState k.1.consensusState) i = 32 := by
    intro k hk i hi
    have h1 : ((List.range 10).map (registeredBalance (registryOf exSpec gxState k.1.consensusState)))[i]? = (List.replicate 10 32)[i]? := by
      rw [hbal k hk]
    rw [List.getElem?_replicate, if_pos hi, List.getElem?_map, List.getElem?_range hi] at h1
    exact Option.some.inj h1
  dsimp only
  rw [(hy_registry j.1).1, (hy_registry j'.1).1, hact j hj a ha, hact j' hj' a' ha']
  have hu : union (List.range 10) (List.range 10) = List.range 10 := by decide
  rw [hu]
  unfold balanceOf greaterBalance
  refine ⟨rfl, hb j hj, ?_, ?_, ?_⟩
  · exact sum_map_const _ 32 _ (fun i hi => hb j hj i (List.mem_range.1 hi))
  · exact sum_map_const _ 32 _ (fun i hi => hb j' hj' i (List.mem_range.1 hi))
  · refine sum_map_const _ 32 _ (fun i hi => ?_)
    simp only [hb j hj i (List.mem_range.1 hi), hb j' hj' i (List.mem_range.1 hi), Nat.max_self]

/-- The hypotheses of `C79_one_third_partial` and `C79_accountable_safety_partial` are met by the two histories, whose last checkpoints, of epochs 9 and 6,
conflict: there are validators with a third of the balance who voted for both. -/
example : ∃ j ∈ hyLong, ∃ j' ∈ hyFork, ∃ link link' : Link, Slashable link link' ∧ ∃ offenders : List Nat, offenders.Nodup ∧
    320 ≤ 3 * balanceOf (registryOf exSpec gxState j.1.consensusState) offenders ∧
    ∀ i ∈ offenders, SignedVote exExt exSpec (exRoot32 77) (registryOf exSpec gxState j.1.consensusState) link j.1.attestations i ∧
      SignedVote exExt exSpec (exRoot32 77) (registryOf exSpec gxState j'.1.consensusState) link' j'.1.attestations i := by
  have hw := hy_weights (hyLong ++ hyFork) hy_active hy_balance
  obtain ⟨j, hj, j', hj', l, l', ⟨a, ha, rfl⟩, ⟨a', ha', rfl⟩, h1, off, h2, h3, h4, -⟩ :=
    C79_one_third_partial exExt exSpec Config.default ⟨exC4, gxC3⟩ hyLong hyFork _ _ hyLong_chained hyFork_chained ⟨gxC10, gxC9⟩
      ⟨gxC7', gxC6'⟩ (by simp) (by simp) hyChain hyLong_real hyFork_real (by decide) (by decide)
      (fun j hj a ha => by rw [(hw j hj j hj a ha a ha).2.2.1]; decide) hyAnc hy_ancestry hy_conflict.1 hy_conflict.2 0
      (fun j hj j' hj' a ha a' ha' => by
        obtain ⟨-, -, w1, w2, w3⟩ := hw j (List.mem_append_left _ hj) j' (List.mem_append_right _ hj') a ha a' ha'
        dsimp only at w1 w2 w3 ⊢
        rw [w1, w2, w3]
        exact ⟨Nat.le_refl _, Nat.le_refl _⟩)
  have w := (hw j (List.mem_append_left _ hj) j' (List.mem_append_right _ hj') a ha a' ha').2.2.1
  dsimp only [linkOf] at w h3 h4
  rw [w] at h4
  rw [(hy_registry j.1).1, (hy_registry j'.1).1, (hy_registry j.1).2, (hy_registry j'.1).2] at h3
  rw [(hy_registry j.1).1] at h4
  exact ⟨j, hj, j', hj', _, _, h1, off, h2, by omega, h3⟩

/-! Against a history with the votes of validators 2 to 9, who sign their votes only. -/

/-- The duties of a validator over the two proofs. -/
def hyDuties (i : Nat) : List Duty :=
  let k := if i < 2 then 0 else if i < 5 then 1 else if i < 7 then 2 else 3
  sgDuties i ++ [.vote ⟨36 + k, 0, List.replicate 32 0, exC7, gxC9⟩ [5, 0, 0, 0] (exRoot32 77),
   .vote ⟨40 + k, 0, List.replicate 32 0, gxC9, gxC10⟩ [5, 0, 0, 0] (exRoot32 77)]

/-- Who signed what, keys being compressed. -/
def hySigned (key message : Bytes) : Bool :=
  decide (key = exExt.pkSerialize (exKey 0)) || decide (key = exExt.pkSerialize (exKey 1)) ||
    (List.range 10).any (fun i => decide (1 < i ∧ key = exExt.pkSerialize (exKey i)) &&
      (hyDuties i).any (fun x => decide (message = x.message exExt)))

def hyVerify (sig msg : Bytes) (keys : List Bytes) : Bool :=
  exExt.fastAggregateVerify sig msg keys && keys.all (fun k => hySigned (exExt.pkSerialize k) msg)

def hyExt : Ext := sgWith hyVerify

theorem hyExt_real : RealSigning hyExt exSpec := ⟨fun _ _ => rfl, fun _ _ => rfl⟩

theorem hyExt_unforgeable : Unforgeable hyExt (fun key m => hySigned key m = true) := by
  intro sig m keys h k hk
  exact List.all_eq_true.1 (Bool.and_eq_true_iff.1 h).2 k hk

theorem hy_domain (x : Duty) : x.domain hyExt = x.domain exExt := by
  unfold hyExt
  cases x <;> simp only [Duty.domain, domainOf, sg_root]

theorem hy_message (x : Duty) : x.message hyExt = x.message exExt := by
  unfold Duty.message
  rw [hy_domain]
  unfold hyExt
  rw [sg_root]

theorem hy_realChain {input : GuestInput} {hdr : Header} {st : BeaconState} (h : RealChain exExt exSpec input hdr st) :
    RealChain hyExt exSpec input hdr st := by
  refine ⟨h.header_wf, h.state_wf, ?_, ?_, h.finalized_past, ?_, h.no_wrap⟩
  · rw [← h.block_root]; unfold hyExt; rw [sg_root]
  · rw [← h.state_root]; unfold hyExt; rw [sg_root]
  · have key : ∀ p T, NoCollision exExt p T → NoCollision hyExt p T := by
      intro p T hn P hP
      unfold hyExt
      rw [sg_hashed]
      exact hn P hP
    exact ⟨key _ _ h.no_collision.1, key _ _ h.no_collision.2.1, key _ _ h.no_collision.2.2⟩

set_option maxRecDepth 100000 in
theorem hyFirst_verifies : verify hyExt Config.sepolia gxReader.toReader = .ok (⟨exC7, gxC6⟩, 24) := by decide +kernel

set_option maxRecDepth 100000 in
theorem hyNext_verifies : verify hyExt Config.sepolia gxNextReader.toReader = .ok (⟨gxC10, gxC9⟩, 36) := by decide +kernel

set_option maxRecDepth 100000 in
theorem hySecond_verifies : verify hyExt Config.sepolia sgSecondReader.toReader = .ok (⟨exC7, gxC6⟩, 24) := by decide +kernel

/-- The second history. -/
def hyShort : List (GuestInput × Bytes) := [(sgSecond, Abi.encodeJournal ⟨exC4, gxC3⟩ ⟨exC7, gxC6⟩ 24)]

theorem sgSecond_typed : Typed sgSecond where
  state := gxInput_typed.state
  votes := fun a ha => gxInput_typed.votes a (List.mem_filter.1 ha).1

theorem hyLong_chained' : Chained hyExt exSpec Config.sepolia ⟨exC4, gxC3⟩ hyLong [⟨exC7, gxC6⟩, ⟨gxC10, gxC9⟩] := by
  obtain ⟨w0, w1, w2, -⟩ := hy_states
  refine .cons gxInput_typed (guestEntry_of ((sg_intoReader _ _ _).trans gxInput_reader) hyFirst_verifies) ?_
    (.cons gxNext_typed (guestEntry_of ((sg_intoReader _ _ _).trans gxNext_reader) hyNext_verifies) ?_ (.nil _))
  · exact (C07_journal_round_trip _ _ 24 w0 (Or.inl (by decide)) w1 (Or.inl (by decide)) (by decide)).2.1
  · exact (C07_journal_round_trip _ _ 36 w1 (Or.inl (by decide)) w2 (Or.inl (by decide)) (by decide)).2.1

theorem hyShort_chained : Chained hyExt exSpec Config.sepolia ⟨exC4, gxC3⟩ hyShort [⟨exC7, gxC6⟩] := by
  obtain ⟨w0, w1, -, -⟩ := hy_states
  exact .cons sgSecond_typed (guestEntry_of ((sg_intoReader _ _ _).trans sgSecond_reader) hySecond_verifies)
    (C07_journal_round_trip _ _ 24 w0 (Or.inl (by decide)) w1 (Or.inl (by decide)) (by decide)).2.1 (.nil _)

theorem hyShort_real : RealHistory hyExt exSpec hyChain hyShort := by
  intro j hj
  simp only [hyShort, List.mem_cons, List.not_mem_nil, or_false] at hj
  subst hj
  unfold stateBehind
  rw [show sgSecond.consensusState.finalized.root = gxC3.root from rfl, hyChain_first]
  exact hy_realChain sgSecond_real

/-- All strings hashed for the messages of the duties. -/
def hyStrings : List Bytes :=
  ((List.range 10).flatMap (fun i => (hyDuties i).flatMap (fun x => (Tree.node x.object (.leaf (x.domain exExt))).hashed exExt))).dedup

set_option maxRecDepth 100000 in
theorem hyStrings_noCollision : NoCollisionOn exExt hyStrings := noCollisionOn_of_nodup (by decide +kernel)

theorem hy_strings {i : Nat} (hi : i < 10) {x : Duty} (hx : x ∈ hyDuties i) :
    ∀ b ∈ (Tree.node x.object (.leaf (x.domain hyExt))).hashed hyExt, b ∈ hyStrings := by
  intro b hb
  rw [hy_domain] at hb
  unfold hyExt at hb
  rw [sg_hashed] at hb
  exact List.mem_dedup.2 (List.mem_flatMap.2 ⟨i, List.mem_range.2 hi, List.mem_flatMap.2 ⟨x, hx, hb⟩⟩)

theorem hyDuties_cases {i : Nat} {x : Duty} (hx : x ∈ hyDuties i) : x ∈ sgDuties i ∨ ∃ k, k < 4 ∧
    (x = .vote ⟨36 + k, 0, List.replicate 32 0, exC7, gxC9⟩ [5, 0, 0, 0] (exRoot32 77) ∨
     x = .vote ⟨40 + k, 0, List.replicate 32 0, gxC9, gxC10⟩ [5, 0, 0, 0] (exRoot32 77)) := by
  unfold hyDuties at hx
  rcases List.mem_append.1 hx with hx | hx
  · exact Or.inl hx
  · refine Or.inr ⟨if i < 2 then 0 else if i < 5 then 1 else if i < 7 then 2 else 3, by split_ifs <;> omega, ?_⟩
    simpa using hx

theorem hy_forkData {i : Nat} {x : Duty} (hx : x ∈ hyDuties i) : x.forkData = forkDataTree [5, 0, 0, 0] (exRoot32 77) := by
  rcases hyDuties_cases hx with hx | ⟨k, -, rfl | rfl⟩
  · exact sg_forkData hx
  · rfl
  · rfl

theorem hy_distinguished {i j : Nat} (hi : i < 10) (hj : j < 10) {x y : Duty} (hx : x ∈ hyDuties i) (hy : y ∈ hyDuties j) :
    Duty.Distinguished hyExt x y where
  message := by
    have hall : ∀ b ∈ (Tree.node x.object (.leaf (x.domain hyExt))).hashed hyExt ++
        (Tree.node y.object (.leaf (y.domain hyExt))).hashed hyExt, b ∈ hyStrings := by
      intro b hb
      rcases List.mem_append.1 hb with hb | hb
      · exact hy_strings hi hx b hb
      · exact hy_strings hj hy b hb
    exact fun a ha b hb => hyStrings_noCollision a (hall a ha) b (hall b hb)
  fork_data := fun _ => by rw [hy_forkData hx, hy_forkData hy]

/-- Every vote in the histories is among the duties of one of the validators. -/
theorem hy_counted : ∀ y ∈ countedVotes exSpec (exRoot32 77) (allVotes hyLong ++ allVotes hyShort), ∃ j, j < 10 ∧ y ∈ hyDuties j := by
  intro y hy
  obtain ⟨a, ha, rfl⟩ := List.mem_map.1 hy
  have key : a ∈ gxInput.attestations ++ sgSecond.attestations ∨ a ∈ gxNext.attestations := by
    simp only [allVotes, hyLong, hyShort, List.flatMap_cons, List.flatMap_nil, List.append_nil, List.mem_append] at ha ⊢
    rcases ha with (ha | ha) | ha
    · exact Or.inl (Or.inl ha)
    · exact Or.inr ha
    · exact Or.inl (Or.inr ha)
  rcases key with ha | ha
  · obtain ⟨j, hj, h⟩ := sg_counted _ (List.mem_map.2 ⟨a, ha, rfl⟩)
    exact ⟨j, hj, List.mem_append_left _ h⟩
  · simp only [gxNext, gxAllVotes, List.mem_cons, List.not_mem_nil, or_false, List.mem_append] at ha
    rcases ha with (rfl | rfl | rfl | rfl) | rfl | rfl | rfl | rfl
    · exact ⟨0, by decide, List.mem_append_right _ List.mem_cons_self⟩
    · exact ⟨2, by decide, List.mem_append_right _ List.mem_cons_self⟩
    · exact ⟨5, by decide, List.mem_append_right _ List.mem_cons_self⟩
    · exact ⟨7, by decide, List.mem_append_right _ List.mem_cons_self⟩
    · exact ⟨0, by decide, List.mem_append_right _ (List.mem_cons_of_mem _ List.mem_cons_self)⟩
    · exact ⟨2, by decide, List.mem_append_right _ (List.mem_cons_of_mem _ List.mem_cons_self)⟩
    · exact ⟨5, by decide, List.mem_append_right _ (List.mem_cons_of_mem _ List.mem_cons_self)⟩
    · exact ⟨7, by decide, List.mem_append_right _ (List.mem_cons_of_mem _ List.mem_cons_self)⟩

theorem hyDuties_wf (i : Nat) : ∀ x ∈ hyDuties i, x.WF := by
  have h7 : WfCheckpoint exC7 := ⟨by decide, by decide⟩
  have h9 : WfCheckpoint gxC9 := ⟨by decide, exExt.sha256_length _⟩
  have h10 : WfCheckpoint gxC10 := ⟨by decide, by decide⟩
  intro x hx
  rcases hyDuties_cases hx with hx | ⟨k, hk, rfl | rfl⟩
  · exact sgDuties_wf i x hx
  · exact ⟨⟨show 36 + k < 2 ^ 64 by omega, show 0 < 2 ^ 64 by decide, show (List.replicate 32 (0 : UInt8)).length = 32 by decide, h7, h9⟩,
      by decide, by decide⟩
  · exact ⟨⟨show 40 + k < 2 ^ 64 by omega, show 0 < 2 ^ 64 by decide, show (List.replicate 32 (0 : UInt8)).length = 32 by decide, h9, h10⟩,
      by decide, by decide⟩

theorem hyDuties_notSlashable (i : Nat) : NotSlashable (hyDuties i) := by
  intro d v d' v' g h h' hs
  have key : ∀ {d v}, Duty.vote d v g ∈ hyDuties i →
      (d.source = exC4 ∧ d.target = gxC6) ∨ (d.source = gxC6 ∧ d.target = exC7) ∨ (d.source = exC7 ∧ d.target = gxC9) ∨
        (d.source = gxC9 ∧ d.target = gxC10) := by
    intro d v h
    rcases hyDuties_cases h with h | ⟨k, -, h | h⟩
    · simp only [sgDuties, List.mem_cons, List.not_mem_nil, or_false, Duty.vote.injEq, reduceCtorEq] at h
      rcases h with ⟨rfl, -⟩ | ⟨rfl, -⟩
      · exact Or.inl ⟨rfl, rfl⟩
      · exact Or.inr (Or.inl ⟨rfl, rfl⟩)
    · injection h with h _ _; subst h; exact Or.inr (Or.inr (Or.inl ⟨rfl, rfl⟩))
    · injection h with h _ _; subst h; exact Or.inr (Or.inr (Or.inr ⟨rfl, rfl⟩))
  have e4 : exC4.epoch = 4 := rfl
  have e6 : gxC6.epoch = 6 := rfl
  have e7 : exC7.epoch = 7 := rfl
  have e9 : gxC9.epoch = 9 := rfl
  have e10 : gxC10.epoch = 10 := rfl
  rcases key h with ⟨a, b⟩ | ⟨a, b⟩ | ⟨a, b⟩ | ⟨a, b⟩ <;> rcases key h' with ⟨a', b'⟩ | ⟨a', b'⟩ | ⟨a', b'⟩ | ⟨a', b'⟩ <;>
    rw [a, b, a', b'] at hs <;> rcases hs with ⟨h1, h2⟩ | ⟨h1, h2⟩ | ⟨h1, h2⟩ <;> simp_all

theorem hy_follows (i : Nat) (h1 : 1 < i) (h2 : i < 10) :
    FollowsProtocol hyExt (fun key m => hySigned key m = true) (exExt.pkSerialize (exKey i))
      (countedVotes exSpec (exRoot32 77) (allVotes hyLong ++ allVotes hyShort)) := by
  refine ⟨hyDuties i, ⟨hyDuties_wf i, fun m hm => ?_⟩, hyDuties_notSlashable i, fun x hx y hy => ?_⟩
  · have hne : ∀ j, j < 10 → exExt.pkSerialize (exKey i) = exExt.pkSerialize (exKey j) → i = j := by
      have : ∀ i, i < 10 → ∀ j, j < 10 → exExt.pkSerialize (exKey i) = exExt.pkSerialize (exKey j) → i = j := by decide +kernel
      exact this i h2
    simp only [hySigned, Bool.or_eq_true, decide_eq_true_eq, List.any_eq_true, Bool.and_eq_true, List.mem_range] at hm
    rcases hm with (hm | hm) | ⟨j, hj, ⟨-, hk⟩, x, hx, he⟩
    · have := hne 0 (by omega) hm; omega
    · have := hne 1 (by omega) hm; omega
    · obtain rfl := hne j hj hk
      exact ⟨x, hx, by rw [he, hy_message]⟩
  · obtain ⟨j, hj, hyj⟩ := hy_counted y hy
    exact hy_distinguished hj h2 hyj hx

theorem hy_active' : ∀ j ∈ hyLong ++ hyShort, ∀ a ∈ j.1.attestations,
    activeIndices (registryOf exSpec gxState j.1.consensusState) a.data.target.epoch = List.range 10 := by
  intro j hj
  simp only [hyLong, hyShort, List.cons_append, List.nil_append, List.mem_cons, List.not_mem_nil, or_false] at hj
  rcases hj with rfl | rfl | rfl <;> decide +kernel

theorem hy_balance' : ∀ j ∈ hyLong ++ hyShort,
    (List.range 10).map (registeredBalance (registryOf exSpec gxState j.1.consensusState)) = List.replicate 10 32 ∧
    ∀ i, i < 10 → registeredKey (registryOf exSpec gxState j.1.consensusState) i = exExt.pkSerialize (exKey i) := by
  intro j hj
  simp only [hyLong, hyShort, List.cons_append, List.nil_append, List.mem_cons, List.not_mem_nil, or_false] at hj
  rcases hj with rfl | rfl | rfl <;> decide +kernel

theorem hy_ancestry' : Ancestry hyAnc (allVotes hyLong ++ allVotes hyShort) where
  refl _ := Or.inl rfl
  trans := hyAnc_trans
  votes := by
    intro a ha
    rcases List.mem_append.1 ha with ha | ha
    · exact hyAnc_long a ha
    · refine hyAnc_long a ?_
      simp only [allVotes, hyLong, hyShort, List.flatMap_cons, List.flatMap_nil, List.append_nil, List.mem_append] at ha ⊢
      exact Or.inl (List.mem_filter.1 ha).1

/-- The hypotheses of `C79_less_than_third_partial`, and so those of `C79_no_conflict_partial`, are met: the last checkpoints of the two histories, of
epochs 9 and 6, do not conflict, although validators 0 and 1 sign everything. -/
example : hyAnc gxC9 gxC6 ∨ hyAnc gxC6 gxC9 := by
  have hw := hy_weights (hyLong ++ hyShort) hy_active' (fun j hj => (hy_balance' j hj).1)
  refine C79_less_than_third_partial hyExt exSpec Config.sepolia hyExt_real sg_forkVersions _ hyExt_unforgeable ⟨exC4, gxC3⟩ hyLong hyShort _ _
    hyLong_chained' hyShort_chained ⟨gxC10, gxC9⟩ ⟨exC7, gxC6⟩ (by simp) (by simp) hyChain (fun j hj => hy_realChain (hyLong_real j hj))
    hyShort_real (exRoot32 77) (fun j _ => by rw [(hy_registry j.1).2]; rfl) (by decide) (by decide)
    (fun a ha => ?_) (fun j hj a ha => by rw [(hw j hj j hj a ha a ha).2.2.1]; decide) hyAnc hy_ancestry' [0, 1]
    (fun j hj j' hj' a ha a' ha' => ?_) 0 (fun j hj j' hj' a ha a' ha' => ?_)
  · obtain ⟨j, -, hj⟩ := hy_counted _ (List.mem_map.2 ⟨a, ha, rfl⟩)
    exact (hyDuties_wf j _ hj).1
  · intro vs vs' i hi hi' hni
    have hj := List.mem_append_left hyShort hj
    have hj' := List.mem_append_right hyLong hj'
    have w := (hw j hj j' hj' a ha a' ha').1
    dsimp only [vs, vs'] at *
    rw [w, List.mem_range] at hi
    rw [(hy_registry j.1).1, (hy_registry j'.1).1, (hy_balance' j hj).2 i hi, (hy_balance' j' hj').2 i hi]
    refine ⟨rfl, hy_follows i ?_ hi⟩
    simp only [List.mem_cons, List.not_mem_nil, or_false, not_or] at hni
    omega
  · obtain ⟨-, w0, w1, w2, w3⟩ := hw j (List.mem_append_left _ hj) j' (List.mem_append_right _ hj') a ha a' ha'
    dsimp only at w0 w1 w2 w3 ⊢
    rw [w1, w2, w3]
    refine ⟨Nat.le_refl _, Nat.le_refl _, ?_⟩
    have : balanceOf (registryBehind exSpec hyChain j.1) [0, 1] = 64 := by
      simp only [balanceOf, List.map_cons, List.map_nil, List.sum_cons, List.sum_nil, w0 0 (by decide), w0 1 (by decide)]
      rfl
    omega

end Signal
