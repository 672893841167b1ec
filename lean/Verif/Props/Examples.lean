import Verif.Props.VerifyOrder
import Verif.Props.Committee
import Verif.Props.Patches
import Verif.Props.Host
import Verif.Props.Guest

/-!
# Concrete cases of C09 – C24, C32, C34, C35, C43, C44 and C56

The theorems about `verify` are applied to the accepted input of `Verif/Props/VerifyOrder.lean` (ten validators, one slashed, nine votes,
two links), those about committees, registries and the search of the host to the data beside them. Each case gives all hypotheses of the
theorem, so none of them is empty, and each conclusion is about values that are written out.
-/

namespace Signal
open Spec

/-! ## C09 – C21 -/

/-- The state before the run. -/
def exPre : ConsensusState := ⟨exC4, ⟨3, exRoot32 3⟩⟩

/-- **C09.** The run of the example finalizes epoch 6 with its last link. -/
example : ∃ links, Blocks exVotes links ∧ Run exPre links ⟨exC7, exC6⟩ ∧ links ≠ [] ∧
    ∀ before l after, links = before ++ l :: after →
      ∃ s s', Run exPre before s ∧ s.finalized = ⟨3, exRoot32 3⟩ ∧ Step s l s' ∧ Run s' after ⟨exC7, exC6⟩ := by
  obtain ⟨pre, atts, links, h1, h2, h3, h4, -, h5, h6⟩ := C09_exactly_one_finalization exExt Config.default exReader _ _ exReader_verifies
  cases h1; cases h2
  exact ⟨links, h3, h4, h5, h6⟩

/-- **C10.** It advances finality from epoch 3 to epoch 6. -/
example : exPre.finalized.epoch < exC6.epoch ∧ exPre.currentJustified.epoch ≤ exC6.epoch ∧ exC7.epoch = exC6.epoch + 1 := by
  obtain ⟨pre, h1, -, -, h2, h3, h4⟩ := C10_strictly_advances exExt Config.default exReader _ _ exReader_verifies
  cases h1
  exact ⟨h2, h3, h4⟩

/-- **C11.** It is an Atomic Finalization; the exception for the all-zero state does not apply. -/
example : ∃ links, Blocks exVotes links ∧ AtomicFinalization exC4 links (exC6, exC7) := by
  obtain ⟨pre, atts, links, h1, h2, h3, h4⟩ := C11_atomic_finalization exExt Config.default exReader _ _ exReader_verifies
  cases h1; cases h2
  rcases h4 with h4 | ⟨h4, -⟩
  · exact ⟨links, h3, h4⟩
  · exact absurd h4 (by decide)

/-- The first vote of the example. -/
def exFirst : Attestation := exVote 24 exC4 exC6 [0, 1]

theorem exFirst_mem : exFirst ∈ exVotes := List.mem_cons_self

/-- **C12, C13, C16.** The counted voters of the first link are distinct, unslashed signers of votes for it, with 85 percent of the
balance. Validator 9 has signed but is slashed, so it is not counted. -/
example : ∃ voters : List Nat, voters.Nodup ∧ 9 ∉ voters ∧
    (∀ i ∈ voters, ∃ b ∈ exVotes, linkOf b = ⟨exC4, exC6⟩ ∧ ∃ signers, i ∈ signers ∧ Vote exExt exReader (OMap.ofList exActive) b signers) ∧
    floored exSpec (totalWeight (OMap.ofList exActive)) * 85 ≤ floored exSpec (weight (OMap.ofList exActive) voters) * 100 := by
  obtain ⟨l, voters, h1, h2, h3, h4⟩ := C12_supermajority exExt Config.default exReader _ _ exReader_verifies exVotes rfl exFirst exFirst_mem
  cases h1
  refine ⟨voters, h2, ?_, fun i hi => (h3 i hi).2, h4⟩
  intro h9
  obtain ⟨⟨v, hv, hs⟩, -⟩ := h3 9 h9
  have : (OMap.ofList exActive).get? 9 = some (exVal 9) := by decide +kernel
  rw [this] at hv
  cases hv
  exact absurd hs (by decide)

/-- The weights in numbers: 320 in all, so at least 272 voted. -/
example : totalWeight (OMap.ofList exActive) = 320 ∧ floored exSpec 320 = 320 ∧ 320 * 85 ≤ 272 * 100 := by decide +kernel

/-- **C13.** -/
example : ∃ voters : List Nat, voters.Nodup ∧
    2 * floored exSpec (totalWeight (OMap.ofList exActive)) ≤ 3 * floored exSpec (weight (OMap.ofList exActive) voters) := by
  obtain ⟨l, voters, h1, h2, -, h4⟩ := C13_two_thirds_partial exExt Config.default exReader _ _ exReader_verifies exVotes rfl exFirst exFirst_mem
  cases h1
  exact ⟨voters, h2, h4⟩

example : checkThreshold Config.sepolia 224 320 = .ok () ∧ checkThreshold Config.sepolia 223 320 = .err (.thresholdNotMet 223 224) := by
  decide +kernel

/-- **C14.** The signers of the first vote are those its bits select: validators 0 and 1. -/
example : ∃ signers seed sh, Vote exExt exReader (OMap.ofList exActive) exFirst signers ∧
    exReader.getSeed exExt 6 exSpec.domainBeaconAttester = .ok seed ∧
    exExt.shuffleList (List.range 10) exSpec.shuffleRoundCount seed = some sh ∧ SelectedBy sh 2 exSpec.slotsPerEpoch exFirst signers := by
  obtain ⟨l, signers, seed, sh, h1, h2, h3, h4, h5⟩ :=
    C14_counted_votes_are_real_partial exExt Config.default exReader _ _ exReader_verifies exPre rfl exVotes rfl exFirst exFirst_mem
  cases h1
  have hk : (OMap.ofList exActive).keys = List.range 10 := by decide +kernel
  rw [hk] at h4
  refine ⟨signers, seed, sh, h2, h3, h4, ?_⟩
  cases h4
  have hp : max 1 (min exSpec.maxCommitteesPerSlot ((OMap.ofList exActive).length / exSpec.slotsPerEpoch / exSpec.targetCommitteeSize)) = 2 := by
    decide +kernel
  have h6 : NoUsizeWrap exExt.usizeMod (List.range 10).length 2 exSpec.slotsPerEpoch →
      SelectedBy (List.range 10) 2 exSpec.slotsPerEpoch exFirst signers := by
    have := h5
    simp only [exReader, hp] at this
    exact this
  exact h6 ⟨by decide, by decide, by decide, by decide⟩

/-- A copy of the first vote whose slot is not in its target epoch. -/
def exOddVote : Attestation := exVote 23 exC4 exC6 [0, 1]

/-- **C17.** Put in front of the accepted votes, it makes the input fail. -/
example : ∀ r, verify exExt Config.default { exReader with attestations := .ok (exOddVote :: exVotes) } ≠ .ok r :=
  C17_causes exExt Config.default { exReader with attestations := .ok (exOddVote :: exVotes) } _ rfl exOddVote List.mem_cons_self
    (Or.inr (Or.inl (by decide)))

/-- **C17.** So does a vote that carries no signature. -/
example : ∀ r, verify exExt Config.default
    { exReader with attestations := .ok (.electra ⟨[true], ⟨24, 0, List.replicate 32 0, exC4, exC6⟩, [true], []⟩ :: exVotes) } ≠ .ok r := by
  refine C17_causes exExt Config.default { exReader with attestations := .ok (_ :: exVotes) } _ rfl _ List.mem_cons_self
    (Or.inr (Or.inr (Or.inr ?_)))
  intro e root fork keys h1 h2 h3
  cases h1
  have hne : ∀ b, padSig b ≠ [] := by
    intro b h
    have := congrArg List.length h
    simp only [padSig, List.length_append, List.length_replicate, List.length_nil] at this
    omega
  have hf : ∀ msg keys, exExt.fastAggregateVerify [] msg keys = false := fun msg keys => decide_eq_false (fun h => hne _ (Eq.symm h))
  exact hf _ _

/-- **C18.** The targets are within four epochs of the trusted checkpoint and in a supported fork. -/
example : exFirst.data.target.epoch ≤ 3 + 4 ∧ exC7.epoch ≤ 3 + 4 ∧ 5 ≤ exSpec.forkNameAtEpoch 6 ∧ exSpec.forkNameAtEpoch 6 ≤ 6 := by
  obtain ⟨h1, h2, h3⟩ := C18_window_and_forks exExt Config.default exReader _ _ exReader_verifies exPre rfl exVotes rfl exFirst exFirst_mem
  exact ⟨h1, C18_result_in_window exExt Config.default exReader _ _ exReader_verifies exPre rfl, h2, h3⟩

/-- **C19.** -/
example : exVotes.Pairwise (fun a b => linkOf a = linkOf b ∨ a.data.target.epoch < b.data.target.epoch) :=
  (C19_links_contiguous exExt Config.default exReader _ _ exReader_verifies exVotes rfl).2

set_option maxRecDepth 100000 in
/-- **C19.** A vote for the first link after those for the second: refused. -/
example : ∀ r, verify exExt Config.default { exReader with attestations := .ok (exVotes ++ [exFirst]) } ≠ .ok r := by
  rintro ⟨post, slot⟩ h
  have := (C19_links_contiguous exExt Config.default _ _ _ h _ rfl).2
  exact absurd this (by decide +kernel)

/-- **C20.** The total balance of the ten validators; two that do not fit in 64 bits together; the empty set, raised to an increment. -/
example : getTotalBalance exSpec (exActive.map (·.2)) = .ok 320 ∧
    getTotalBalance exSpec [{ exVal 0 with effectiveBalance := 2 ^ 63 }, { exVal 1 with effectiveBalance := 2 ^ 63 }] = .err .overflow ∧
    getTotalBalance exSpec [] = .ok exSpec.effectiveBalanceIncrement := by
  refine ⟨?_, ?_, ?_⟩ <;> rw [C20_total_balance_exact] <;> decide +kernel

/-- **C21.** A second reader that differs in the seed and in the configuration: both runs are accepted, with one result. -/
def exOther : Reader := { exReader with randaoMix := fun _ _ => .ok (some (exRoot32 2)) }

set_option maxRecDepth 100000 in
theorem exOther_verifies : verify exExt Config.sepolia exOther = .ok (⟨exC7, exC6⟩, 24) := by decide +kernel

example : ∀ r r', verify exExt Config.default exReader = .ok r → verify exExt Config.sepolia exOther = .ok r' → r = r' :=
  fun r r' => C21_outcome_independent_of_shuffling exExt exExt Config.default Config.sepolia exReader exOther rfl rfl rfl r r'

/-- **C21.** A shuffle that reverses the list is not the one the votes were made for, and is refused; a shuffle that only ignores the
seed is accepted, and what is counted are still genuine votes. -/
example : ∃ active signers voters, Justifies exExt Config.sepolia exReader exPre.finalized ⟨exC4, exC6⟩
    (exVotes.filter (fun b => decide (linkOf b = ⟨exC4, exC6⟩))) active signers voters :=
  C21_guarantees_for_any_shuffling exExt Config.sepolia exReader (fun l _ _ => some l) (fun _ _ => .ok (some (exRoot32 2))) _ _
    exOther_verifies exPre rfl exVotes rfl exFirst exFirst_mem

/-! ## C22 – C24 -/

/-- The validators of the cache. -/
def exIndices : List Nat := [1, 2, 3, 5, 8, 9, 10, 12, 13, 20]

/-- **C22 – C24.** The cache over ten validators of `Verif/Props/Committee.lean`. -/
example : ∃ c, exCache = .ok c ∧
    (∀ (a : AttestationElectra) (s : List Nat), getAttestingIndices exExt exSpec a c = .ok s →
      s.Pairwise (· < ·) ∧ ∀ i ∈ s, i ∈ exIndices) ∧
    (∃ com : Nat → Nat → List Nat,
      (List.range 4).flatMap (fun s => (List.range 2).flatMap (com s)) = exIndices) ∧
    (∃! si : Nat × Nat, si.1 < 4 ∧ si.2 < 2 ∧ ∃ l, c.getBeaconCommittee exExt exSpec (7 * 4 + si.1) si.2 = .ok l ∧ 12 ∈ l) ∧
    (c.shuffledPosition 12 = some 7 ∧ c.shuffledPosition 11 = none) := by
  have hc : ∃ c, CommitteeCache.initialized exExt exSpec [] exIndices 2 7 = .ok c := ⟨_, rfl⟩
  obtain ⟨c, hc⟩ := hc
  have hw : NoUsizeWrap exExt.usizeMod exIndices.length 2 exSpec.slotsPerEpoch := ⟨by decide, by decide, by decide, by decide⟩
  have hsh : exExt.shuffleList exIndices exSpec.shuffleRoundCount [] = some exIndices := rfl
  refine ⟨c, hc, ?_, ?_, ?_, ?_⟩
  · intro a s h
    have h1 := (C22_attesting_indices_partial exExt exSpec [] _ _ 2 7 _ hc hsh hw a s).1 h
    refine ⟨h1.2.2.1, fun i hi => ?_⟩
    have hi := (h1.2.2.2 i).1 hi
    unfold attesters at hi
    obtain ⟨⟨j, b⟩, hj, rfl⟩ := List.mem_map.1 hi
    obtain ⟨k, -, hk⟩ := List.mem_flatMap.1 (List.of_mem_zip (List.mem_filter.1 hj).1).1
    unfold beaconCommittee committee at hk
    exact List.mem_of_mem_drop (List.mem_of_mem_take hk)
  · obtain ⟨com, -, h⟩ := C23_committees_tile_partial exExt exSpec [] _ _ 2 7 _ hc hsh hw
    exact ⟨com, h⟩
  · exact (C23_one_committee_partial exExt exSpec [] _ _ 2 7 _ hc hsh (List.Perm.refl _) (by decide) hw).1 12 (by decide)
  · have h := C24_shuffled_position exExt exSpec [] _ _ 2 7 _ hc hsh (by decide)
    exact ⟨((h 12).1 7).2 rfl, (h 11).2.2 (by decide)⟩

/-! ## C32, C34, C35 -/

/-- **C32.** The registry of eleven validators of the example input, one of them exited: whatever proof of it is accepted, the active set
of epoch 5 is that of the registry, with its balance. -/
example : OMap.keys (exActive.filter (fun e => e.2.isActiveAt 5)) = activeIndices gxVs 5 ∧
    ((exActive.filter (fun e => e.2.isActiveAt 5)).map (·.2.effectiveBalance)).sum =
      ((activeIndices gxVs 5).map (registeredBalance gxVs)).sum :=
  C32_active_set_partial exExt gxVs gxVs_wf gxRegProof gxKeys 3 exActive gxReg_verify gxReg_extract gxReg_noCollision
    (proofOf_noWrap gxRegP_chunked gxRegP_depth _) 5 (by decide)

/-- **C34.** What the update of epochs 10 and 11 makes of the example registry: who is active up to epoch 14 is unchanged, although
validator 10 is scheduled for epoch 16. -/
example : ∃ m', (registryLoop exSpec 8 10 11 2 10 exRegistry : Res Unit _) = .ok m' ∧ m'.keys = exRegistry.keys ∧
    (∀ e, e ≤ 10 + exSpec.maxSeedLookahead → e < exSpec.farFutureEpoch →
      OMap.keys (m'.filter (fun x => x.2.isActiveAt e)) = OMap.keys (exRegistry.filter (fun x => x.2.isActiveAt e))) ∧
    OMap.keys (m'.filter (fun x => x.2.isActiveAt 16)) ≠ OMap.keys (exRegistry.filter (fun x => x.2.isActiveAt 16)) := by
  have h : (registryLoop exSpec 8 10 11 2 10 exRegistry : Res Unit _) =
      .ok (exActive ++ [(10, ⟨[110], 32, false, 9, 11 + 1 + 4, u64Max⟩),
        (11, ⟨[111], 32, false, 11, u64Max, u64Max⟩), (12, ⟨[112], 32, false, 0, 0, 13⟩)]) := by decide +kernel
  exact ⟨_, h, (C34_only_schedules exSpec 8 10 11 2 10 _ _ h).1, fun e => C34_activity_unchanged exSpec 8 10 11 2 10 _ _ h e,
    by decide +kernel⟩

/-- **C35.** The reader of the example input: in epoch 6 the registry it proved is what counts. -/
example : gxReader.activeValidators 6 = gxReader.validators.filter (fun x => x.2.isActiveAt 6) :=
  C35_window exExt exSpec gxInput gxReader gxInput_reader (by decide) 6 (by decide)

/-! ## C43, C44, C56 -/

theorem hxAsk_small : ∀ slot t, hxAsk slot = .ok t → t.currentJustified.epoch < 2 ^ 64 := by
  intro slot t h
  unfold hxAsk at h
  repeat' split at h
  all_goals first
    | cases h; decide
    | cases h

set_option maxRecDepth 100000 in
/-- **C43.** From epoch 5 the host finds the links 4 → 6 and 6 → 7; they lead from the state of the chain at epoch 5 to that at epoch 8. -/
example : ∃ e, 5 < e ∧ ChainAt 4 hxAsk e ⟨hxC 7, hxC 6⟩ ∧
    applyLinks ⟨hxC 4, hxC 3⟩ [⟨hxC 4, hxC 6⟩, ⟨hxC 6, hxC 7⟩] = .ok ⟨hxC 7, hxC 6⟩ ∧
    ∀ e', 5 ≤ e' → e' < e → ∃ t, ChainAt 4 hxAsk e' t ∧ t.finalized = hxC 3 := by
  have h : justificationsUntilNewFinality 4 hxAsk 5 9 =
      some (.ok (⟨hxC 4, hxC 3⟩, ⟨hxC 7, hxC 6⟩, [⟨hxC 4, hxC 6⟩, ⟨hxC 6, hxC 7⟩])) := by decide +kernel
  obtain ⟨-, h2, -, -, e, h3, -, h4, h5⟩ := C43_links_replay 4 hxAsk 5 9 _ _ _ hxAsk_small h
  exact ⟨e, h3, h4, h2, h5⟩

set_option maxRecDepth 100000 in
/-- **C44.** For these links the host returns the eight votes, grouped by link, out of the blocks of slots 24 to 32. -/
example : collectAttestations 4 hxBlocks [⟨hxC 4, hxC 6⟩, ⟨hxC 6, hxC 7⟩] = .ok (hxVotes 4 6 ++ hxVotes 6 7) ∧
    ∃ (blocks : List (Option Block)) (first last : Nat), first = 24 ∧ last = 32 ∧
      (List.range' first (last + 1 - first)).map hxBlocks = blocks.map .ok ∧
      hxVotes 4 6 ++ hxVotes 6 7 =
        [⟨hxC 4, hxC 6⟩, ⟨hxC 6, hxC 7⟩].flatMap (fun l => votesFor l (blockAttestations blocks)) := by
  have h : collectAttestations 4 hxBlocks [⟨hxC 4, hxC 6⟩, ⟨hxC 6, hxC 7⟩] = .ok (hxVotes 4 6 ++ hxVotes 6 7) := by decide +kernel
  refine ⟨h, ?_⟩
  obtain ⟨lo, hi, blocks, first, last, h1, h2, h3, h4, h5, -, h6, h7⟩ :=
    C44_collects_partial 4 hxBlocks _ _ (by decide) (by decide) h
  have hlo : lo.target.epoch = 6 := by
    have := (h3 ⟨hxC 4, hxC 6⟩ (by decide)).1
    simp only [List.mem_cons, List.not_mem_nil, or_false] at h1
    rcases h1 with rfl | rfl
    · rfl
    · exact absurd this (by decide)
  have hhi : hi.target.epoch = 7 := by
    have := (h3 ⟨hxC 6, hxC 7⟩ (by decide)).2
    simp only [List.mem_cons, List.not_mem_nil, or_false] at h2
    rcases h2 with rfl | rfl
    · exact absurd this (by decide)
    · rfl
  rw [hlo] at h4
  rw [hhi] at h5
  exact ⟨blocks, first, last, h4, h5, h6, h7⟩

/-- **C56.** Checkpoint 6 is the finalized one first at epoch 8. -/
example : findFinalizationEpoch 4 hxAsk (hxC 6) 9 = some (.ok 8) ∧ (∃ s, ChainAt 4 hxAsk 8 s ∧ s.finalized = hxC 6) ∧
    ∀ e', 6 < e' → e' < 8 → ∃ s, ChainAt 4 hxAsk e' s ∧ s.finalized.epoch < 6 := by
  have h : findFinalizationEpoch 4 hxAsk (hxC 6) 9 = some (.ok 8) := by decide +kernel
  obtain ⟨-, -, h1, h2⟩ := (C56_finalization_search 4 hxAsk (hxC 6) 9 8).1 h
  exact ⟨h, h1, h2⟩

end Signal
