import Verif.Spec.ShippedVotes
import Verif.Props.Shipped
import Verif.Props.Shuffle
import Verif.Props.Accept
import Verif.Props.Verdict
import Verif.Proofs.ExampleShippedVotes
import Verif.Proofs.Sha256

/-!
# C85: the shipped guests judge votes as the consensus specification does

Partial: `RealChainDigests` excludes proofs that go on below a leaf of the real header, state or registry. The hardness of SHA-256 does not: without the
condition the claim is false (`C40_one_deposit`, `C81_one_deposit`).
-/

namespace Signal
open Spec Wire

/-! ## Exactly which inputs are accepted, with conditions on the epochs of the votes only -/

open Classical in
/-- The reader without the answers for epochs nobody votes for. -/
noncomputable def onlyVotedEpochs (R : Reader) (atts : List Attestation) : Reader :=
  { R with activeValidators := fun e => if ∃ a ∈ atts, a.data.target.epoch = e then R.activeValidators e else .ok [] }

/-- The setting of C68, with the condition on the sizes of active sets for the target epochs of the votes only. -/
structure Spec.SettingAt (X : Ext) (R : Reader) : Prop where
  committee_size : R.spec.targetCommitteeSize ≠ 0
  lookahead : R.spec.minSeedLookahead < R.spec.epochsPerHistoricalVector
  mixes : R.spec.epochsPerHistoricalVector ≤ 2 ^ 32
  mixes_word : R.spec.epochsPerHistoricalVector ∣ X.usizeMod
  shuffle : ∀ l seed sh, X.shuffleList l R.spec.shuffleRoundCount seed = some sh → sh.Perm l
  slots : R.spec.slotsPerEpoch ∣ X.usizeMod
  slots_pos : 0 < R.spec.slotsPerEpoch
  slots_fit : R.spec.slotsPerEpoch < X.usizeMod
  fits : ∀ atts, R.attestations = .ok atts → ∀ a ∈ atts, ∀ l, R.activeValidators a.data.target.epoch = .ok l →
    NoUsizeWrap X.usizeMod (OMap.ofList l).length (committeesPerSlot R.spec (OMap.ofList l).length) R.spec.slotsPerEpoch

theorem carries_onlyVoted {X : Ext} {cfg : Config} {R : Reader} {atts : List Attestation} {t : Checkpoint} {link : Link}
    (hl : ∃ a ∈ atts, linkOf a = link) (group : List Attestation) :
    Carries X cfg (onlyVotedEpochs R atts) t link group ↔ Carries X cfg R t link group := by
  have he : (onlyVotedEpochs R atts).activeValidators link.target.epoch = R.activeValidators link.target.epoch := by
    unfold onlyVotedEpochs
    obtain ⟨a, ha, rfl⟩ := hl
    exact if_pos ⟨a, ha, rfl⟩
  have hvote : ∀ active a s, Vote X (onlyVotedEpochs R atts) active a s ↔ Vote X R active a s := fun _ _ _ =>
    ⟨fun h => ⟨h.1, h.2, h.3, h.4⟩, fun h => ⟨h.1, h.2, h.3, h.4⟩⟩
  constructor
  · rintro ⟨active, signers, voters, sh, hj, hw, hs, hsel⟩
    exact ⟨active, signers, voters, sh, ⟨hj.fork_supported, hj.lookahead, he ▸ hj.active_set, fun a ha => (hvote _ _ _).1 (hj.votes a ha),
      hj.voters_nodup, hj.voters_iff, hj.threshold, hj.two_thirds⟩, hw, ⟨hs.1, hs.2, hs.3⟩, hsel⟩
  · rintro ⟨active, signers, voters, sh, hj, hw, hs, hsel⟩
    exact ⟨active, signers, voters, sh, ⟨hj.fork_supported, hj.lookahead, he ▸ hj.active_set, fun a ha => (hvote _ _ _).2 (hj.votes a ha),
      hj.voters_nodup, hj.voters_iff, hj.threshold, hj.two_thirds⟩, hw, ⟨hs.1, hs.2, hs.3⟩, hsel⟩

/-- **C68** with the condition on the sizes of active sets for the target epochs of the votes only. -/
theorem C68_accepts_iff_at (X : Ext) (cfg : Config) (R : Reader) (hs : SettingAt X R) (atts : List Attestation)
    (hatts : R.attestations = .ok atts) (post : ConsensusState) (slot : Nat) :
    verify X cfg R = .ok (post, slot) ↔ Acceptable X cfg R post slot := by
  have hsame : SameAnswers X R (onlyVotedEpochs R atts) := by
    refine ⟨rfl, rfl, rfl, rfl, fun _ _ _ _ => rfl, fun _ _ _ _ => rfl, ?_, fun _ _ _ _ => rfl⟩
    intro atts' h a ha
    rw [hatts] at h; cases h
    exact if_pos ⟨a, ha, rfl⟩
  have hset : Setting X (onlyVotedEpochs R atts) := by
    refine ⟨hs.committee_size, hs.lookahead, hs.mixes, hs.mixes_word, hs.shuffle, ?_⟩
    intro e l hl
    unfold onlyVotedEpochs at hl ⊢
    dsimp only at hl ⊢
    split at hl
    · rename_i h
      obtain ⟨a, ha, rfl⟩ := h
      exact hs.fits atts hatts a ha l hl
    · cases hl
      refine ⟨hs.slots, hs.slots_pos, ?_, ?_⟩
      · rw [show committeesPerSlot R.spec (OMap.ofList ([] : List (Nat × ValidatorInfo))).length = 1 by
          simp [committeesPerSlot, OMap.ofList], Nat.one_mul]
        exact hs.slots_fit
      · have := hs.slots_fit
        simp only [OMap.ofList, List.foldl_nil, List.length_nil, Nat.zero_mul]
        omega
  rw [← C61_determined X cfg R _ hsame, C68_accepts_iff X cfg _ hset]
  constructor
  · rintro ⟨pre, atts', links, h1, h2, hb, hf, hc, hsl⟩
    have : atts = atts' := by
      have : R.attestations = .ok atts' := h2
      rw [hatts] at this; exact Res.ok.inj this
    subst this
    exact ⟨pre, atts, links, h1, h2, hb, hf, fun l hl => (carries_onlyVoted (hb.nonempty l hl) _).1 (hc l hl), hsl⟩
  · rintro ⟨pre, atts', links, h1, h2, hb, hf, hc, hsl⟩
    rw [hatts] at h2; cases h2
    exact ⟨pre, atts, links, h1, hatts, hb, hf, fun l hl => (carries_onlyVoted (hb.nonempty l hl) _).2 (hc l hl), hsl⟩

/-! ## One link -/

theorem mem_attesters {f : Nat → List Nat} {cb ab : List Bool} {i : Nat} (h : i ∈ attesters f cb ab) : ∃ c ∈ setBits cb, i ∈ f c := by
  unfold attesters at h
  obtain ⟨⟨j, b⟩, h1, rfl⟩ := List.mem_map.1 h
  have h2 := (List.of_mem_zip (List.mem_filter.1 h1).1).1
  obtain ⟨c, hc, hj⟩ := List.mem_flatMap.1 h2
  exact ⟨c, hc, hj⟩

/-- What the guest's reader says about the active validators of an epoch in the window, in terms of the real registry. -/
theorem guest_active {X : Ext} {spec : ChainSpec} {input : GuestInput} {r : GuestReader} (hr : input.intoReader X spec = .ok r)
    {vs : List Validator} (hrep : Reports X r.validators vs input.consensusState.finalized.epoch)
    (h0 : input.consensusState.finalized.epoch ≠ 0) {t : Nat} (h1 : input.consensusState.finalized.epoch ≤ t)
    (h2 : t ≤ input.consensusState.finalized.epoch + spec.maxSeedLookahead) :
    (OMap.ofList (r.activeValidators t)).keys = activeIndices vs t ∧
    (∀ i info, (OMap.ofList (r.activeValidators t)).get? i = some info → ∃ v, vs[i]? = some v ∧ Matches X info v) ∧
    totalWeight (OMap.ofList (r.activeValidators t)) = balanceOf vs (activeIndices vs t) ∧
    ∀ i ∈ activeIndices vs t, ∃ info, (OMap.ofList (r.activeValidators t)).get? i = some info := by
  have hsort := intoReader_sorted hr
  obtain ⟨hk, hb⟩ := active_exact X hsort hrep t h1
  have hsf := OMap.sorted_filter hsort (fun x => x.2.isActiveAt t)
  rw [C35_window X spec input r hr h0 t h2, OMap.ofList_sorted hsf]
  refine ⟨hk, ?_, by unfold balanceOf; rw [← hb]; rfl, ?_⟩
  · intro i info hi
    have hi' := OMap.get?_eq_some_mem hi
    exact (hrep i).1 info (OMap.mem_get? hsort (List.mem_filter.1 hi').1)
  · intro i hi
    rw [← hk] at hi
    obtain ⟨⟨j, info⟩, hj, rfl⟩ := List.mem_map.1 hi
    exact ⟨info, OMap.mem_get? hsf hj⟩

section

variable (X : Ext) (hX : RealShuffle X) (hu : X.usizeMod = 2 ^ 32)
  (hdomain : ∀ version root, X.computeDomain version root = Signing.computeDomain X.sha256 Signing.beaconAttester version root)
  (hkeys : KeysAsPoints X) {s : ForkSchedule} (ho : Ordered s) (hl : s.forks.length = 6) {v5 v6 : Bytes} {e5 e6 : Nat}
  (h5 : s.forks[4]? = some (v5, e5)) (h6 : s.forks[5]? = some (v6, e6)) (hv : ∀ v ∈ s.genesisVersion :: s.forks.map (·.1), v.length = 4)
  (he5 : 4 < e5) (percent : Nat) (hp : 200 ≤ 3 * percent) {input : GuestInput} {r : GuestReader}
  (hr : input.intoReader X (networkSpec s (Signing.signingRoot X.sha256)) = .ok r) {hdr : Header} {st : BeaconState}
  (hreal : RealChainDigests X (networkSpec s (Signing.signingRoot X.sha256)) input hdr st)

include hdomain ho hl h5 h6 hv in
/-- The message signed for a vote. -/
theorem shipped_message (d : AttestationData) (gvr : Root) (hge : e5 ≤ d.target.epoch) :
    Signing.signingRoot X.sha256 d (X.computeDomain
      (if d.target.epoch < ((networkSpec s (Signing.signingRoot X.sha256)).forkAtEpoch d.target.epoch).epoch
        then ((networkSpec s (Signing.signingRoot X.sha256)).forkAtEpoch d.target.epoch).previousVersion
        else ((networkSpec s (Signing.signingRoot X.sha256)).forkAtEpoch d.target.epoch).currentVersion) gvr) =
    (Duty.vote d (if d.target.epoch < e6 then v5 else v6) gvr).message X := by
  have hs : RealSigning X (networkSpec s (Signing.signingRoot X.sha256)) := ⟨hdomain, fun _ _ => rfl⟩
  have hversion := (last_forks ho hl h5 h6 d.target.epoch).2 hge
  have hlen : (if d.target.epoch < e6 then v5 else v6).length = 4 := by
    split
    · exact hv _ (List.mem_cons_of_mem _ (List.mem_map.2 ⟨_, List.mem_of_getElem? h5, rfl⟩))
    · exact hv _ (List.mem_cons_of_mem _ (List.mem_map.2 ⟨_, List.mem_of_getElem? h6, rfl⟩))
  have hmsg : (if d.target.epoch < ((networkSpec s (Signing.signingRoot X.sha256)).forkAtEpoch d.target.epoch).epoch
        then ((networkSpec s (Signing.signingRoot X.sha256)).forkAtEpoch d.target.epoch).previousVersion
        else ((networkSpec s (Signing.signingRoot X.sha256)).forkAtEpoch d.target.epoch).currentVersion) =
        if d.target.epoch < e6 then v5 else v6 := hversion
  rw [hmsg, ← C76_message X _ hs d _ gvr hlen]
  rfl

include hX in
/-- The committees cut from the shuffled list are those of the specification. -/
theorem shipped_committee {active : List Nat} {epoch : Nat} {mix : Root} {sh : List Nat}
    (h : X.shuffleList active 90 (X.sha256 ([1, 0, 0, 0] ++ leBytes 8 epoch ++ mix)) = some sh) (slot i : Nat)
    (hi : i < committeeCount active) :
    beaconCommittee sh (committeeCount active) 32 slot i = attesterCommittee X.sha256 active epoch mix slot i := by
  rw [hX] at h
  unfold beaconCommittee attesterCommittee
  apply C74_committee _ _ (le_refl _) _ _ _ _ h
  have := Nat.mod_lt slot (show 0 < 32 by decide)
  generalize committeeCount active = p at hi
  calc slot % 32 * p + i < slot % 32 * p + p := by omega
    _ = (slot % 32 + 1) * p := by rw [Nat.add_mul, Nat.one_mul]
    _ ≤ 32 * p := Nat.mul_le_mul_right _ this
    _ = _ := Nat.mul_comm _ _

theorem shipped_mix {patches : OMap StatePatch} {t : Nat} {mix : Root} :
    (((patches.get? t).getD .empty).randaoMixes.get? ((t + 65536 - 1 - 1) % 65536) = some mix) ↔
      ((patches.get? t).bind (fun p => p.randaoMixes.get? ((t + 65534) % 65536)) = some mix) := by
  rw [show t + 65536 - 1 - 1 = t + 65534 by omega]
  cases patches.get? t with
  | none => simp [StatePatch.empty, OMap.get?]
  | some p => rfl

include hX hu hdomain hkeys ho hl h5 h6 hv he5 hp hr in
/-- A link is carried in the eyes of the guest exactly if it is carried by valid attestations of the chain. -/
theorem shipped_carries {vs : List Validator} {gvr : Root}
    (hrep : Reports X r.validators vs input.consensusState.finalized.epoch) (hg : r.genesisValidatorsRoot = gvr) {link : Link}
    (hne : ∃ a ∈ input.attestations, linkOf a = link) (hge : input.consensusState.finalized.epoch ≤ link.target.epoch)
    (hn : (activeIndices vs link.target.epoch).length < 2 ^ 21) :
    Carries X ⟨5, 6, 4, percent, 100⟩ r.toReader input.consensusState.finalized link
        (input.attestations.filter (fun a => decide (linkOf a = link))) ↔
      e5 ≤ link.target.epoch ∧ link.target.epoch ≤ input.consensusState.finalized.epoch + 4 ∧
        ValidlyCarried X percent (if link.target.epoch < e6 then v5 else v6) gvr vs input link := by
  obtain ⟨-, -, -, -, -, -, -, -, -, -, -, -, -, -, hspec, -, hpat, hcs, hat⟩ := intoReader_eq_ok hr
  have hfloor : ∀ w, floored (networkSpec s (Signing.signingRoot X.sha256)) w = max 1000000000 w := fun w => by
    rw [Nat.max_comm]; rfl
  have hsp : r.toReader.spec = networkSpec s (Signing.signingRoot X.sha256) := hspec
  have hcps : ∀ active : OMap ValidatorInfo, active.keys = activeIndices vs link.target.epoch →
      committeesPerSlot r.toReader.spec active.length = committeeCount (activeIndices vs link.target.epoch) := by
    intro active h
    rw [hsp, ← h]
    simp [committeesPerSlot, committeeCount, OMap.keys, networkSpec]
  have hmemf : ∀ a, a ∈ input.attestations.filter (fun a => decide (linkOf a = link)) ↔ a ∈ input.attestations ∧ linkOf a = link := by
    intro a; simp [List.mem_filter]
  have hfork : 5 ≤ s.nameAt link.target.epoch ∧ s.nameAt link.target.epoch ≤ 6 ↔ e5 ≤ link.target.epoch :=
    (last_forks ho hl h5 h6 link.target.epoch).1
  constructor
  · rintro ⟨active, signers, voters, sh, hj, hw, hs, hsel⟩
    have hin := hj.lookahead
    have hsup := hj.fork_supported
    rw [hsp] at hsup
    have he := hfork.1 hsup
    have h0 : input.consensusState.finalized.epoch ≠ 0 := by dsimp only at hin; omega
    obtain ⟨l, hl1, rfl⟩ := hj.active_set
    have hl1 : r.activeValidators link.target.epoch = l := Res.ok.inj hl1
    subst hl1
    obtain ⟨k1, k2, k3, k4⟩ := guest_active hr hrep h0 hge hin
    obtain ⟨q1, q2, mix, q3, q4⟩ := hs
    have hcp := hcps _ k1
    have hmem : ∀ i ∈ voters, ∃ info, (OMap.ofList (r.activeValidators link.target.epoch)).get? i = some info := fun i hi => by
      obtain ⟨-, w, hw, -⟩ := (hj.voters_iff i).1 hi
      exact ⟨w, hw⟩
    have hwt : weight (OMap.ofList (r.activeValidators link.target.epoch)) voters = balanceOf vs voters := by
      unfold weight balanceOf
      congr 1
      apply List.map_congr_left
      intro i hi
      obtain ⟨info, hi'⟩ := hmem i hi
      obtain ⟨v, hv', hm⟩ := k2 i info hi'
      simp [balance, registeredBalance, hi', hv', hm.effectiveBalance]
    rw [hsp] at q1 q3 q4 hw
    refine ⟨he, hin, mix, signers, voters, ?_, ?_, hj.voters_nodup, ?_, ?_, ?_⟩
    · unfold mixOf
      rw [← shipped_mix, ← hpat]
      exact Res.ok.inj q3
    · intro a ha hla
      have ha' := (hmemf a).2 ⟨ha, hla⟩
      have hvote := hj.votes a ha'
      obtain ⟨e, rfl, -, g1, g2, fork, root, g3, g4, g5⟩ := hvote.electra
      obtain ⟨b1, b2⟩ := hsel _ ha' e rfl
      have htg : e.data.target = link.target := by rw [← hla]; rfl
      rw [hcp, hsp] at b1
      rw [hcp, hsp] at b2
      rw [hsp] at g1
      change (OMap.ofList (r.activeValidators link.target.epoch)).map (·.1) = _ at k1
      rw [k1] at q4
      obtain ⟨c1, c2⟩ := goodBits_congr (shipped_committee X hX q4 e.data.slot) b1
      refine ⟨e, rfl, g1, g2, ?_, ?_, hvote.signers_ascending, hvote.signers_nonempty,
        (signers (.electra e)).map (pubkey (OMap.ofList (r.activeValidators link.target.epoch))), ?_, ?_⟩
      · rw [htg]; exact c1
      · intro i; rw [htg, ← c2]; exact b2 i
      · rw [List.map_map]
        apply List.map_congr_left
        intro i hi
        obtain ⟨info, hi'⟩ := hvote.signers_active i hi
        obtain ⟨v, hv', hm⟩ := k2 i info hi'
        simp [pubkey, registeredKey, hi', hv', hm.pubkey]
      · cases g3
        cases g4
        have := shipped_message X hdomain ho hl h5 h6 hv e.data gvr (by rw [htg]; exact he)
        rw [htg] at this
        rw [← this, ← hg]
        rw [hsp, htg] at g5
        have e2 : r.spec = networkSpec s (Signing.signingRoot X.sha256) := hspec
        rw [e2] at g5
        exact g5
    · intro i
      rw [hj.voters_iff]
      constructor
      · rintro ⟨⟨a, ha, hi⟩, info, h1, h2⟩
        obtain ⟨v, hv', hm⟩ := k2 i info h1
        exact ⟨⟨a, ((hmemf a).1 ha).1, ((hmemf a).1 ha).2, hi⟩, v, hv', by rw [← hm.slashed]; exact h2⟩
      · rintro ⟨⟨a, ha, hla, hi⟩, v, hv', h2⟩
        have ha' := (hmemf a).2 ⟨ha, hla⟩
        obtain ⟨info, h1⟩ := (hj.votes a ha').signers_active i hi
        obtain ⟨v', hv'', hm⟩ := k2 i info h1
        rw [hv'] at hv''; cases hv''
        exact ⟨⟨a, ha', hi⟩, info, h1, by rw [hm.slashed]; exact h2⟩
    · have := hw.threshold
      rw [hfloor, hfloor, hwt, k3] at this
      rw [Nat.mul_comm percent, Nat.mul_comm 100]
      exact this
    · obtain ⟨f1, f2, -, -⟩ := hw
      rw [hfloor, hwt] at f1
      rw [hfloor, k3] at f2
      refine ⟨q1, fun i hi => ?_, f1, f2⟩
      obtain ⟨info, hi'⟩ := k4 i hi
      have := q2 i info (OMap.get?_eq_some_mem hi')
      rw [hu] at this
      exact this
  · rintro ⟨he, hin, mix, signers, voters, hmix, hvotes, hnd, hiff, hthr, hfit⟩
    have h0 : input.consensusState.finalized.epoch ≠ 0 := by omega
    obtain ⟨k1, k2, k3, k4⟩ := guest_active hr hrep h0 hge hin
    have hcp := hcps _ k1
    -- the shuffled list
    have hnil : activeIndices vs link.target.epoch ≠ [] := by
      obtain ⟨a, ha, hla⟩ := hne
      obtain ⟨e, rfl, hvv⟩ := hvotes a ha hla
      have htg : e.data.target = link.target := by rw [← hla]; rfl
      obtain ⟨i, hi⟩ := List.exists_mem_of_ne_nil _ hvv.nonempty
      obtain ⟨c, -, hc⟩ := mem_attesters ((hvv.members i).1 hi)
      rw [htg] at hc
      intro h
      rw [h] at hc
      simp [attesterCommittee, computeCommittee] at hc
    obtain ⟨sh, hsh⟩ := (C74_shuffles_iff X.sha256 (2 ^ 64) (activeIndices vs link.target.epoch) 90
      (X.sha256 ([1, 0, 0, 0] ++ leBytes 8 link.target.epoch ++ mix))).2 ⟨hnil, by omega, by decide⟩
    have hperm := C74_permutes _ _ _ _ _ _ hsh
    rw [← hX] at hsh
    have hcom := shipped_committee X hX hsh
    have hsigners : ∀ a ∈ input.attestations, linkOf a = link → ∀ i ∈ signers a, i ∈ activeIndices vs link.target.epoch := by
      intro a ha hla i hi
      obtain ⟨e, rfl, hvv⟩ := hvotes a ha hla
      have htg : e.data.target = link.target := by rw [← hla]; rfl
      obtain ⟨c, hc, hic⟩ := mem_attesters ((hvv.members i).1 hi)
      have hlt := hvv.bits.exist c hc
      rw [htg] at hic hlt
      rw [← hcom e.data.slot c hlt] at hic
      unfold beaconCommittee committee at hic
      exact hperm.mem_iff.1 (List.mem_of_mem_drop (List.mem_of_mem_take hic))
    have hvot : ∀ i ∈ voters, i ∈ activeIndices vs link.target.epoch := by
      intro i hi
      obtain ⟨⟨a, ha, hla, hia⟩, -⟩ := (hiff i).1 hi
      exact hsigners a ha hla i hia
    have hwt : weight (OMap.ofList (r.activeValidators link.target.epoch)) voters = balanceOf vs voters := by
      unfold weight balanceOf
      congr 1
      apply List.map_congr_left
      intro i hi
      obtain ⟨info, hi'⟩ := k4 i (hvot i hi)
      obtain ⟨v, hv', hm⟩ := k2 i info hi'
      simp [balance, registeredBalance, hi', hv', hm.effectiveBalance]
    have hthr' : floored r.toReader.spec (totalWeight (OMap.ofList (r.activeValidators link.target.epoch))) * percent ≤
        floored r.toReader.spec (weight (OMap.ofList (r.activeValidators link.target.epoch)) voters) * 100 := by
      rw [hsp, hfloor, hfloor, hwt, k3, Nat.mul_comm _ percent, Nat.mul_comm _ 100]
      exact hthr
    have htwo : 2 * floored r.toReader.spec (totalWeight (OMap.ofList (r.activeValidators link.target.epoch))) ≤
        3 * floored r.toReader.spec (weight (OMap.ofList (r.activeValidators link.target.epoch)) voters) := by
      generalize floored r.toReader.spec (totalWeight (OMap.ofList (r.activeValidators link.target.epoch))) = w at hthr' ⊢
      generalize floored r.toReader.spec (weight (OMap.ofList (r.activeValidators link.target.epoch)) voters) = u at hthr' ⊢
      have h1 : w * 200 ≤ w * (3 * percent) := Nat.mul_le_mul_left _ hp
      have h2 : w * (3 * percent) = 3 * (w * percent) := by rw [← Nat.mul_assoc, Nat.mul_comm w 3, Nat.mul_assoc]
      omega
    refine ⟨OMap.ofList (r.activeValidators link.target.epoch), signers, voters, sh, ⟨?_, hin, ⟨_, rfl, rfl⟩, ?_, hnd, ?_, hthr', htwo⟩,
      ⟨?_, ?_, hthr', htwo⟩, ⟨?_, ?_, mix, ?_, ?_⟩, ?_⟩
    · rw [hsp]; exact hfork.2 he
    · intro a ha
      obtain ⟨ha1, hla⟩ := (hmemf a).1 ha
      obtain ⟨e, rfl, hvv⟩ := hvotes a ha1 hla
      have htg : e.data.target = link.target := by rw [← hla]; rfl
      refine ⟨hvv.nonempty, hvv.ascending, fun i hi => k4 i (hsigners _ ha1 hla i hi), e, rfl, by rw [hsp]; exact (by decide : (32 : Nat) ≠ 0), ?_, hvv.index,
        r.spec.forkAtEpoch e.data.target.epoch, r.genesisValidatorsRoot, rfl, rfl, ?_⟩
      · rw [hsp]; exact hvv.slot
      · obtain ⟨keys, hk1, hk2⟩ := hvv.signature
        rw [hkeys _ _ _ keys, hsp, show r.spec = networkSpec s (Signing.signingRoot X.sha256) from hspec, hg]
        · have := shipped_message X hdomain ho hl h5 h6 hv e.data gvr (by rw [htg]; exact he)
          rw [htg] at this ⊢
          exact Eq.trans (congrArg (fun m => X.fastAggregateVerify e.signature m keys) this) hk2
        · rw [hk1, List.map_map]
          apply List.map_congr_left
          intro i hi
          obtain ⟨info, hi'⟩ := k4 i (hsigners _ ha1 hla i hi)
          obtain ⟨v, hv', hm⟩ := k2 i info hi'
          simp [pubkey, registeredKey, hi', hv', hm.pubkey]
    · intro i
      rw [hiff]
      constructor
      · rintro ⟨⟨a, ha, hla, hi⟩, v, hv', h2⟩
        obtain ⟨info, h1⟩ := k4 i (hsigners a ha hla i hi)
        obtain ⟨v', hv'', hm⟩ := k2 i info h1
        rw [hv'] at hv''; cases hv''
        exact ⟨⟨a, (hmemf a).2 ⟨ha, hla⟩, hi⟩, info, h1, by rw [hm.slashed]; exact h2⟩
      · rintro ⟨⟨a, ha, hi⟩, info, h1, h2⟩
        obtain ⟨v, hv', hm⟩ := k2 i info h1
        exact ⟨⟨a, ((hmemf a).1 ha).1, ((hmemf a).1 ha).2, hi⟩, v, hv', by rw [← hm.slashed]; exact h2⟩
    · rw [hsp, hfloor, hwt]; exact hfit.votes
    · rw [hsp, hfloor, k3]; exact hfit.total
    · rw [hsp]; exact hfit.mixes
    · intro i v hi
      rw [hu]
      exact hfit.indices i (by rw [← k1]; exact List.mem_map.2 ⟨_, hi, rfl⟩)
    · rw [hsp]
      unfold mixOf at hmix
      rw [← shipped_mix, ← hpat] at hmix
      exact congrArg Res.ok hmix
    · rw [hsp]
      change (OMap.ofList (r.activeValidators link.target.epoch)).map (·.1) = _ at k1
      rw [k1]
      exact hsh
    · intro a ha e hae
      obtain ⟨ha1, hla⟩ := (hmemf a).1 ha
      obtain ⟨e', he', hvv⟩ := hvotes a ha1 hla
      rw [hae] at he'; cases he'
      have htg : e.data.target = link.target := by rw [← hla, hae]; rfl
      rw [hsp] at hcp ⊢
      rw [hcp]
      have hb := hvv.bits
      have hm := hvv.members
      rw [htg] at hb hm
      obtain ⟨c1, c2⟩ := goodBits_congr (fun i hi => (hcom e.data.slot i hi).symm) hb
      exact ⟨c1, fun i => by rw [hm, c2]; rfl⟩

theorem blocks_complete {atts : List Attestation} {links : List Link} (h : Blocks atts links) {a : Attestation} (ha : a ∈ atts) :
    linkOf a ∈ links := by
  rw [h.concat] at ha
  obtain ⟨l, hl, hm⟩ := List.mem_flatMap.1 ha
  have := (List.mem_filter.1 hm).2
  simp only [decide_eq_true_eq] at this
  rw [this]; exact hl

/-- In a chain of links every target is later than the start. -/
theorem atomic_targets {c : Checkpoint} {links : List Link} {out : Checkpoint × Checkpoint} (h : AtomicFinalization c links out) :
    ∀ l ∈ links, c.epoch < l.target.epoch := by
  induction h with
  | last c b h =>
    intro l hl
    obtain rfl := List.mem_singleton.1 hl
    show c.epoch < b.epoch
    omega
  | skip c b links out h _ ih =>
    intro l hl
    rcases List.mem_cons.1 hl with rfl | hl
    · show c.epoch < b.epoch
      omega
    · have := ih l hl
      omega

theorem finalizes_targets {pre : ConsensusState} {links : List Link} {post : ConsensusState} (h : FinalizesOnce pre links post) :
    pre.finalized.epoch ≤ pre.currentJustified.epoch ∧ ∀ l ∈ links, pre.finalized.epoch ≤ l.target.epoch := by
  obtain ⟨hv, -, h⟩ := h
  have hj : pre.finalized.epoch ≤ pre.currentJustified.epoch := by
    rcases hv with hv | hv
    · omega
    · rw [hv]
  refine ⟨hj, fun l hl => ?_⟩
  rcases h with h | ⟨h, -⟩
  · have := atomic_targets h l hl
    omega
  · rw [h]; exact Nat.zero_le _

include hX hu hdomain hkeys ho hl h5 h6 hv he5 hp hr hreal in
/-- What the verification of either shipped guest accepts. -/
theorem shipped_verdict
    (hn : ∀ a ∈ input.attestations, (activeIndices (registryOf (networkSpec s (Signing.signingRoot X.sha256)) st input.consensusState)
      a.data.target.epoch).length < 2 ^ 21) (post : ConsensusState) (slot : Nat) :
    verify X ⟨5, 6, 4, percent, 100⟩ r.toReader = .ok (post, slot) ↔
      ∃ links, Blocks input.attestations links ∧ FinalizesOnce input.consensusState links post ∧
        (∀ link ∈ links, e5 ≤ link.target.epoch ∧ link.target.epoch ≤ input.consensusState.finalized.epoch + 4 ∧
          ValidlyCarried X percent (if link.target.epoch < e6 then v5 else v6) st.genesisValidatorsRoot
            (registryOf (networkSpec s (Signing.signingRoot X.sha256)) st input.consensusState) input link) ∧
        r.toReader.slotForBlock post.finalized.root = .ok slot := by
  obtain ⟨-, -, -, -, -, -, -, -, -, -, -, -, -, -, hspec, -, -, hcs, hat⟩ := intoReader_eq_ok hr
  have hsp : r.toReader.spec = networkSpec s (Signing.signingRoot X.sha256) := hspec
  -- the part of the window that both sides demand
  by_cases hw : input.consensusState.finalized.epoch ≤ input.consensusState.currentJustified.epoch ∧
      ∀ a ∈ input.attestations, e5 ≤ a.data.target.epoch ∧ input.consensusState.finalized.epoch ≤ a.data.target.epoch ∧
        a.data.target.epoch ≤ input.consensusState.finalized.epoch + 4
  · obtain ⟨hj, hw⟩ := hw
    obtain ⟨hg, hrep⟩ := reader_reports hr (hreal.realChain hr) hj
    have hset : SettingAt X r.toReader := by
      refine ⟨?_, ?_, ?_, ?_, ?_, ?_, ?_, ?_, ?_⟩
      · rw [hsp]; exact (by decide : (128 : Nat) ≠ 0)
      · rw [hsp]; exact (by decide : (1 : Nat) < 65536)
      · rw [hsp]; exact (by decide : (65536 : Nat) ≤ 2 ^ 32)
      · rw [hsp, hu]; exact (by decide : (65536 : Nat) ∣ 2 ^ 32)
      · intro l seed sh h
        exact C74_permutes _ _ _ _ _ _ (by rw [← hX]; exact h)
      · rw [hsp, hu]; exact (by decide : (32 : Nat) ∣ 2 ^ 32)
      · rw [hsp]; exact (by decide : (0 : Nat) < 32)
      · rw [hsp, hu]; exact (by decide : (32 : Nat) < 2 ^ 32)
      · intro atts hatts a ha l hl1
        have hatts : r.attestations = atts := Res.ok.inj hatts
        rw [hat] at hatts
        subst hatts
        have hl1 : r.activeValidators a.data.target.epoch = l := Res.ok.inj hl1
        subst hl1
        obtain ⟨w1, w2, w3⟩ := hw a ha
        obtain ⟨k1, -⟩ := guest_active hr hrep (by omega) w2 w3
        have hlt := hn a ha
        rw [← k1] at hlt
        rw [OMap.keys, List.length_map] at hlt
        rw [hu, hsp]
        have hp : committeesPerSlot (networkSpec s (Signing.signingRoot X.sha256))
            (OMap.ofList (r.activeValidators a.data.target.epoch)).length ≤ 64 := by
          show max 1 (min 64 _) ≤ 64
          omega
        show NoUsizeWrap _ _ _ 32
        refine ⟨by decide, by decide, by omega, ?_⟩
        calc (OMap.ofList (r.activeValidators a.data.target.epoch)).length *
              (committeesPerSlot (networkSpec s (Signing.signingRoot X.sha256))
                (OMap.ofList (r.activeValidators a.data.target.epoch)).length * 32)
            ≤ (OMap.ofList (r.activeValidators a.data.target.epoch)).length * (64 * 32) :=
              Nat.mul_le_mul_left _ (Nat.mul_le_mul_right _ hp)
          _ < 2 ^ 32 := by omega
    rw [C68_accepts_iff_at X _ r.toReader hset _ rfl]
    have hiff : ∀ links, Blocks input.attestations links → FinalizesOnce input.consensusState links post → ∀ link ∈ links,
        (Carries X ⟨5, 6, 4, percent, 100⟩ r.toReader input.consensusState.finalized link
          (input.attestations.filter (fun a => decide (linkOf a = link))) ↔
        e5 ≤ link.target.epoch ∧ link.target.epoch ≤ input.consensusState.finalized.epoch + 4 ∧
          ValidlyCarried X percent (if link.target.epoch < e6 then v5 else v6) st.genesisValidatorsRoot
            (registryOf (networkSpec s (Signing.signingRoot X.sha256)) st input.consensusState) input link) := by
      intro links hb hf link hlink
      have hne := hb.nonempty link hlink
      refine shipped_carries X hX hu hdomain hkeys ho hl h5 h6 hv he5 percent hp hr hrep hg hne ((finalizes_targets hf).2 _ hlink) ?_
      obtain ⟨a, ha, rfl⟩ := hne
      exact hn a ha
    constructor
    · rintro ⟨pre, atts, links, p1, p2, hb, hf, hc, hsl⟩
      have p1 : r.consensusState = pre := Res.ok.inj p1
      have p2 : r.attestations = atts := Res.ok.inj p2
      rw [hcs] at p1; rw [hat] at p2
      subst p1 p2
      exact ⟨links, hb, hf, fun l hl => (hiff links hb hf l hl).1 (hc l hl), hsl⟩
    · rintro ⟨links, hb, hf, hc, hsl⟩
      exact ⟨input.consensusState, input.attestations, links, congrArg Res.ok hcs, congrArg Res.ok hat, hb, hf,
        fun l hl => (hiff links hb hf l hl).2 (hc l hl), hsl⟩
  · constructor
    · intro hver
      exfalso
      apply hw
      obtain ⟨pre, atts, links, p1, p2, hb, hrun, -, -, -⟩ := C09_exactly_one_finalization X _ r.toReader post slot hver
      have p1 : r.consensusState = pre := Res.ok.inj p1
      have p2 : r.attestations = atts := Res.ok.inj p2
      rw [hcs] at p1; rw [hat] at p2
      subst p1 p2
      have hvalid : ValidState input.consensusState := by
        obtain ⟨p, hp, hv', -⟩ := C10_strictly_advances X _ r.toReader post slot hver
        have hp : r.consensusState = p := Res.ok.inj hp
        rw [hcs] at hp; exact hp ▸ hv'
      have hj : input.consensusState.finalized.epoch ≤ input.consensusState.currentJustified.epoch := by
        rcases hvalid with hv' | hv'
        · omega
        · rw [hv']
      refine ⟨hj, fun a ha => ⟨?_, ?_, ?_⟩⟩
      · exact (network_votes X ho hl h5 h6 _ _ rfl rfl r.toReader hspec (fun _ => rfl) post slot hver _ rfl _ rfl a (hat ▸ ha)).1
      · have := (hrun.targets_lt).1 _ (blocks_complete hb ha)
        have e : (linkOf a).target = a.data.target := rfl
        rw [e] at this
        omega
      · have := (C18_window_and_forks X _ r.toReader post slot hver _ rfl _ rfl a (hat ▸ ha)).1
        rw [hcs] at this
        exact this
    · rintro ⟨links, hb, hf, hc, hsl⟩
      exfalso
      apply hw
      obtain ⟨q1, q2⟩ := finalizes_targets hf
      refine ⟨q1, fun a ha => ?_⟩
      have hm := blocks_complete hb ha
      exact ⟨(hc _ hm).1, q2 _ hm, (hc _ hm).2.1⟩

end

/-- What a run of either guest on a file gives, for a file whose proofs hold. -/
theorem shipped_judges {ε : Type} {W : WireExt} (X : Ext) (hX : RealShuffle X) (hu : X.usizeMod = 2 ^ 32)
    (hdomain : ∀ version root, X.computeDomain version root = Signing.computeDomain X.sha256 Signing.beaconAttester version root)
    (hkeys : KeysAsPoints X) {s : ForkSchedule} (ho : Ordered s) (hl : s.forks.length = 6) {v5 v6 : Bytes} {e5 e6 : Nat}
    (h5 : s.forks[4]? = some (v5, e5)) (h6 : s.forks[5]? = some (v6, e6))
    (hv : ∀ v ∈ s.genesisVersion :: s.forks.map (·.1), v.length = 4) (he5 : 4 < e5) (percent : Nat) (hp : 200 ≤ 3 * percent)
    {stdin frame journal : Bytes} {input : GuestInput} {r : GuestReader} (hf : Frame.readFrame stdin = some frame)
    (hd : decodeInput W X.usizeMod frame = some input)
    (hr : input.intoReader X (networkSpec s (Signing.signingRoot X.sha256)) = .ok r) {hdr : Header} {st : BeaconState}
    (hreal : RealChainDigests X (networkSpec s (Signing.signingRoot X.sha256)) input hdr st)
    (hn : ∀ a ∈ input.attestations, (activeIndices (registryOf (networkSpec s (Signing.signingRoot X.sha256)) st input.consensusState)
      a.data.target.epoch).length < 2 ^ 21) :
    (guestMain W X (networkSpec s (Signing.signingRoot X.sha256)) ⟨5, 6, 4, percent, 100⟩ stdin : Res ε Bytes) = .ok journal ↔
      ∃ links post slot, journal = Abi.encodeJournal input.consensusState post slot ∧
        Blocks input.attestations links ∧ FinalizesOnce input.consensusState links post ∧
        (∀ link ∈ links, e5 ≤ link.target.epoch ∧ link.target.epoch ≤ input.consensusState.finalized.epoch + 4 ∧
          ValidlyCarried X percent (if link.target.epoch < e6 then v5 else v6) st.genesisValidatorsRoot
            (registryOf (networkSpec s (Signing.signingRoot X.sha256)) st input.consensusState) input link) ∧
        r.toReader.slotForBlock post.finalized.root = .ok slot := by
  have key := shipped_verdict X hX hu hdomain hkeys ho hl h5 h6 hv he5 percent hp hr hreal hn
  unfold guestMain
  rw [hf]
  simp only [expect, Res.ok_bind]
  rw [hd]
  simp only [expect, Res.ok_bind]
  unfold guestEntry
  simp only [Res.bind_eq_ok, Res.unwrap_eq_ok, Res.pure_eq, Res.ok.injEq, hr, exists_eq_left']
  constructor
  · rintro ⟨⟨post, slot⟩, hver, rfl⟩
    obtain ⟨links, h⟩ := (key post slot).1 hver
    exact ⟨links, post, slot, rfl, h⟩
  · rintro ⟨links, post, slot, rfl, h⟩
    exact ⟨(post, slot), (key post slot).2 ⟨links, h⟩, rfl⟩

/-- **C85.** The guest for Ethereum mainnet, on a file whose proofs hold. -/
theorem C85_mainnet_partial {ε : Type} (W : WireExt) (X : Ext) (hX : RealShuffle X) (hu : X.usizeMod = 2 ^ 32)
    (hdomain : ∀ version root, X.computeDomain version root = Signing.computeDomain X.sha256 Signing.beaconAttester version root)
    (hkeys : KeysAsPoints X) (stdin frame journal : Bytes) (input : GuestInput) (r : GuestReader)
    (hf : Frame.readFrame stdin = some frame) (hd : decodeInput W X.usizeMod frame = some input)
    (hr : input.intoReader X (mainnetOf X) = .ok r) (hdr : Header) (st : BeaconState) (hreal : RealChainDigests X (mainnetOf X) input hdr st)
    (hn : ∀ a ∈ input.attestations,
      (activeIndices (registryOf (mainnetOf X) st input.consensusState) a.data.target.epoch).length < 2 ^ 21) :
    (guestMain W X (mainnetOf X) Config.default stdin : Res ε Bytes) = .ok journal ↔
      ∃ links post slot, journal = Abi.encodeJournal input.consensusState post slot ∧
        Blocks input.attestations links ∧ FinalizesOnce input.consensusState links post ∧
        (∀ link ∈ links, 364032 ≤ link.target.epoch ∧ link.target.epoch ≤ input.consensusState.finalized.epoch + 4 ∧
          ValidlyCarried X 85 (if link.target.epoch < 411392 then [5, 0, 0, 0] else [6, 0, 0, 0]) st.genesisValidatorsRoot
            (registryOf (mainnetOf X) st input.consensusState) input link) ∧
        r.toReader.slotForBlock post.finalized.root = .ok slot :=
  shipped_judges X hX hu hdomain hkeys mainnet_ordered rfl rfl rfl (by decide) (by decide) 85 (by decide) hf hd hr hreal hn

/-- **C85.** The guest for Sepolia, on a file whose proofs hold. -/
theorem C85_sepolia_partial {ε : Type} (W : WireExt) (X : Ext) (hX : RealShuffle X) (hu : X.usizeMod = 2 ^ 32)
    (hdomain : ∀ version root, X.computeDomain version root = Signing.computeDomain X.sha256 Signing.beaconAttester version root)
    (hkeys : KeysAsPoints X) (stdin frame journal : Bytes) (input : GuestInput) (r : GuestReader)
    (hf : Frame.readFrame stdin = some frame) (hd : decodeInput W X.usizeMod frame = some input)
    (hr : input.intoReader X (sepoliaOf X) = .ok r) (hdr : Header) (st : BeaconState) (hreal : RealChainDigests X (sepoliaOf X) input hdr st)
    (hn : ∀ a ∈ input.attestations,
      (activeIndices (registryOf (sepoliaOf X) st input.consensusState) a.data.target.epoch).length < 2 ^ 21) :
    (guestMain W X (sepoliaOf X) Config.sepolia stdin : Res ε Bytes) = .ok journal ↔
      ∃ links post slot, journal = Abi.encodeJournal input.consensusState post slot ∧
        Blocks input.attestations links ∧ FinalizesOnce input.consensusState links post ∧
        (∀ link ∈ links, 222464 ≤ link.target.epoch ∧ link.target.epoch ≤ input.consensusState.finalized.epoch + 4 ∧
          ValidlyCarried X 70 (if link.target.epoch < 272640 then [0x90, 0, 0, 0x74] else [0x90, 0, 0, 0x75]) st.genesisValidatorsRoot
            (registryOf (sepoliaOf X) st input.consensusState) input link) ∧
        r.toReader.slotForBlock post.finalized.root = .ok slot :=
  shipped_judges X hX hu hdomain hkeys sepolia_ordered rfl rfl rfl (by decide) (by decide) 70 (by decide) hf hd hr hreal hn

/-- **C85.** With SHA-256 itself for the hash, the published shuffle and the domain of the consensus specification, over the external
functions that remain: the guest for Ethereum mainnet. -/
theorem C85_mainnet_sha256_partial {ε : Type} (W : WireExt) (X : Ext) (hu : X.usizeMod = 2 ^ 32) (hkeys : KeysAsPoints X)
    (stdin frame journal : Bytes) (input : GuestInput) (r : GuestReader)
    (hf : Frame.readFrame stdin = some frame) (hd : decodeInput W (2 ^ 32) frame = some input)
    (hr : input.intoReader (realExt X) (mainnetOf (realExt X)) = .ok r) (hdr : Header) (st : BeaconState)
    (hreal : RealChainDigests (realExt X) (mainnetOf (realExt X)) input hdr st)
    (hn : ∀ a ∈ input.attestations,
      (activeIndices (registryOf (mainnetOf (realExt X)) st input.consensusState) a.data.target.epoch).length < 2 ^ 21) :
    (guestMain W (realExt X) (mainnetOf (realExt X)) Config.default stdin : Res ε Bytes) = .ok journal ↔
      ∃ links post slot, journal = Abi.encodeJournal input.consensusState post slot ∧
        Blocks input.attestations links ∧ FinalizesOnce input.consensusState links post ∧
        (∀ link ∈ links, 364032 ≤ link.target.epoch ∧ link.target.epoch ≤ input.consensusState.finalized.epoch + 4 ∧
          ValidlyCarried (realExt X) 85 (if link.target.epoch < 411392 then [5, 0, 0, 0] else [6, 0, 0, 0]) st.genesisValidatorsRoot
            (registryOf (mainnetOf (realExt X)) st input.consensusState) input link) ∧
        r.toReader.slotForBlock post.finalized.root = .ok slot :=
  C85_mainnet_partial W (realExt X) (fun _ _ _ => rfl) hu (fun _ _ => rfl) hkeys stdin frame journal input r hf (hu ▸ hd) hr hdr st hreal hn

/-- **C85.** The same for Sepolia. -/
theorem C85_sepolia_sha256_partial {ε : Type} (W : WireExt) (X : Ext) (hu : X.usizeMod = 2 ^ 32) (hkeys : KeysAsPoints X)
    (stdin frame journal : Bytes) (input : GuestInput) (r : GuestReader)
    (hf : Frame.readFrame stdin = some frame) (hd : decodeInput W (2 ^ 32) frame = some input)
    (hr : input.intoReader (realExt X) (sepoliaOf (realExt X)) = .ok r) (hdr : Header) (st : BeaconState)
    (hreal : RealChainDigests (realExt X) (sepoliaOf (realExt X)) input hdr st)
    (hn : ∀ a ∈ input.attestations,
      (activeIndices (registryOf (sepoliaOf (realExt X)) st input.consensusState) a.data.target.epoch).length < 2 ^ 21) :
    (guestMain W (realExt X) (sepoliaOf (realExt X)) Config.sepolia stdin : Res ε Bytes) = .ok journal ↔
      ∃ links post slot, journal = Abi.encodeJournal input.consensusState post slot ∧
        Blocks input.attestations links ∧ FinalizesOnce input.consensusState links post ∧
        (∀ link ∈ links, 222464 ≤ link.target.epoch ∧ link.target.epoch ≤ input.consensusState.finalized.epoch + 4 ∧
          ValidlyCarried (realExt X) 70 (if link.target.epoch < 272640 then [0x90, 0, 0, 0x74] else [0x90, 0, 0, 0x75])
            st.genesisValidatorsRoot (registryOf (sepoliaOf (realExt X)) st input.consensusState) input link) ∧
        r.toReader.slotForBlock post.finalized.root = .ok slot :=
  C85_sepolia_partial W (realExt X) (fun _ _ _ => rfl) hu (fun _ _ => rfl) hkeys stdin frame journal input r hf (hu ▸ hd) hr hdr st hreal hn

/-! ## The hypotheses can be met -/

/-- A complete file for the mainnet guest with the votes of nine of ten validators, in the committees of the published shuffle, on both
sides of the start of Fulu. All hypotheses of `C85_mainnet_partial` are met, and the file is accepted: the votes are those of the
specification. -/
example : ∃ links post, Blocks Net.shuVotes links ∧ FinalizesOnce Net.shuInput.consensusState links post ∧
    ∀ link ∈ links, ValidlyCarried shuExt 85 (if link.target.epoch < 411392 then [5, 0, 0, 0] else [6, 0, 0, 0]) (exRoot32 77)
      (registryOf (mainnetOf shuExt) Net.mainnet.state Net.shuInput.consensusState) Net.shuInput link := by
  have hs : Net.mainnet.Shipped := Or.inl rfl
  have hf := readFrame_append _ [] Net.shu_size
  have hd := C63_round_trip _ szWire_laws shuExt.usizeMod (by decide) (by decide) Net.shuInput Net.shu_fits []
  rw [List.append_nil] at hf hd
  have hr : Net.shuInput.intoReader shuExt (mainnetOf shuExt) = .ok Net.shuReader := shu_reader (Net.input_reader hs) Net.shuVotes
  have key := C85_mainnet_partial (ε := Unit) (Ssz.wire exWire (fun _ => true)) shuExt shu_shuffle rfl (fun _ _ => rfl) shu_keys Net.shuFile _
    (Abi.encodeJournal Net.shuInput.consensusState ⟨Net.mainnet.first, Net.mainnet.last⟩ ((Net.mainnet.fuluEpoch - 1) * 32))
    Net.shuInput Net.shuReader hf hd hr Net.mainnet.hdr Net.mainnet.state (shu_real (Net.input_real hs) _) (by
      intro a ha
      calc _ ≤ (registryOf (mainnetOf shuExt) Net.mainnet.state Net.shuInput.consensusState).length := by
            unfold activeIndices
            calc _ ≤ _ := List.length_filter_le _ _
              _ = _ := List.length_range
        _ < 2 ^ 21 := by decide +kernel)
  have hrun : (guestMain (Ssz.wire exWire (fun _ => true)) shuExt (mainnetOf shuExt) Config.default Net.shuFile : Res Unit Bytes) = .ok
      (Abi.encodeJournal Net.shuInput.consensusState ⟨Net.mainnet.first, Net.mainnet.last⟩ ((Net.mainnet.fuluEpoch - 1) * 32)) := by
    have := C63_guest_reads (ε := Unit) (Ssz.wire exWire (fun _ => true)) szWire_laws shuExt (by decide) (by decide) (mainnetOf shuExt)
      Config.default Net.shuInput Net.shu_fits Net.shu_size []
    rw [List.append_nil] at this
    refine this.trans ?_
    unfold guestEntry
    rw [hr]
    simp only [Res.unwrap, Res.ok_bind]
    have hv : verify shuExt Config.default Net.shuReader.toReader = _ := Net.shu_verifies
    rw [hv]
    rfl
  obtain ⟨links, post, slot, -, hb, hfin, hc, -⟩ := key.1 hrun
  exact ⟨links, post, hb, hfin, fun l hl => (hc l hl).2.2⟩

end Signal
