import Verif.Proofs.Accept
import Verif.Props.Safety

/-!
# C68, C69: exactly which inputs `verify` accepts
-/

namespace Signal
open Spec

/-- **C68.** `verify` accepts an input, with a given result, exactly if the input is acceptable. -/
theorem C68_accepts_iff (X : Ext) (cfg : Config) (R : Reader) (hs : Setting X R) (post : ConsensusState) (slot : Nat) :
    verify X cfg R = .ok (post, slot) ↔ Acceptable X cfg R post slot := by
  constructor
  · intro h
    obtain ⟨pre, atts, h1, h2, h3, h4, h5⟩ := verify_ok h
    obtain ⟨pre', atts', links, h1', h2', hb, hat⟩ := C11_atomic_finalization X cfg R post slot h
    rw [h1] at h1'; cases h1'
    rw [h2] at h2'; cases h2'
    refine ⟨pre, atts, links, h1, h2, hb, ⟨verify_pre_valid h3 (by rintro rfl; exact h4 rfl), h4, hat⟩, ?_, h5⟩
    intro l hl
    rw [chunkBy_of_blocks hb] at h3
    obtain ⟨s₁, s₂, hp⟩ := verifyLoop_mem h3 _ (List.mem_map.2 ⟨l, hl, rfl⟩)
    obtain ⟨g1, g2⟩ := block_nonempty hb hl
    exact ((processGroup_carries hs g1 g2).1 hp).2.1
  · rintro ⟨pre, atts, links, h1, h2, hb, ⟨hv, hne, hat⟩, hc, h5⟩
    refine verify_ok_of h1 h2 ?_ hne h5
    rw [chunkBy_of_blocks hb]
    have hg : ∀ l ∈ links, atts.filter (fun a => decide (linkOf a = l)) ≠ [] ∧
        (∀ a ∈ atts.filter (fun a => decide (linkOf a = l)), linkOf a = l) ∧
        Carries X cfg R pre.finalized l (atts.filter (fun a => decide (linkOf a = l))) := fun l hl =>
      ⟨(block_nonempty hb hl).1, (block_nonempty hb hl).2, hc l hl⟩
    rcases hat with hat | ⟨hz, b, links', hb1, rfl, hat⟩
    · exact verifyLoop_of_atomic hs (group := fun l => atts.filter (fun a => decide (linkOf a = l))) hat hg pre rfl rfl hv
    · subst hz
      rw [List.map_cons, verifyLoop_cons]
      obtain ⟨g1, g2, g3⟩ := hg _ List.mem_cons_self
      have hstep : Step ⟨⟨0, List.replicate 32 0⟩, ⟨0, List.replicate 32 0⟩⟩ ⟨⟨0, List.replicate 32 0⟩, b⟩
          ⟨b, ⟨0, List.replicate 32 0⟩⟩ := .finalize _ _ _ (by rw [hb1])
      exact ⟨_, (processGroup_carries hs g1 g2).2 ⟨rfl, g3, hv, hstep⟩,
        verifyLoop_of_atomic hs (group := fun l => atts.filter (fun a => decide (linkOf a = l))) hat
          (fun l hl => hg l (by simp [hl])) _ rfl rfl (hstep.valid hv)⟩

theorem Spec.Shuffled.unique {X : Ext} {R : Reader} {active : OMap ValidatorInfo} {e : Nat} {sh sh' : List Nat}
    (h : Shuffled X R active e sh) (h' : Shuffled X R active e sh') : sh = sh' := by
  obtain ⟨_, _, mix, h1, h2⟩ := h
  obtain ⟨_, _, mix', h1', h2'⟩ := h'
  rw [h1] at h1'; cases h1'
  rw [h2] at h2'; exact Option.some.inj h2'

open Classical in
/-- Further genuine votes for a link do not take away from its weight. -/
theorem Spec.Carries.more {X : Ext} {cfg : Config} {R : Reader} {trusted : Checkpoint} {link : Link}
    {atts atts' : List Attestation} (h : Carries X cfg R trusted link atts) (hsub : ∀ a ∈ atts, a ∈ atts')
    (hk : ∀ a ∈ atts', linkOf a = link) (hg : ∀ a ∈ atts', a ∉ atts → Genuine X R a)
    (hfit : ∀ l, R.activeValidators link.target.epoch = .ok l → 3 * floored R.spec (totalWeight (OMap.ofList l)) < 2 ^ 64) :
    Carries X cfg R trusted link atts' := by
  obtain ⟨active, signers, voters, sh, hj, hw, hsh, hsel⟩ := h
  obtain ⟨l, hl, rfl⟩ := hj.active_set
  have hex : ∀ a, ∃ s, a ∈ atts' → Vote X R (OMap.ofList l) a s ∧
      SelectedBy sh (committeesPerSlot R.spec (OMap.ofList l).length) R.spec.slotsPerEpoch a s ∧
      (a ∈ atts → s = signers a) := by
    intro a
    by_cases ha : a ∈ atts
    · exact ⟨signers a, fun _ => ⟨hj.votes a ha, hsel a ha, fun _ => rfl⟩⟩
    · by_cases ha' : a ∈ atts'
      · obtain ⟨l', s, sh', h1, h2, h3, h4⟩ := hg a ha' ha
        have he : a.data.target.epoch = link.target.epoch := by rw [← hk a ha']; rfl
        rw [he] at h1 h3
        rw [hl] at h1; cases h1
        rw [← hsh.unique h3] at h4
        exact ⟨s, fun _ => ⟨h2, h4, fun h => absurd h ha⟩⟩
      · exact ⟨[], fun h => absurd h ha'⟩
  choose signers' hs' using hex
  have hsorted := OMap.sorted_ofList l
  let voters' := (OMap.ofList l).keys.filter (fun i => decide ((∃ a ∈ atts', i ∈ signers' a) ∧
    ∃ v, (OMap.ofList l).get? i = some v ∧ v.slashed = false))
  have hv' : ∀ i, i ∈ voters' ↔ (∃ a ∈ atts', i ∈ signers' a) ∧
      ∃ v, (OMap.ofList l).get? i = some v ∧ v.slashed = false := by
    intro i
    simp only [voters', List.mem_filter, decide_eq_true_eq, and_iff_right_iff_imp]
    rintro ⟨_, v, hv, _⟩
    exact OMap.mem_keys_iff.2 ⟨v, hv⟩
  have hnd : voters'.Nodup := (OMap.keys_nodup hsorted).filter _
  have hle : weight (OMap.ofList l) voters ≤ weight (OMap.ofList l) voters' := by
    refine sum_le_of_subset _ _ _ hj.voters_nodup ?_
    intro i hi
    obtain ⟨⟨a, ha, hia⟩, hu⟩ := (hj.voters_iff i).1 hi
    refine (hv' i).2 ⟨⟨a, hsub a ha, ?_⟩, hu⟩
    rw [(hs' a (hsub a ha)).2.2 ha]; exact hia
  have hle' : weight (OMap.ofList l) voters' ≤ totalWeight (OMap.ofList l) := by
    rw [totalWeight_eq hsorted]
    exact sum_le_of_subset _ _ _ hnd (fun i hi => (List.mem_filter.1 hi).1)
  have hf : floored R.spec (weight (OMap.ofList l) voters) ≤ floored R.spec (weight (OMap.ofList l) voters') := by
    unfold floored; omega
  have hf' : floored R.spec (weight (OMap.ofList l) voters') ≤ floored R.spec (totalWeight (OMap.ofList l)) := by
    unfold floored; omega
  have h3 := hfit l hl
  have ht : floored R.spec (totalWeight (OMap.ofList l)) * cfg.justificationThresholdFactor ≤
      floored R.spec (weight (OMap.ofList l) voters') * cfg.justificationThresholdQuotient :=
    le_trans hw.threshold (Nat.mul_le_mul_right _ hf)
  have h23 : 2 * floored R.spec (totalWeight (OMap.ofList l)) ≤ 3 * floored R.spec (weight (OMap.ofList l) voters') :=
    le_trans hw.two_thirds (Nat.mul_le_mul_left _ hf)
  exact ⟨OMap.ofList l, signers', voters', sh,
    ⟨hj.fork_supported, hj.lookahead, ⟨l, hl, rfl⟩, fun a ha => (hs' a ha).1, hnd, hv', ht, h23⟩,
    ⟨by omega, hw.total_fits, ht, h23⟩, hsh, fun a ha => (hs' a ha).2.1⟩

/-- **C69.** Given an accepted input, adding votes to the blocks of its links leaves it accepted, with the same result,
exactly if every added vote is genuine (as long as balances are far from the end of the 64-bit range). Missing: inputs outside `Setting`. -/
theorem C69_more_votes_partial (X : Ext) (cfg : Config) (R : Reader) (hs : Setting X R) (r : ConsensusState × Nat)
    (h : verify X cfg R = .ok r) (atts atts' : List Attestation) (links : List Link)
    (hatts : R.attestations = .ok atts) (hb : Blocks atts links) (hb' : Blocks atts' links)
    (hsub : ∀ a ∈ atts, a ∈ atts')
    (hfit : ∀ a ∈ atts, ∀ l, R.activeValidators a.data.target.epoch = .ok l →
      3 * floored R.spec (totalWeight (OMap.ofList l)) < 2 ^ 64) :
    verify X cfg { R with attestations := .ok atts' } = .ok r ↔ ∀ a ∈ atts', a ∉ atts → Genuine X R a := by
  obtain ⟨post, slot⟩ := r
  have hs' : Setting X { R with attestations := .ok atts' } := ⟨hs.committee_size, hs.lookahead, hs.mixes,
    hs.mixes_word, hs.shuffle, hs.fits⟩
  obtain ⟨pre, atts₀, links₀, h1, h2, hb₀, hf, hc, h5⟩ := (C68_accepts_iff X cfg R hs post slot).1 h
  rw [hatts] at h2; cases h2
  have hlinks : links₀ = links := by
    have e1 := chunkBy_of_blocks hb
    rw [chunkBy_of_blocks hb₀] at e1
    have := congrArg (List.map Prod.fst) e1
    simpa [List.map_map, Function.comp_def] using this
  subst hlinks
  rw [C68_accepts_iff X cfg _ hs']
  constructor
  · rintro ⟨pre', atts₁, links₁, k1, k2, kb, kf, kc, k5⟩ a ha hna
    cases k2
    have hl : linkOf a ∈ links₁ := by
      rw [kb.concat] at ha
      obtain ⟨l, hl, hal⟩ := List.mem_flatMap.1 ha
      have := (List.mem_filter.1 hal).2
      simp only [decide_eq_true_eq] at this
      rw [this]; exact hl
    obtain ⟨active, signers, voters, sh, hj, _, hsh, hsel⟩ := kc _ hl
    obtain ⟨l, hl, rfl⟩ := hj.active_set
    have ham : a ∈ atts'.filter (fun b => decide (linkOf b = linkOf a)) := List.mem_filter.2 ⟨ha, by simp⟩
    have hv := hj.votes a ham
    exact ⟨l, signers a, sh, hl, ⟨hv.1, hv.2, hv.3, hv.4⟩, ⟨hsh.1, hsh.2, hsh.3⟩, hsel a ham⟩
  · intro hg
    refine ⟨pre, atts', links₀, h1, rfl, hb', hf, ?_, h5⟩
    intro l hl
    obtain ⟨a, ha, rfl⟩ := hb.nonempty l hl
    have := (hc _ hl).more (atts' := atts'.filter (fun b => decide (linkOf b = linkOf a)))
      (fun b hb => by
        obtain ⟨q1, q2⟩ := List.mem_filter.1 hb
        exact List.mem_filter.2 ⟨hsub b q1, q2⟩)
      (fun b hb => by simpa using (List.mem_filter.1 hb).2)
      (fun b hb hn => by
        obtain ⟨q1, q2⟩ := List.mem_filter.1 hb
        exact hg b q1 (fun hm => hn (List.mem_filter.2 ⟨hm, q2⟩)))
      (hfit a ha)
    obtain ⟨active, signers, voters, sh, hj, hw, hsh, hsel⟩ := this
    exact ⟨active, signers, voters, sh, ⟨hj.1, hj.2, hj.3, fun b hb => ⟨(hj.4 b hb).1, (hj.4 b hb).2, (hj.4 b hb).3,
      (hj.4 b hb).4⟩, hj.5, hj.6, hj.7, hj.8⟩, hw, ⟨hsh.1, hsh.2, hsh.3⟩, hsel⟩

/-- The setting is that of the guest on mainnet and Sepolia, with fewer than `2^21` active validators. -/
theorem C68_guest_setting (X : Ext) (R : Reader) (hX : X.usizeMod = 2 ^ 32) (h1 : R.spec.slotsPerEpoch = 32)
    (h2 : R.spec.targetCommitteeSize = 128) (h3 : R.spec.maxCommitteesPerSlot = 64)
    (h4 : R.spec.epochsPerHistoricalVector = 65536) (h5 : R.spec.minSeedLookahead = 1)
    (hsh : ∀ l seed sh, X.shuffleList l R.spec.shuffleRoundCount seed = some sh → sh.Perm l)
    (hn : ∀ e l, R.activeValidators e = .ok l → (OMap.ofList l).length < 2 ^ 21) : Setting X R where
  committee_size := by rw [h2]; decide
  lookahead := by rw [h4, h5]; decide
  mixes := by rw [h4]; decide
  mixes_word := by rw [h4, hX]; decide
  shuffle := hsh
  fits := by
    intro e l hl
    have hlt := hn e l hl
    have hp : committeesPerSlot R.spec (OMap.ofList l).length ≤ 64 := by
      unfold committeesPerSlot; rw [h3]; omega
    rw [hX, h1]
    refine ⟨by decide, by decide, by omega, ?_⟩
    calc (OMap.ofList l).length * (committeesPerSlot R.spec (OMap.ofList l).length * 32)
        ≤ (OMap.ofList l).length * (64 * 32) := Nat.mul_le_mul_left _ (Nat.mul_le_mul_right _ hp)
      _ < 2 ^ 32 := by omega

/-! ## The example input -/

theorem exReader_setting : Setting exExt exReader where
  committee_size := by decide
  lookahead := by decide
  mixes := by decide
  mixes_word := by decide
  shuffle := by
    intro l seed sh h
    cases h
    exact List.Perm.refl _
  fits := by
    intro e l h
    cases h
    have : (OMap.ofList exActive).length = 10 := by decide
    rw [this]
    exact ⟨by decide, by decide, by decide, by decide⟩

/-- A reader of the guest's setting: the example with the constants of mainnet. -/
example (S : ChainSpec) (h1 : S.slotsPerEpoch = 32) (h2 : S.targetCommitteeSize = 128) (h3 : S.maxCommitteesPerSlot = 64)
    (h4 : S.epochsPerHistoricalVector = 65536) (h5 : S.minSeedLookahead = 1) : Setting exExt { exReader with spec := S } :=
  C68_guest_setting _ _ rfl h1 h2 h3 h4 h5 (fun l seed sh h => exReader_setting.shuffle l seed sh h) (by intro e l h; cases h; decide)

/-- The accepted example is acceptable in the sense of the specification. -/
example : Acceptable exExt Config.default exReader ⟨exC7, exC6⟩ 24 :=
  (C68_accepts_iff _ _ _ exReader_setting _ _).1 exReader_verifies

set_option maxRecDepth 100000 in
/-- Without the votes of slot 31 the input is not acceptable. -/
example : ¬ Acceptable exExt Config.default { exReader with attestations := .ok (exVotes.eraseIdx 7) } ⟨exC7, exC6⟩ 24 := by
  have hs := exReader_setting
  have hs' : Setting exExt { exReader with attestations := .ok (exVotes.eraseIdx 7) } := ⟨hs.committee_size, hs.lookahead,
    hs.mixes, hs.mixes_word, hs.shuffle, hs.fits⟩
  rw [← C68_accepts_iff _ _ _ hs']
  decide +kernel

/-- A vote of one of the two committees of slot 24 alone. -/
def exExtraVote (signature : Bytes) : Attestation :=
  .electra ⟨[true], ⟨24, 0, List.replicate 32 0, exC4, exC6⟩, true :: List.replicate 63 false, signature⟩

def exGoodSignature : Bytes :=
  padSig (exSpec.signingRoot ⟨24, 0, List.replicate 32 0, exC4, exC6⟩ (exExt.computeDomain [5, 0, 0, 0] (exRoot32 77)) ++ [100])

theorem exExtra_iff (sig : Bytes) (h : exExtraVote sig ∉ exVotes) :
    verify exExt Config.default { exReader with attestations := .ok (exExtraVote sig :: exVotes) } =
      .ok (⟨exC7, exC6⟩, 24) ↔ Genuine exExt exReader (exExtraVote sig) := by
  have hcons : ∀ l : Link, (exExtraVote sig :: exVotes).filter (fun a => decide (linkOf a = l)) =
      if l = ⟨exC4, exC6⟩ then exExtraVote sig :: exVotes.filter (fun a => decide (linkOf a = l))
      else exVotes.filter (fun a => decide (linkOf a = l)) := by
    intro l
    rw [List.filter_cons]
    have : linkOf (exExtraVote sig) = ⟨exC4, exC6⟩ := rfl
    rw [this]
    by_cases hl : l = ⟨exC4, exC6⟩
    · subst hl; simp
    · simp [hl, Ne.symm hl]
  have hb : Blocks exVotes [⟨exC4, exC6⟩, ⟨exC6, exC7⟩] := ⟨by decide +kernel, by decide +kernel, by decide +kernel⟩
  rw [C69_more_votes_partial exExt Config.default exReader exReader_setting _ exReader_verifies exVotes
    (exExtraVote sig :: exVotes) [⟨exC4, exC6⟩, ⟨exC6, exC7⟩] rfl hb
    ⟨hb.nodup, fun l hl => (hb.nonempty l hl).imp (fun a ha => ⟨by simp [ha.1], ha.2⟩), by
      rw [List.flatMap_cons, List.flatMap_cons, List.flatMap_nil, hcons, hcons]
      have := hb.concat
      rw [List.flatMap_cons, List.flatMap_cons, List.flatMap_nil] at this
      rw [if_pos rfl, if_neg (by decide), List.cons_append, ← this]⟩
    (fun a ha => by simp [ha]) (by
      intro a _ l hl
      cases hl
      decide)]
  constructor
  · intro hg; exact hg _ (by simp) h
  · intro hg a ha hna
    rcases List.mem_cons.1 ha with rfl | ha
    · exact hg
    · exact absurd ha hna

set_option maxRecDepth 100000 in
/-- Rightly signed, it is genuine and may be added; wrongly signed, neither. -/
example : Genuine exExt exReader (exExtraVote exGoodSignature) ∧ ¬ Genuine exExt exReader (exExtraVote []) := by
  rw [← exExtra_iff _ (by decide +kernel), ← exExtra_iff _ (by decide +kernel)]
  constructor <;> decide +kernel

end Signal
