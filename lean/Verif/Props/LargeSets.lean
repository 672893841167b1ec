import Verif.Props.Shuffle
import Verif.Props.VerifyOrder

/-!
# C14, C22, C23, C74: active sets that do not fit the words of the guest

Committee positions are products of the number of active validators and of a committee index, computed in the machine word. The theorems
of the other modules assume that they fit. Here: where exactly the guest is right, and what it does beyond.
-/

namespace Signal
open Spec Shuffle

/-- **C23.** With the constants of mainnet, the committees of the 32-bit guest are those of the consensus specification for every slot and
index exactly if there are fewer than `2^21` active validators. -/
theorem C23_guest_exact (X : Ext) (hu : X.usizeMod = 2 ^ 32) (spec : ChainSpec) (hspe : spec.slotsPerEpoch = 32) (seed : Bytes)
    (indices : List Nat) (epoch : Nat) (c : CommitteeCache)
    (h : CommitteeCache.initialized X spec seed indices 64 epoch = .ok c) (hnd : c.shuffling.Nodup) :
    (∀ slot index, slot / 32 = epoch → index < 64 →
      c.getBeaconCommittee X spec slot index = .ok (beaconCommittee c.shuffling 64 32 slot index)) ↔
    c.shuffling.length < 2 ^ 21 := by
  obtain ⟨_, h2, h3, h4, h5, h6, m, _, _, hfill⟩ := initialized_ok h
  have h6' := h6
  rw [hspe] at h6'
  constructor
  · intro hall
    by_contra hn
    have hn : 2 ^ 21 ≤ c.shuffling.length := by omega
    have hd : (epoch * 32 + 31) / 32 = epoch := by omega
    have hm : (epoch * 32 + 31) % 32 = 31 := by omega
    have key := hall (epoch * 32 + 31) 63 hd (by decide)
    simp only [CommitteeCache.getBeaconCommittee, Res.bind_eq_ok, okOr_eq_ok] at key
    obtain ⟨_, _, _, _, _, _, _, _, _, _, key⟩ := key
    have e1 : computeCommitteeIndexInEpoch X (epoch * 32 + 31) c.slotsPerEpoch c.committeesPerSlot 63 = 2047 := by
      unfold computeCommitteeIndexInEpoch
      rw [hu, h5, h6', Nat.mod_mod_of_dvd _ (by decide), hm]; norm_num
    have e2 : c.epochCount X = 2048 := by
      unfold CommitteeCache.epochCount epochCommitteeCount
      rw [hu, h5, h6']; norm_num
    rw [e1] at key
    unfold CommitteeCache.computeCommittee computeCommitteeRangeInEpoch at key
    rw [e2, hu] at key
    simp only [show ¬ ((2048 : Nat) = 0 ∨ 2048 ≤ 2047) by decide, if_false] at key
    generalize hn' : c.shuffling.length = n at *
    have hlast : (n * ((2047 + 1) % 2 ^ 32)) % 2 ^ 32 / 2048 < n := by omega
    split at key
    · rename_i hij
      simp only [beaconCommittee, committee, hm, hn', Option.some.injEq] at key
      -- the last validator is in the committee of the specification, but not in that of the guest
      have hidx : n - 1 < c.shuffling.length := by omega
      have hin : c.shuffling[n - 1] ∈ (c.shuffling.drop (n * (31 * 64 + 63) / (64 * 32))).take
          (n * (31 * 64 + 63 + 1) / (64 * 32) - n * (31 * 64 + 63) / (64 * 32)) := by
        rw [List.mem_iff_getElem?]
        refine ⟨n - 1 - n * (31 * 64 + 63) / (64 * 32), ?_⟩
        rw [List.getElem?_take, if_pos (by omega), List.getElem?_drop,
          show n * (31 * 64 + 63) / (64 * 32) + (n - 1 - n * (31 * 64 + 63) / (64 * 32)) = n - 1 by omega,
          List.getElem?_eq_getElem hidx]
      rw [← key] at hin
      obtain ⟨k, hk⟩ := List.mem_iff_getElem?.1 hin
      rw [List.getElem?_take] at hk
      split at hk
      · rename_i hkl
        rw [List.getElem?_drop] at hk
        obtain ⟨hk1, hk2⟩ := List.getElem?_eq_some_iff.1 hk
        have := (List.Nodup.getElem_inj_iff hnd).1 hk2
        omega
      · cases hk
    · cases key
  · intro hn slot index hs hi
    have := getBeaconCommittee_eq (X := X) (spec := spec) (c := c) (slot := slot) (e := epoch) (i := index)
      (by rw [h5, h6', hu]; exact ⟨by decide, by decide, by decide, by omega⟩) h6 h4 (by rw [hspe]; exact hs) (by rw [h5]; exact hi)
    rw [this, h5, hspe]

/-- **C74.** The same against `compute_committee`: the guest's committees are those of the consensus specification exactly if there are
fewer than `2^21` active validators. -/
theorem C74_guest_exact (X : Ext) (hX : RealShuffle X) (hu : X.usizeMod = 2 ^ 32) (spec : ChainSpec) (hspe : spec.slotsPerEpoch = 32)
    (seed : Bytes) (indices : List Nat) (hnd : indices.Nodup) (epoch : Nat) (c : CommitteeCache)
    (h : CommitteeCache.initialized X spec seed indices 64 epoch = .ok c) :
    (∀ slot index, slot / 32 = epoch → index < 64 → c.getBeaconCommittee X spec slot index =
      .ok (computeCommittee X.sha256 spec.shuffleRoundCount indices seed (slot % 32 * 64 + index) (64 * 32))) ↔
    indices.length < 2 ^ 21 := by
  obtain ⟨_, _, h3, _⟩ := initialized_ok h
  rw [hX] at h3
  have hp := C74_permutes _ _ _ _ _ _ h3
  rw [← hp.length_eq, ← C23_guest_exact X hu spec hspe seed indices epoch c h (hp.nodup_iff.2 hnd)]
  apply forall₂_congr
  intro slot index
  apply imp_congr_right; intro hs
  apply imp_congr_right; intro hi
  unfold beaconCommittee
  rw [C74_committee X.sha256 (2 ^ 64) (le_refl _) indices c.shuffling spec.shuffleRoundCount seed h3 _ _ (by omega)]

/-- **C23.** What goes wrong: with `2^22` active validators the guest takes the first committee of the epoch to be that of the middle
slot as well, and the committee of the specification is another one. -/
theorem C23_guest_repeats (X : Ext) (hu : X.usizeMod = 2 ^ 32) (spec : ChainSpec) (hspe : spec.slotsPerEpoch = 32) (seed : Bytes)
    (indices : List Nat) (epoch : Nat) (c : CommitteeCache)
    (h : CommitteeCache.initialized X spec seed indices 64 epoch = .ok c) (hn : c.shuffling.length = 2 ^ 22) :
    c.getBeaconCommittee X spec (epoch * 32) 0 = .ok (c.shuffling.take 2048) ∧
    c.getBeaconCommittee X spec (epoch * 32 + 16) 0 = .ok (c.shuffling.take 2048) ∧
    beaconCommittee c.shuffling 64 32 (epoch * 32 + 16) 0 = (c.shuffling.drop (2 ^ 21)).take 2048 := by
  obtain ⟨_, _, _, h4, h5, h6, _⟩ := initialized_ok h
  rw [hspe] at h6
  have hm0 : epoch * 32 % 32 = 0 := by omega
  have hm16 : (epoch * 32 + 16) % 32 = 16 := by omega
  have hd0 : epoch * 32 / 32 = epoch := by omega
  have hd16 : (epoch * 32 + 16) / 32 = epoch := by omega
  have e0 : computeCommitteeIndexInEpoch X (epoch * 32) 32 64 0 = 0 := by
    unfold computeCommitteeIndexInEpoch
    rw [hu, Nat.mod_mod_of_dvd _ (by decide), hm0]; norm_num
  have e16 : computeCommitteeIndexInEpoch X (epoch * 32 + 16) 32 64 0 = 1024 := by
    unfold computeCommitteeIndexInEpoch
    rw [hu, Nat.mod_mod_of_dvd _ (by decide), hm16]; norm_num
  have ec : c.epochCount X = 2048 := by
    unfold CommitteeCache.epochCount epochCommitteeCount
    rw [hu, h5, h6]; norm_num
  have c0 : c.computeCommittee X 0 = some (c.shuffling.take 2048) := by
    unfold CommitteeCache.computeCommittee computeCommitteeRangeInEpoch
    rw [ec, hu, hn]; rfl
  have c16 : c.computeCommittee X 1024 = some (c.shuffling.take 2048) := by
    unfold CommitteeCache.computeCommittee computeCommitteeRangeInEpoch
    rw [ec, hu, hn]; rfl
  refine ⟨?_, ?_, ?_⟩
  · unfold CommitteeCache.getBeaconCommittee slotEpoch
    simp [hspe, h4, h5, h6, ensure, assert, e0, c0, okOr]
  · unfold CommitteeCache.getBeaconCommittee slotEpoch
    simp [hspe, h4, h5, h6, ensure, assert, e16, c16, okOr, hd16]
  · unfold beaconCommittee committee
    rw [hm16, hn]; norm_num

/-! ## An accepted input whose signers are not those of the consensus specification -/

/-- A chain with three validators and epochs of `2^31` slots with one committee each, so that most committees are empty. -/
def lsSpec : ChainSpec := { exSpec with slotsPerEpoch := 2 ^ 31, maxCommitteesPerSlot := 1 }

/-- The first validator holds nearly all of the balance. -/
def lsActive : List (Nat × ValidatorInfo) :=
  [(0, ⟨exKey 0, 100, false, 0, 0, u64Max⟩), (1, ⟨exKey 1, 1, false, 0, 0, u64Max⟩), (2, ⟨exKey 2, 1, false, 0, 0, u64Max⟩)]

/-- The vote of validator 0 in the committee of `slot`, correctly signed. -/
def lsVote (slot : Nat) (source target : Checkpoint) (block : Root := List.replicate 32 0) : Attestation :=
  let data : AttestationData := ⟨slot, 0, block, source, target⟩
  .electra {
    aggregationBits := [true]
    data := data
    committeeBits := [true] ++ List.replicate 63 false
    signature := padSig (exSpec.signingRoot data (exExt.computeDomain [5, 0, 0, 0] (exRoot32 77)) ++ [100]) }

/-- Both votes are cast in the last slot of their epoch. -/
def lsVotes : List Attestation :=
  [lsVote (7 * 2 ^ 31 - 1) exC4 exC6, lsVote (8 * 2 ^ 31 - 1) exC6 exC7]

def lsReader : Reader :=
  { exReader with spec := lsSpec, activeValidators := fun _ => .ok lsActive, attestations := .ok lsVotes }

set_option maxRecDepth 100000 in
theorem lsReader_verifies : verify exExt Config.default lsReader = .ok (⟨exC7, exC6⟩, 24) := by decide +kernel

/-- By the consensus specification the committee of the last slot consists of the last validator, who signed none of these votes. -/
theorem ls_not_selected (block : Root) (hblock : block = List.replicate 32 0 ∨ block = exRoot32 5) (s : List Nat)
    (hv : Vote exExt lsReader (OMap.ofList lsActive) (lsVote (7 * 2 ^ 31 - 1) exC4 exC6 block) s) :
    ¬ SelectedBy [0, 1, 2] (committeesPerSlot lsSpec (OMap.ofList lsActive).length) lsSpec.slotsPerEpoch
      (lsVote (7 * 2 ^ 31 - 1) exC4 exC6 block) s := by
  intro hsel
  obtain ⟨_, hmem⟩ := hsel _ rfl
  have hspec : ∀ i, i ∈ s ↔ i = 2 := by
    intro i
    rw [hmem i]
    have : attesters (beaconCommittee [0, 1, 2] (committeesPerSlot lsSpec (OMap.ofList lsActive).length)
        lsSpec.slotsPerEpoch (7 * 2 ^ 31 - 1)) ([true] ++ List.replicate 63 false) [true] = [2] := by decide +kernel
    have h := congrArg (fun l => i ∈ l) this
    simp only [List.mem_singleton] at h
    exact iff_of_eq h
  have hs2 : s = [2] := by
    have ha := hv.signers_ascending
    match s, hspec, ha with
    | [], h, _ => exact absurd ((h 2).2 rfl) (by simp)
    | [a], h, _ => rw [(h a).1 (by simp)]
    | a :: b :: t, h, hp =>
      have := (List.pairwise_cons.1 hp).1 b (by simp)
      rw [(h a).1 (by simp), (h b).1 (by simp)] at this
      omega
  subst hs2
  obtain ⟨e, he, _, _, _, fork, root, hf, hr, hsig⟩ := hv.electra
  cases he; cases hf; cases hr
  revert hsig
  rcases hblock with rfl | rfl <;> decide +kernel

/-- **C14, limit of the guest.** The condition on the machine word is needed: there are an input that `verify` accepts on a 32-bit machine
and an attestation in it, by validators that the consensus specification does not put into the committee of its slot. -/
theorem C14_guest_misattributed : ∃ (X : Ext) (cfg : Config) (R : Reader) (r : ConsensusState × Nat) (atts : List Attestation)
    (a : Attestation) (l : List (Nat × ValidatorInfo)) (seed : Bytes) (sh : List Nat),
    X.usizeMod = 2 ^ 32 ∧ verify X cfg R = .ok r ∧ R.attestations = .ok atts ∧ a ∈ atts ∧
    R.activeValidators a.data.target.epoch = .ok l ∧
    R.getSeed X a.data.target.epoch R.spec.domainBeaconAttester = .ok seed ∧
    X.shuffleList (OMap.ofList l).keys R.spec.shuffleRoundCount seed = some sh ∧
    (∃ signers, Vote X R (OMap.ofList l) a signers) ∧
    ∀ signers, Vote X R (OMap.ofList l) a signers →
      ¬ SelectedBy sh (committeesPerSlot R.spec (OMap.ofList l).length) R.spec.slotsPerEpoch a signers := by
  obtain ⟨l, signers, seed, sh, h1, h2, h3, h4, _⟩ := C14_counted_votes_are_real_partial exExt Config.default lsReader _ _
    lsReader_verifies _ rfl lsVotes rfl (lsVote (7 * 2 ^ 31 - 1) exC4 exC6) (by simp [lsVotes])
  cases h1
  have hsh : sh = [0, 1, 2] := by
    have : some sh = some [0, 1, 2] := by rw [← h4]; rfl
    simpa using this
  subst hsh
  exact ⟨exExt, Config.default, lsReader, _, lsVotes, _, lsActive, seed, [0, 1, 2], rfl, lsReader_verifies, rfl, by simp [lsVotes], rfl, h3,
    h4, ⟨signers, h2⟩, fun s hv => ls_not_selected _ (Or.inl rfl) s hv⟩

/-- The votes and another one of the same slot, for another block. -/
def lsMore : List Attestation :=
  [lsVote (7 * 2 ^ 31 - 1) exC4 exC6, lsVote (7 * 2 ^ 31 - 1) exC4 exC6 (exRoot32 5), lsVote (8 * 2 ^ 31 - 1) exC6 exC7]

set_option maxRecDepth 100000 in
theorem lsMore_verifies : verify exExt Config.default { lsReader with attestations := .ok lsMore } = .ok (⟨exC7, exC6⟩, 24) := by
  decide +kernel

/-- **C69, limit of the guest.** Where committee positions do not fit the machine word, an added vote can be accepted that is not
genuine. -/
theorem C69_guest_accepts_false_vote : ∃ (X : Ext) (cfg : Config) (R : Reader) (r : ConsensusState × Nat)
    (atts atts' : List Attestation) (links : List Link),
    X.usizeMod = 2 ^ 32 ∧ verify X cfg R = .ok r ∧ R.attestations = .ok atts ∧ Blocks atts links ∧ Blocks atts' links ∧
    (∀ a ∈ atts, a ∈ atts') ∧
    (∀ a ∈ atts, ∀ l, R.activeValidators a.data.target.epoch = .ok l →
      3 * floored R.spec (totalWeight (OMap.ofList l)) < 2 ^ 64) ∧
    verify X cfg { R with attestations := .ok atts' } = .ok r ∧
    ∃ a ∈ atts', a ∉ atts ∧ ¬ Genuine X R a := by
  refine ⟨exExt, Config.default, lsReader, _, lsVotes, lsMore, [⟨exC4, exC6⟩, ⟨exC6, exC7⟩], rfl, lsReader_verifies, rfl,
    ⟨by decide +kernel, by decide +kernel, by decide +kernel⟩, ⟨by decide +kernel, by decide +kernel, by decide +kernel⟩,
    by decide +kernel, ?_, lsMore_verifies,
    lsVote (7 * 2 ^ 31 - 1) exC4 exC6 (exRoot32 5), by simp [lsMore], by decide +kernel, ?_⟩
  · intro a _ l hl
    cases hl
    decide
  · rintro ⟨l, s, sh, hl, hv, hsh, hsel⟩
    cases hl
    obtain ⟨_, _, hsh⟩ := hsh.shuffled
    have : sh = [0, 1, 2] := by
      have : some sh = some [0, 1, 2] := by rw [← hsh]; rfl
      simpa using this
    subst this
    exact ls_not_selected _ (Or.inr rfl) s hv hsel

/-- The signer that the code found is the first validator. -/
example : ∃ signers, Vote exExt lsReader (OMap.ofList lsActive) (lsVote (7 * 2 ^ 31 - 1) exC4 exC6) signers := by
  obtain ⟨l, signers, _, _, h1, h2, _⟩ := C14_counted_votes_are_real_partial exExt Config.default lsReader _ _
    lsReader_verifies _ rfl lsVotes rfl (lsVote (7 * 2 ^ 31 - 1) exC4 exC6) (by simp [lsVotes])
  cases h1
  exact ⟨signers, h2⟩

/-! ## The hypotheses can be met

A cache over `2^22` validators exists: the identity shuffle fills every position. -/

theorem fillPositions_range (n k i : Nat) (hk : i + k ≤ n) (pos : List (Option Nat)) (hp : pos.length = n) :
    ∃ p, fillPositions (List.range' i k) i pos = .ok p := by
  induction k generalizing i pos with
  | zero => exact ⟨pos, rfl⟩
  | succ k ih =>
    obtain ⟨p, hp'⟩ := ih (i + 1) (by omega) (pos.set i (some (i + 1))) (by simpa using hp)
    refine ⟨p, ?_⟩
    rw [List.range'_succ, fillPositions, ensure, if_pos (by simp; omega)]
    exact hp'

/-- A specification with the constants of mainnet that matter here. -/
def lsMainnet : ChainSpec := { exSpec with slotsPerEpoch := 32, maxCommitteesPerSlot := 64, targetCommitteeSize := 128 }

/-- For every number of validators there is a cache for them, as long as the indices fit. -/
theorem lsCache (n epoch : Nat) (hn : 0 < n) (hn' : n < 2 ^ 32) :
    ∃ c, CommitteeCache.initialized exExt lsMainnet [] (List.range n) 64 epoch = .ok c ∧ c.shuffling = List.range n := by
  have hmax : (List.range n).max? = some (n - 1) := by
    rw [List.max?_eq_some_iff]
    refine ⟨by simp; omega, fun b hb => ?_⟩
    have := List.mem_range.1 hb
    omega
  obtain ⟨p, hp⟩ := fillPositions_range n n 0 (by omega) (List.replicate (n - 1 + 1) none) (by simp; omega)
  refine ⟨⟨some epoch, List.range n, p, 64, 32⟩, ?_, rfl⟩
  simp only [CommitteeCache.initialized, Res.bind_eq_ok, ensure_eq_ok, okOr_eq_ok, Res.pure_eq, decide_eq_true_eq]
  refine ⟨(), by decide, n - 1, hmax, List.range n, rfl, (), ?_, p, ?_, rfl⟩
  · show n - 1 < 2 ^ 32 - 1
    omega
  · rw [List.range_eq_range']; exact hp

/-- A million validators: right. Three million: wrong. -/
example (epoch : Nat) : (∃ c, CommitteeCache.initialized exExt lsMainnet [] (List.range 1000000) 64 epoch = .ok c ∧
      ∀ slot index, slot / 32 = epoch → index < 64 →
        c.getBeaconCommittee exExt lsMainnet slot index = .ok (beaconCommittee c.shuffling 64 32 slot index)) ∧
    ∃ c, CommitteeCache.initialized exExt lsMainnet [] (List.range 3000000) 64 epoch = .ok c ∧
      ¬ ∀ slot index, slot / 32 = epoch → index < 64 →
        c.getBeaconCommittee exExt lsMainnet slot index = .ok (beaconCommittee c.shuffling 64 32 slot index) := by
  constructor
  · obtain ⟨c, h, hs⟩ := lsCache 1000000 epoch (by decide) (by decide)
    refine ⟨c, h, (C23_guest_exact exExt rfl lsMainnet rfl [] _ epoch c h (by rw [hs]; exact List.nodup_range)).2 ?_⟩
    rw [hs, List.length_range]; decide
  · obtain ⟨c, h, hs⟩ := lsCache 3000000 epoch (by decide) (by decide)
    refine ⟨c, h, fun ha => ?_⟩
    have := (C23_guest_exact exExt rfl lsMainnet rfl [] _ epoch c h (by rw [hs]; exact List.nodup_range)).1 ha
    rw [hs, List.length_range] at this
    omega

/-- Four million: the middle slot has the committee of the first. -/
example : ∃ c, CommitteeCache.initialized exExt lsMainnet [] (List.range (2 ^ 22)) 64 9 = .ok c ∧
    c.getBeaconCommittee exExt lsMainnet (9 * 32 + 16) 0 = .ok (c.shuffling.take 2048) := by
  obtain ⟨c, h, hs⟩ := lsCache (2 ^ 22) 9 (by decide) (by decide)
  exact ⟨c, h, (C23_guest_repeats exExt rfl lsMainnet rfl [] _ 9 c h (by rw [hs, List.length_range])).2.1⟩

/-- The real shuffle, for a small set: every committee is that of `compute_committee`. -/
example : ∃ c, CommitteeCache.initialized shExt lsMainnet (exRoot32 3) (List.range 10) 64 6 = .ok c ∧
    ∀ slot index, slot / 32 = 6 → index < 64 → c.getBeaconCommittee shExt lsMainnet slot index =
      .ok (computeCommittee toyHash 90 (List.range 10) (exRoot32 3) (slot % 32 * 64 + index) (64 * 32)) := by
  have h : ∃ c, CommitteeCache.initialized shExt lsMainnet (exRoot32 3) (List.range 10) 64 6 = .ok c := by
    have hb : (match CommitteeCache.initialized shExt lsMainnet (exRoot32 3) (List.range 10) 64 6 with
      | .ok _ => true | _ => false) = true := by decide +kernel
    split at hb
    · rename_i c hc; exact ⟨c, hc⟩
    · cases hb
  obtain ⟨c, hc⟩ := h
  exact ⟨c, hc, (C74_guest_exact shExt shExt_real rfl lsMainnet rfl (exRoot32 3) (List.range 10) List.nodup_range 6 c hc).2 (by decide)⟩

end Signal
