import Verif.Proofs.Committee
import Verif.Proofs.Example
import Mathlib.Data.List.Nodup

/-!
# C22, C23, C24: attesting indices, committees, shuffled positions

A cache is what `CommitteeCache::initialized` returns; `sh` is the list the external shuffle
returned. Nothing is assumed about the shuffle unless stated.
-/

namespace Signal
open Spec

/-- **C22.** On a cache for epoch `epoch`, `get_attesting_indices` succeeds exactly if the bits are
well-formed and the attestation's slot is in the epoch of the cache, and then returns, as an ascending
list, exactly the validators the consensus specification selects. Missing: active sets whose committee positions do not fit in `usize`
(`hw`), where the code fails (`C22_guest_limit`). -/
theorem C22_attesting_indices_partial (X : Ext) (spec : ChainSpec) (seed : Bytes) (indices sh : List Nat)
    (perSlot epoch : Nat) (c : CommitteeCache)
    (h : CommitteeCache.initialized X spec seed indices perSlot epoch = .ok c)
    (hsh : X.shuffleList indices spec.shuffleRoundCount seed = some sh)
    (hw : NoUsizeWrap X.usizeMod sh.length perSlot spec.slotsPerEpoch)
    (a : AttestationElectra) (s : List Nat) :
    let committees := beaconCommittee sh perSlot spec.slotsPerEpoch a.data.slot
    getAttestingIndices X spec a c = .ok s ↔
      (setBits a.committeeBits ≠ [] → a.data.slot / spec.slotsPerEpoch = epoch) ∧
      GoodBits committees perSlot a.committeeBits a.aggregationBits ∧
      s.Pairwise (· < ·) ∧ ∀ i, i ∈ s ↔ i ∈ attesters committees a.committeeBits a.aggregationBits := by
  intro committees
  obtain ⟨h1, _, h3, h4, h5, h6, _⟩ := initialized_ok h
  rw [hsh] at h3; cases h3
  subst h5
  have hloop := fun (hs : a.data.slot / spec.slotsPerEpoch = epoch) =>
    @attestingLoop_ok_iff X spec c a committees
      (fun ci hci => getBeaconCommittee_eq (h6 ▸ hw) h6 h4 hs hci) (setBits a.committeeBits) []
  simp only [getAttestingIndices, Res.bind_eq_ok, assert_eq_ok, decide_eq_true_eq, Res.pure_eq,
    getCommitteeIndices_eq, Prod.exists]
  have hsort : OSet.Sorted (OSet.extend [] (selectBits ((setBits a.committeeBits).flatMap committees)
      (a.aggregationBits.drop 0))) := OSet.sorted_extend List.Pairwise.nil _
  have hmem : ∀ i, i ∈ (OSet.extend [] (selectBits ((setBits a.committeeBits).flatMap committees)
      (a.aggregationBits.drop 0))) ↔ i ∈ attesters committees a.committeeBits a.aggregationBits := by
    intro i; rw [OSet.mem_extend]; simp [attesters, selectBits]
  constructor
  · rintro ⟨s', off, g, _, hlen, hs⟩
    cases hs
    have hslot : setBits a.committeeBits ≠ [] → a.data.slot / spec.slotsPerEpoch = epoch := by
      intro hne
      cases hb : setBits a.committeeBits with
      | nil => exact absurd hb hne
      | cons ci cis =>
        rw [hb] at g
        simp only [attestingLoop, Res.bind_eq_ok] at g
        obtain ⟨_, _, l, hl, _⟩ := g
        have := (getBeaconCommittee_ok hl).1
        rw [h4] at this; simpa using this.symm
    refine ⟨hslot, ?_⟩
    by_cases hb : setBits a.committeeBits = []
    · rw [hb] at g
      simp only [attestingLoop, Res.ok.injEq, Prod.mk.injEq] at g
      obtain ⟨rfl, rfl⟩ := g
      refine ⟨⟨by simp [hb], by simpa [hb] using hlen, by simp [hb]⟩, List.Pairwise.nil, ?_⟩
      simp [attesters, hb]
    · obtain ⟨g1, g2, g3, g4, rfl⟩ := (hloop (hslot hb)).1 g
      exact ⟨⟨g1, by omega, by simpa using g4⟩, hsort, hmem⟩
  · rintro ⟨hslot, hg, hs, hm⟩
    have hseq := OSet.eq_of_mem_iff (t := (OSet.extend [] (selectBits
      ((setBits a.committeeBits).flatMap committees) (a.aggregationBits.drop 0)))) hs hsort
      (fun i => (hm i).trans (hmem i).symm)
    refine ⟨s, a.aggregationBits.length, ?_, (), rfl, rfl⟩
    by_cases hb : setBits a.committeeBits = []
    · have := hg.length
      simp [hb] at this
      simp only [hb, attestingLoop, Res.ok.injEq, Prod.mk.injEq]
      refine ⟨?_, by simp [this]⟩
      rw [hseq, hb]; simp [selectBits, OSet.extend]
    · rw [hloop (hslot hb)]
      exact ⟨hg.exist, by simpa using hg.length, Or.inr (le_refl _), by simpa using hg.attended, hseq⟩

/-- **C23.** The committees of an epoch, in order of slot and index, are the consecutive pieces of the
shuffled list: every one is returned by `get_beacon_committee`, and together they are that list. Missing: active sets whose committee
positions do not fit in `usize` (`hw`). -/
theorem C23_committees_tile_partial (X : Ext) (spec : ChainSpec) (seed : Bytes) (indices sh : List Nat)
    (perSlot epoch : Nat) (c : CommitteeCache)
    (h : CommitteeCache.initialized X spec seed indices perSlot epoch = .ok c)
    (hsh : X.shuffleList indices spec.shuffleRoundCount seed = some sh)
    (hw : NoUsizeWrap X.usizeMod sh.length perSlot spec.slotsPerEpoch) :
    ∃ com : Nat → Nat → List Nat,
      (∀ s < spec.slotsPerEpoch, ∀ i < perSlot,
        c.getBeaconCommittee X spec (epoch * spec.slotsPerEpoch + s) i = .ok (com s i)) ∧
      (List.range spec.slotsPerEpoch).flatMap (fun s => (List.range perSlot).flatMap (com s)) = sh := by
  obtain ⟨h1, _, h3, h4, h5, h6, _⟩ := initialized_ok h
  rw [hsh] at h3; cases h3
  subst h5
  have hpos := hw.slots_pos
  refine ⟨fun s i => committee c.shuffling (c.committeesPerSlot * spec.slotsPerEpoch)
    (s * c.committeesPerSlot + i), ?_, ?_⟩
  · intro s hs i hi
    rw [getBeaconCommittee_eq (h6 ▸ hw) h6 h4 _ hi]
    · simp [beaconCommittee, Nat.mod_eq_of_lt hs]
    · rw [Nat.mul_comm, Nat.mul_add_div hpos, Nat.div_eq_of_lt hs, Nat.add_zero]
  · rw [flatMap_range_mul (committee c.shuffling (c.committeesPerSlot * spec.slotsPerEpoch))]
    have hc : 0 < c.committeesPerSlot * spec.slotsPerEpoch := Nat.mul_pos h1 hpos
    rw [committees_tile _ (le_refl _) hc, Nat.mul_div_cancel _ hc, List.take_length]

/-- A value occurring once in a concatenation occurs in exactly one of the parts. -/
theorem unique_part {α : Type} {f : Nat → List α} {n : Nat} {v : α}
    (hnd : ((List.range n).flatMap f).Nodup) (hv : v ∈ (List.range n).flatMap f) :
    ∃! i, i < n ∧ v ∈ f i := by
  simp only [List.mem_flatMap, List.mem_range] at hv
  obtain ⟨i, hi, hvi⟩ := hv
  refine ⟨i, ⟨hi, hvi⟩, ?_⟩
  rintro j ⟨hj, hvj⟩
  rw [List.nodup_flatMap] at hnd
  by_contra hne
  have hp := hnd.2
  rw [List.pairwise_iff_getElem] at hp
  rcases Nat.lt_or_gt_of_ne hne with hlt | hlt
  · have := hp j i (by simpa using hj) (by simpa using hi) hlt
    simp only [List.getElem_range] at this
    exact this hvj hvi
  · have := hp i j (by simpa using hi) (by simpa using hj) hlt
    simp only [List.getElem_range] at this
    exact this hvi hvj

/-- **C23.** If the shuffle permutes the (distinct) active indices, every active validator sits in
exactly one committee of the epoch, and nobody else does. Missing: as for `C23_committees_tile_partial`. -/
theorem C23_one_committee_partial (X : Ext) (spec : ChainSpec) (seed : Bytes) (indices sh : List Nat)
    (perSlot epoch : Nat) (c : CommitteeCache)
    (h : CommitteeCache.initialized X spec seed indices perSlot epoch = .ok c)
    (hsh : X.shuffleList indices spec.shuffleRoundCount seed = some sh)
    (hperm : sh.Perm indices) (hnd : indices.Nodup)
    (hw : NoUsizeWrap X.usizeMod sh.length perSlot spec.slotsPerEpoch) :
    (∀ v ∈ indices, ∃! si : Nat × Nat, si.1 < spec.slotsPerEpoch ∧ si.2 < perSlot ∧
      ∃ l, c.getBeaconCommittee X spec (epoch * spec.slotsPerEpoch + si.1) si.2 = .ok l ∧ v ∈ l) ∧
    (∀ slot i l, c.getBeaconCommittee X spec slot i = .ok l → ∀ v ∈ l, v ∈ indices) := by
  obtain ⟨com, hcom, htile⟩ := C23_committees_tile_partial X spec seed indices sh perSlot epoch c h hsh hw
  have hshnd : sh.Nodup := hperm.nodup_iff.2 hnd
  constructor
  · intro v hv
    have hvs : v ∈ sh := hperm.mem_iff.2 hv
    rw [← htile] at hvs hshnd
    obtain ⟨s, ⟨hs, hvs'⟩, hsu⟩ := unique_part hshnd hvs
    have hnd2 : ((List.range perSlot).flatMap (com s)).Nodup :=
      (List.nodup_flatMap.1 hshnd).1 s (by simpa using hs)
    obtain ⟨i, ⟨hi, hvi⟩, hiu⟩ := unique_part hnd2 hvs'
    refine ⟨(s, i), ⟨hs, hi, com s i, hcom s hs i hi, hvi⟩, ?_⟩
    rintro ⟨s', i'⟩ ⟨hs', hi', l, hl, hvl⟩
    simp only at *
    rw [hcom s' hs' i' hi'] at hl; cases hl
    have e1 : s' = s := hsu s' ⟨hs', List.mem_flatMap.2 ⟨i', by simpa using hi', hvl⟩⟩
    subst e1
    rw [hiu i' ⟨hi', hvl⟩]
  · intro slot i l hl v hv
    obtain ⟨_, _, h3, _⟩ := initialized_ok h
    rw [hsh] at h3; cases h3
    exact hperm.mem_iff.1 ((getBeaconCommittee_ok hl).2.2 v hv)

/-- **C24.** On a cache whose shuffled list has no repetitions, `shuffled_position` is the inverse of
indexing the shuffled list, and `None` for every other validator. -/
theorem C24_shuffled_position (X : Ext) (spec : ChainSpec) (seed : Bytes) (indices sh : List Nat)
    (perSlot epoch : Nat) (c : CommitteeCache)
    (h : CommitteeCache.initialized X spec seed indices perSlot epoch = .ok c)
    (hsh : X.shuffleList indices spec.shuffleRoundCount seed = some sh) (hnd : sh.Nodup) (v : Nat) :
    (∀ i, c.shuffledPosition v = some i ↔ sh[i]? = some v) ∧
    (c.shuffledPosition v = none ↔ v ∉ sh) := by
  obtain ⟨_, _, h3, _, _, _, m, hm, _, hfill⟩ := initialized_ok h
  rw [hsh] at h3; cases h3
  obtain ⟨hlen, hbound, hpos⟩ := fillPositions_ok hfill
  obtain ⟨hout, hin⟩ := hpos hnd v
  have hnone : v ∉ c.shuffling → c.shuffledPosition v = none := by
    intro hv
    unfold CommitteeCache.shuffledPosition
    rw [hout hv, List.getElem?_replicate]
    split <;> simp_all
  have hsome : ∀ i, c.shuffling[i]? = some v → c.shuffledPosition v = some i := by
    intro i hi
    unfold CommitteeCache.shuffledPosition
    rw [hin i hi]; simp
  constructor
  · intro i
    constructor
    · intro hp
      by_cases hv : v ∈ c.shuffling
      · obtain ⟨j, hj⟩ := List.mem_iff_getElem?.1 hv
        rw [hsome j hj] at hp
        cases hp; exact hj
      · rw [hnone hv] at hp; cases hp
    · exact hsome i
  · constructor
    · intro hp hv
      obtain ⟨j, hj⟩ := List.mem_iff_getElem?.1 hv
      rw [hsome j hj] at hp; cases hp
    · exact hnone

/-- **C22, limit of the guest.** `NoUsizeWrap` is needed: with `2^21` active validators, 64
committees per slot and 32 slots the 32-bit guest cannot produce the last committee of an epoch at all. -/
theorem C22_guest_limit (X : Ext) (spec : ChainSpec) (c : CommitteeCache) (slot : Nat)
    (hX : X.usizeMod = 2 ^ 32) (hn : c.shuffling.length = 2 ^ 21) (hc : c.committeesPerSlot = 64)
    (hs : c.slotsPerEpoch = 32) (hs' : spec.slotsPerEpoch = 32)
    (hi : c.initializedEpoch = some (slot / 32)) (hslot : slot % 32 = 31) :
    c.getBeaconCommittee X spec slot 63 = .err .unableToShuffle := by
  have e1 : computeCommitteeIndexInEpoch X slot 32 64 63 = 2047 := by
    unfold computeCommitteeIndexInEpoch
    rw [hX, Nat.mod_mod_of_dvd _ (by decide), hslot]; norm_num
  have e2 : c.computeCommittee X 2047 = none := by
    unfold CommitteeCache.computeCommittee computeCommitteeRangeInEpoch CommitteeCache.epochCount
      epochCommitteeCount
    rw [hX, hn, hc, hs]
    rfl
  unfold CommitteeCache.getBeaconCommittee slotEpoch
  simp [hs', hi, hs, hc, ensure, assert, e1, e2, okOr]

/-! ## The hypotheses can be met -/

/-- A toy specification: 4 slots per epoch, at most 2 committees per slot of target size 1. -/
def exSpec : ChainSpec where
  slotsPerEpoch := 4
  epochsPerHistoricalVector := 16
  farFutureEpoch := u64Max
  effectiveBalanceIncrement := 1
  minActivationBalance := 32
  maxSeedLookahead := 4
  minSeedLookahead := 1
  shuffleRoundCount := 90
  minPerEpochChurnLimitElectra := 4
  churnLimitQuotient := 4
  maxCommitteesPerSlot := 2
  targetCommitteeSize := 1
  domainBeaconAttester := [1, 0, 0, 0]
  forkNameAtEpoch := fun e => if e < 3 then 4 else 5
  forkAtEpoch := fun e => if e < 3 then ⟨[3, 0, 0, 0], [4, 0, 0, 0], 0⟩ else ⟨[4, 0, 0, 0], [5, 0, 0, 0], 3⟩
  signingRoot := Signing.signingRoot toyHash

/-- A cache over ten validators. -/
def exCache : Res CommitteeError CommitteeCache :=
  CommitteeCache.initialized exExt exSpec [] [1, 2, 3, 5, 8, 9, 10, 12, 13, 20] 2 7

/-- An attestation at slot 29 (epoch 7) by two of the three members of its two committees. -/
def exAtt : AttestationElectra where
  aggregationBits := [true, false, true]
  data := ⟨29, 0, [], ⟨5, [5]⟩, ⟨7, [7]⟩⟩
  committeeBits := [true, true]
  signature := []

example : ∃ c, exCache = .ok c ∧ getAttestingIndices exExt exSpec exAtt c = .ok [3, 8] ∧
    c.shuffledPosition 8 = some 4 ∧ c.shuffledPosition 4 = none := by
  refine ⟨_, rfl, ?_, ?_, ?_⟩ <;> decide

example : NoUsizeWrap exExt.usizeMod 10 2 exSpec.slotsPerEpoch :=
  ⟨by decide, by decide, by decide, by decide⟩

/-- Mainnet-sized: a million validators fit. -/
example : NoUsizeWrap (2 ^ 32) 1100000 64 32 := ⟨by decide, by decide, by decide, by decide⟩

end Signal
