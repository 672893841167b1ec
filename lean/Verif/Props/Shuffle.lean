import Verif.Proofs.Shuffle
import Verif.Props.Committee
import Verif.Props.Accept
import Verif.Props.Machine

/-!
# C74: the shuffle and the committees of the consensus specification

In the other modules the shuffle is a parameter. Here the parameter is the program of `Model/Shuffle.lean`, and the hypotheses about it
become theorems.
-/

namespace Signal
open Spec Shuffle

/-- **C74.** The shuffle succeeds exactly on a non-empty list of at most `2^24` entries and a positive number of rounds. -/
theorem C74_shuffles_iff (hash : Bytes → Bytes) (cast : Nat) (l : List Nat) (roundCount : Nat) (seed : Bytes) :
    (∃ sh, shuffleList hash cast l roundCount seed = some sh) ↔ l ≠ [] ∧ l.length ≤ 2 ^ 24 ∧ 0 < roundCount := by
  unfold shuffleList
  constructor
  · rintro ⟨sh, h⟩
    split at h
    · cases h
    · rename_i hn
      push Not at hn
      exact ⟨hn.1, hn.2.1, Nat.pos_of_ne_zero hn.2.2⟩
  · rintro ⟨h1, h2, h3⟩
    rw [if_neg (by rintro (h | h | h) <;> first | exact h1 h | omega)]
    exact ⟨_, rfl⟩

/-- **C74.** The shuffle returns a permutation of its input, whatever the hash function, the seed and the width in which the pivot is
reduced. -/
theorem C74_permutes (hash : Bytes → Bytes) (cast : Nat) (l sh : List Nat) (roundCount : Nat) (seed : Bytes)
    (h : shuffleList hash cast l roundCount seed = some sh) : sh.Perm l := by
  unfold shuffleList at h
  split at h
  · cases h
  · cases h; exact rounds_perm _ _ _ _ _

/-- **C74.** With the pivot reduced in 64 bits, position `i` of the shuffled list holds the entry at `compute_shuffled_index(i)`. -/
theorem C74_shuffled_index (hash : Bytes → Bytes) (cast : Nat) (hcast : 2 ^ 64 ≤ cast) (l sh : List Nat) (roundCount : Nat)
    (seed : Bytes) (h : shuffleList hash cast l roundCount seed = some sh) (i : Nat) (hi : i < l.length) :
    shuffledIndex hash roundCount seed l.length i < l.length ∧
      sh[i]? = l[shuffledIndex hash roundCount seed l.length i]? := by
  unfold shuffleList at h
  split at h
  · cases h
  · cases h
    exact ⟨shuffledIndex_lt _ _ _ _ _ hi, rounds_getElem? hash cast hcast seed _ _ _ hi⟩

/-- **C74.** Hence the pieces of the shuffled list are the committees of `compute_committee`. -/
theorem C74_committee (hash : Bytes → Bytes) (cast : Nat) (hcast : 2 ^ 64 ≤ cast) (l sh : List Nat) (roundCount : Nat)
    (seed : Bytes) (h : shuffleList hash cast l roundCount seed = some sh) (index count : Nat) (hi : index < count) :
    committee sh count index = computeCommittee hash roundCount l seed index count := by
  have hlen : sh.length = l.length := (C74_permutes _ _ _ _ _ _ h).length_eq
  have hlast : l.length * (index + 1) / count ≤ l.length :=
    Nat.div_le_of_le_mul (by rw [Nat.mul_comm]; exact Nat.mul_le_mul_right _ hi)
  unfold committee computeCommittee
  dsimp only
  rw [hlen]
  apply List.ext_getElem?
  intro k
  rw [List.getElem?_take, List.getElem?_drop, List.getElem?_map]
  by_cases hk : k < l.length * (index + 1) / count - l.length * index / count
  · have hx : l.length * index / count + k < l.length := by omega
    obtain ⟨h1, h2⟩ := C74_shuffled_index hash cast hcast l sh roundCount seed h _ hx
    rw [if_pos hk, h2, List.getElem?_range' hk]
    simp [List.getD_eq_getElem?_getD, List.getElem?_eq_getElem h1]
  · rw [if_neg hk, List.getElem?_eq_none (by simpa using hk)]
    rfl

/-- The shuffle of the code is the program, with the pivot reduced in 64 bits. -/
def RealShuffle (X : Ext) : Prop :=
  ∀ l roundCount seed, X.shuffleList l roundCount seed = shuffleList X.sha256 (2 ^ 64) l roundCount seed

/-- **C74.** `get_beacon_committee` returns the committee of the consensus specification for every slot of the epoch of the cache and
every committee index. Missing: active sets whose committee positions do not fit in `usize` (`hw`). -/
theorem C74_beacon_committee_partial (X : Ext) (hX : RealShuffle X) (spec : ChainSpec) (seed : Bytes) (indices : List Nat)
    (perSlot epoch : Nat) (c : CommitteeCache)
    (h : CommitteeCache.initialized X spec seed indices perSlot epoch = .ok c)
    (hw : NoUsizeWrap X.usizeMod indices.length perSlot spec.slotsPerEpoch)
    (slot index : Nat) (hslot : slot / spec.slotsPerEpoch = epoch) (hindex : index < perSlot) :
    c.getBeaconCommittee X spec slot index = .ok (computeCommittee X.sha256 spec.shuffleRoundCount indices seed
      (slot % spec.slotsPerEpoch * perSlot + index) (perSlot * spec.slotsPerEpoch)) := by
  obtain ⟨h1, _, h3, h4, h5, h6, _⟩ := initialized_ok h
  rw [hX] at h3
  have hlen := (C74_permutes _ _ _ _ _ _ h3).length_eq
  subst h5
  rw [getBeaconCommittee_eq (c := c) (by rw [h6, hlen]; exact hw) h6 h4 hslot hindex]
  congr 1
  unfold beaconCommittee
  apply C74_committee _ _ (le_refl _) _ _ _ _ h3
  have := Nat.mod_lt slot hw.slots_pos
  calc slot % spec.slotsPerEpoch * c.committeesPerSlot + index
      < slot % spec.slotsPerEpoch * c.committeesPerSlot + c.committeesPerSlot := by omega
    _ = (slot % spec.slotsPerEpoch + 1) * c.committeesPerSlot := by rw [Nat.add_mul, Nat.one_mul]
    _ ≤ spec.slotsPerEpoch * c.committeesPerSlot := Nat.mul_le_mul_right _ this
    _ = _ := Nat.mul_comm _ _

/-- The committees of a slot by the consensus specification: `compute_committee` over the active indices, with the seed of the epoch. -/
def Spec.committeesOf (X : Ext) (spec : ChainSpec) (indices : List Nat) (seed : Bytes) (slot index : Nat) : List Nat :=
  let perSlot := committeesPerSlot spec indices.length
  computeCommittee X.sha256 spec.shuffleRoundCount indices seed
    (slot % spec.slotsPerEpoch * perSlot + index) (perSlot * spec.slotsPerEpoch)

theorem goodBits_congr {f g : Nat → List Nat} {perSlot : Nat} {cb ab : List Bool} (hfg : ∀ i < perSlot, f i = g i)
    (h : GoodBits f perSlot cb ab) : GoodBits g perSlot cb ab ∧ attesters f cb ab = attesters g cb ab := by
  have hm : ∀ l : List Nat, (∀ c ∈ l, c ∈ setBits cb) → l.flatMap f = l.flatMap g := by
    intro l hl
    induction l with
    | nil => rfl
    | cons c l ih =>
      rw [List.flatMap_cons, List.flatMap_cons, hfg c (h.exist c (hl c (by simp))), ih (fun c hc => hl c (by simp [hc]))]
  refine ⟨⟨h.exist, by rw [← hm _ (fun c hc => hc)]; exact h.length, ?_⟩, by unfold attesters; rw [hm _ (fun c hc => hc)]⟩
  intro pre c post hs
  obtain ⟨j, hj, hb⟩ := h.attended pre c post hs
  have hc : c ∈ setBits cb := by rw [hs]; simp
  exact ⟨j, by rw [← hfg c (h.exist c hc)]; exact hj, by
    rw [← hm pre (fun c' hc' => by rw [hs]; exact List.mem_append_left _ hc')]; exact hb⟩

/-- **C74.** In an accepted input the signers of every attestation are those its bits select in the committees that the consensus
specification computes from the active set and the seed of its target epoch. Missing: active sets whose committee positions do not fit
in `usize` (`hw`). -/
theorem C74_accepted_votes_partial (X : Ext) (hX : RealShuffle X) (cfg : Config) (R : Reader) (r : ConsensusState × Nat)
    (h : verify X cfg R = .ok r) (atts : List Attestation) (hatts : R.attestations = .ok atts)
    (e : AttestationElectra) (he : .electra e ∈ atts)
    (hw : ∀ l, R.activeValidators e.data.target.epoch = .ok l → NoUsizeWrap X.usizeMod (OMap.ofList l).length
      (committeesPerSlot R.spec (OMap.ofList l).length) R.spec.slotsPerEpoch) :
    ∃ l seed signers, R.activeValidators e.data.target.epoch = .ok l ∧
      R.getSeed X e.data.target.epoch R.spec.domainBeaconAttester = .ok seed ∧
      Vote X R (OMap.ofList l) (.electra e) signers ∧
      GoodBits (committeesOf X R.spec (OMap.ofList l).keys seed e.data.slot) (committeesPerSlot R.spec (OMap.ofList l).length)
        e.committeeBits e.aggregationBits ∧
      ∀ i, i ∈ signers ↔ i ∈ attesters (committeesOf X R.spec (OMap.ofList l).keys seed e.data.slot)
        e.committeeBits e.aggregationBits := by
  obtain ⟨post, slot⟩ := r
  obtain ⟨pre, atts', hpre, hatts', _⟩ := verify_ok h
  rw [hatts] at hatts'; cases hatts'
  obtain ⟨l, signers, seed, sh, h1, h2, h3, h4, h5⟩ :=
    C14_counted_votes_are_real_partial X cfg R post slot h pre hpre atts hatts _ he
  have hw' := hw l h1
  rw [hX] at h4
  have hlen : sh.length = (OMap.ofList l).length := by
    rw [(C74_permutes _ _ _ _ _ _ h4).length_eq]; simp [OMap.keys]
  obtain ⟨g1, g2⟩ := h5 (by rw [hlen]; exact hw') e rfl
  have hfg : ∀ i < committeesPerSlot R.spec (OMap.ofList l).length,
      beaconCommittee sh (committeesPerSlot R.spec (OMap.ofList l).length) R.spec.slotsPerEpoch e.data.slot i =
        committeesOf X R.spec (OMap.ofList l).keys seed e.data.slot i := by
    intro i hi
    have hk : (OMap.ofList l).keys.length = (OMap.ofList l).length := by simp [OMap.keys]
    unfold beaconCommittee committeesOf
    dsimp only
    rw [hk]
    apply C74_committee _ _ (le_refl _) _ _ _ _ h4
    have := Nat.mod_lt e.data.slot hw'.slots_pos
    generalize committeesPerSlot R.spec (OMap.ofList l).length = p at hi
    calc e.data.slot % R.spec.slotsPerEpoch * p + i
        < e.data.slot % R.spec.slotsPerEpoch * p + p := by omega
      _ = (e.data.slot % R.spec.slotsPerEpoch + 1) * p := by rw [Nat.add_mul, Nat.one_mul]
      _ ≤ R.spec.slotsPerEpoch * p := Nat.mul_le_mul_right _ this
      _ = _ := Nat.mul_comm _ _
  obtain ⟨q1, q2⟩ := goodBits_congr hfg g1
  exact ⟨l, seed, signers, h1, h3, h2, q1, fun i => by rw [← q2]; exact g2 i⟩

/-! ## What the other modules assume of the shuffle -/

/-- **C74.** The shuffle keeps the length, as the theorems about the two machines assume. -/
theorem C74_keeps_length (X : Ext) (hX : RealShuffle X) : KeepsLength X := by
  intro l rounds seed out h
  rw [hX] at h
  exact (C74_permutes _ _ _ _ _ _ h).length_eq

/-- **C74.** The shuffle permutes: with it, the guest's setting of C68 and C69 needs nothing but the constants of the chain and fewer than
`2^21` active validators. -/
theorem C74_guest_setting (X : Ext) (hX : RealShuffle X) (R : Reader) (hu : X.usizeMod = 2 ^ 32) (h1 : R.spec.slotsPerEpoch = 32)
    (h2 : R.spec.targetCommitteeSize = 128) (h3 : R.spec.maxCommitteesPerSlot = 64)
    (h4 : R.spec.epochsPerHistoricalVector = 65536) (h5 : R.spec.minSeedLookahead = 1)
    (hn : ∀ e l, R.activeValidators e = .ok l → (OMap.ofList l).length < 2 ^ 21) : Setting X R :=
  C68_guest_setting X R hu h1 h2 h3 h4 h5 (fun l seed sh h => C74_permutes _ _ _ _ _ _ (by rw [← hX]; exact h)) hn

/-- **C74.** Every active validator sits in exactly one committee of the epoch, and nobody else does. Missing: as above (`hw`). -/
theorem C74_one_committee_partial (X : Ext) (hX : RealShuffle X) (spec : ChainSpec) (seed : Bytes) (indices : List Nat)
    (perSlot epoch : Nat) (c : CommitteeCache)
    (h : CommitteeCache.initialized X spec seed indices perSlot epoch = .ok c) (hnd : indices.Nodup)
    (hw : NoUsizeWrap X.usizeMod indices.length perSlot spec.slotsPerEpoch) :
    (∀ v ∈ indices, ∃! si : Nat × Nat, si.1 < spec.slotsPerEpoch ∧ si.2 < perSlot ∧
      ∃ l, c.getBeaconCommittee X spec (epoch * spec.slotsPerEpoch + si.1) si.2 = .ok l ∧ v ∈ l) ∧
    (∀ slot i l, c.getBeaconCommittee X spec slot i = .ok l → ∀ v ∈ l, v ∈ indices) := by
  obtain ⟨_, _, h3, _⟩ := initialized_ok h
  have hp := h3
  rw [hX] at hp
  have hp := C74_permutes _ _ _ _ _ _ hp
  exact C23_one_committee_partial X spec seed indices c.shuffling perSlot epoch c h h3 hp hnd (by rw [hp.length_eq]; exact hw)

/-! ## Examples -/

/-- A hash function that is not constant. -/
def shHash (b : Bytes) : Bytes := (List.range 32).map (fun i => UInt8.ofNat (b.foldl (fun a x => a * 31 + x.toNat) (i * i + 7)))

example : shuffleList shHash (2 ^ 64) [10, 11, 12, 13, 14, 15, 16] 3 [1, 2] ≠ some [10, 11, 12, 13, 14, 15, 16] := by decide +kernel

/-- The committees of the example: two of them, of three and four validators. -/
example : ∃ sh, shuffleList shHash (2 ^ 64) [10, 11, 12, 13, 14, 15, 16] 3 [1, 2] = some sh ∧
    committee sh 2 0 = computeCommittee shHash 3 [10, 11, 12, 13, 14, 15, 16] [1, 2] 0 2 ∧ (committee sh 2 0).length = 3 ∧
    (committee sh 2 1).length = 4 := by
  obtain ⟨sh, h⟩ := (C74_shuffles_iff shHash (2 ^ 64) [10, 11, 12, 13, 14, 15, 16] 3 [1, 2]).2 (by decide)
  have hl := (C74_permutes _ _ _ _ _ _ h).length_eq
  refine ⟨sh, h, C74_committee _ _ (le_refl _) _ _ _ _ h 0 2 (by decide), ?_, ?_⟩ <;> simp [committee, hl]

/-- The example's external functions with the shuffle as a program. -/
def shExt : Ext := { exExt with shuffleList := shuffleList toyHash (2 ^ 64) }

theorem shExt_real : RealShuffle shExt := fun _ _ _ => rfl

/-- The example's input, the committees being those of the real shuffle. -/
def shVotes : List Attestation :=
  [exVote 24 exC4 exC6 [0, 6], exVote 25 exC4 exC6 [1, 8, 9], exVote 26 exC4 exC6 [5, 7], exVote 27 exC4 exC6 [2, 3, 4],
   exVote 28 exC6 exC7 [0, 3], exVote 29 exC6 exC7 [2, 6, 8], exVote 30 exC6 exC7 [1, 5], exVote 31 exC6 exC7 [4, 7, 9]]

def shReader : Reader := { exReader with attestations := .ok shVotes }

set_option maxRecDepth 100000 in
theorem shReader_verifies : verify shExt Config.default shReader = .ok (⟨exC7, exC6⟩, 24) := by decide +kernel

/-- The hypotheses of `C74_accepted_votes_partial` hold for the example, with ninety rounds. -/
example : shReader.spec.shuffleRoundCount = 90 ∧
    ∀ e, .electra e ∈ shVotes → ∃ l seed, ∃ signers : List Nat, shReader.activeValidators e.data.target.epoch = .ok l ∧
      shReader.getSeed shExt e.data.target.epoch shReader.spec.domainBeaconAttester = .ok seed ∧
      ∀ i, i ∈ signers ↔ i ∈ attesters (committeesOf shExt shReader.spec (OMap.ofList l).keys seed e.data.slot)
        e.committeeBits e.aggregationBits := by
  refine ⟨rfl, fun e he => ?_⟩
  obtain ⟨l, seed, signers, h1, h2, _, _, h5⟩ := C74_accepted_votes_partial shExt shExt_real Config.default shReader _ shReader_verifies
    shVotes rfl e he (by intro l hl; cases hl; rw [show (OMap.ofList exActive).length = 10 by decide]
                         exact ⟨by decide, by decide, by decide, by decide⟩)
  exact ⟨l, seed, signers, h1, h2, h5⟩

/-- A cache for ten validators, and a committee of it. -/
example : ∃ c, CommitteeCache.initialized shExt exSpec (exRoot32 3) (List.range 10) 2 6 = .ok c ∧
    c.getBeaconCommittee shExt exSpec 25 1 =
      .ok (computeCommittee toyHash 90 (List.range 10) (exRoot32 3) 3 8) := by
  have h : ∃ c, CommitteeCache.initialized shExt exSpec (exRoot32 3) (List.range 10) 2 6 = .ok c := by
    have hb : (match CommitteeCache.initialized shExt exSpec (exRoot32 3) (List.range 10) 2 6 with
      | .ok _ => true | _ => false) = true := by decide +kernel
    split at hb
    · rename_i c hc; exact ⟨c, hc⟩
    · cases hb
  obtain ⟨c, hc⟩ := h
  exact ⟨c, hc, C74_beacon_committee_partial shExt shExt_real exSpec (exRoot32 3) (List.range 10) 2 6 c hc
    ⟨by decide, by decide, by decide, by decide⟩ 25 1 (by decide) (by decide)⟩

/-- **C74.** The width in which the pivot is reduced matters: in 32 bits, the word of the guest, the result can be another one than that
of the consensus specification. -/
theorem C74_narrow_pivot : ∃ (hash : Bytes → Bytes) (l : List Nat) (seed : Bytes) (i : Nat), i < l.length ∧
    ∃ sh, shuffleList hash (2 ^ 32) l 90 seed = some sh ∧ sh[i]? ≠ l[shuffledIndex hash 90 seed l.length i]? := by
  refine ⟨shHash, [10, 11, 12, 13, 14, 15, 16], [1, 2], 1, by decide, _, rfl, ?_⟩
  decide +kernel

end Signal
