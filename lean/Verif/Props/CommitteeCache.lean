import Verif.Props.Committee
import Verif.Spec.Machine

/-!
# C83: what a committee cache answers
-/

namespace Signal
open Spec

theorem mapRes_ok_iff {α β ε : Type} {f : α → Res ε β} : ∀ {l : List α} {out : List β},
    mapRes f l = .ok out ↔ out.length = l.length ∧ ∀ i (hi : i < l.length) (ho : i < out.length), f l[i] = .ok out[i] := by
  intro l
  induction l with
  | nil =>
    intro out
    cases out <;> simp [mapRes]
  | cons a l ih =>
    intro out
    simp only [mapRes, Res.bind_eq_ok, Res.pure_eq, Res.ok.injEq]
    constructor
    · rintro ⟨b, hb, bs, hbs, rfl⟩
      obtain ⟨h1, h2⟩ := ih.1 hbs
      refine ⟨by simp [h1], fun i hi ho => ?_⟩
      cases i with
      | zero => exact hb
      | succ i => exact h2 i (by simpa using hi) (by simpa using ho)
    · rintro ⟨h1, h2⟩
      cases out with
      | nil => simp at h1
      | cons b bs =>
        refine ⟨b, h2 0 (by simp) (by simp), bs, ih.2 ⟨by simpa using h1, fun i hi ho => ?_⟩, rfl⟩
        exact h2 (i + 1) (by simpa using hi) (by simpa using ho)

theorem slice_size {n i k : Nat} (hk : 0 < k) : n * (i + 1) / k - n * i / k = n / k ∨ n * (i + 1) / k - n * i / k = n / k + 1 := by
  have e : n * (i + 1) = n * i + n := by ring
  rw [e, Nat.add_div hk]
  generalize n / k = a, n * i / k = b
  split <;> omega

/-- **C83.** On a cache for an epoch, a request for a committee of another epoch and one for a committee that no slot has are refused, each with
its own error. The same goes for a request for all committees of a slot of another epoch. -/
theorem C83_refused (X : Ext) (spec : ChainSpec) (hspec : 0 < spec.slotsPerEpoch) (seed : Bytes) (indices : List Nat) (perSlot epoch : Nat)
    (c : CommitteeCache) (h : CommitteeCache.initialized X spec seed indices perSlot epoch = .ok c) (slot index : Nat) :
    (slot / spec.slotsPerEpoch ≠ epoch →
      c.getBeaconCommittee X spec slot index = .err (.notInitializedAtEpoch (slot / spec.slotsPerEpoch)) ∧
      c.getBeaconCommitteesAtSlot X spec slot = .err (.notInitializedAtEpoch (slot / spec.slotsPerEpoch))) ∧
    (slot / spec.slotsPerEpoch = epoch → perSlot ≤ index →
      c.getBeaconCommittee X spec slot index = .err (.shuffleIndexOutOfBounds index)) := by
  obtain ⟨h1, _, _, h4, h5, _⟩ := initialized_ok h
  have hne : spec.slotsPerEpoch ≠ 0 := by omega
  have other : slot / spec.slotsPerEpoch ≠ epoch → ∀ j,
      c.getBeaconCommittee X spec slot j = .err (.notInitializedAtEpoch (slot / spec.slotsPerEpoch)) := by
    intro hs j
    have hs' : epoch ≠ slot / spec.slotsPerEpoch := fun e => hs e.symm
    simp [CommitteeCache.getBeaconCommittee, slotEpoch, hne, h4, ensure, hs']
  refine ⟨fun hs => ⟨other hs _, ?_⟩, fun hs hi => ?_⟩
  · unfold CommitteeCache.getBeaconCommitteesAtSlot
    rw [h4, h5]
    cases perSlot with
    | zero => omega
    | succ k =>
      rw [List.range_succ_eq_map]
      simp [mapRes, other hs, ensure]
  · have hi' : ¬ index < c.committeesPerSlot := by omega
    simp [CommitteeCache.getBeaconCommittee, slotEpoch, hne, h4, ensure, hs, hi']

/-- **C83.** A request for an existing committee of the epoch is answered, and all committees of the epoch have the same size up to one. -/
theorem C83_answered (X : Ext) (hX : KeepsLength X) (spec : ChainSpec) (seed : Bytes) (indices : List Nat) (perSlot epoch : Nat)
    (c : CommitteeCache) (h : CommitteeCache.initialized X spec seed indices perSlot epoch = .ok c)
    (hw : NoUsizeWrap X.usizeMod indices.length perSlot spec.slotsPerEpoch) (slot index : Nat)
    (hslot : slot / spec.slotsPerEpoch = epoch) (hindex : index < perSlot) :
    ∃ members, c.getBeaconCommittee X spec slot index = .ok members ∧
      (members.length = indices.length / (perSlot * spec.slotsPerEpoch) ∨
        members.length = indices.length / (perSlot * spec.slotsPerEpoch) + 1) := by
  obtain ⟨h1, _, h3, h4, h5, h6, _⟩ := initialized_ok h
  have hl := hX _ _ _ _ h3
  subst h5
  rw [← hl] at hw
  refine ⟨_, getBeaconCommittee_eq (h6 ▸ hw) h6 h4 hslot hindex, ?_⟩
  have hk : 0 < c.committeesPerSlot * spec.slotsPerEpoch := Nat.mul_pos h1 hw.slots_pos
  have hlt := committeeIndex_lt (Nat.mod_lt slot hw.slots_pos) hindex
  have hb := range_bound (n := c.shuffling.length) hlt
  unfold beaconCommittee committee
  simp only [List.length_take, List.length_drop]
  rw [Nat.min_eq_left (by omega), ← hl]
  exact slice_size hk

/-- **C83.** The committees of a slot are the answers to the requests for its first committee, its second, and so on, and there are as many as
the cache has per slot. They are returned if and only if each of these requests is answered. -/
theorem C83_slot (X : Ext) (spec : ChainSpec) (seed : Bytes) (indices : List Nat) (perSlot epoch : Nat)
    (c : CommitteeCache) (h : CommitteeCache.initialized X spec seed indices perSlot epoch = .ok c) (slot : Nat) (committees : List (List Nat)) :
    c.getBeaconCommitteesAtSlot X spec slot = .ok committees ↔
      committees.length = perSlot ∧
        ∀ i members, committees[i]? = some members → c.getBeaconCommittee X spec slot i = .ok members := by
  obtain ⟨h1, _, _, h4, h5, _⟩ := initialized_ok h
  have e : c.getBeaconCommitteesAtSlot X spec slot = mapRes (c.getBeaconCommittee X spec slot) (List.range perSlot) := by
    simp [CommitteeCache.getBeaconCommitteesAtSlot, h4, h5, ensure]
  rw [e, mapRes_ok_iff]
  simp only [List.length_range, List.getElem_range]
  constructor
  · rintro ⟨hl, hf⟩
    refine ⟨hl, fun i m hm => ?_⟩
    obtain ⟨hi, rfl⟩ := List.getElem?_eq_some_iff.1 hm
    exact hf i (by omega) hi
  · rintro ⟨hl, hf⟩
    exact ⟨hl, fun i _ ho => hf i _ (List.getElem?_eq_getElem ho)⟩

/-- **C83.** What a cache says of itself: its epoch, the number of active validators, and the number of committees in the epoch and per slot. -/
theorem C83_counts (X : Ext) (hX : KeepsLength X) (spec : ChainSpec) (seed : Bytes) (indices : List Nat) (perSlot epoch : Nat)
    (c : CommitteeCache) (h : CommitteeCache.initialized X spec seed indices perSlot epoch = .ok c)
    (hw : NoUsizeWrap X.usizeMod indices.length perSlot spec.slotsPerEpoch) :
    (∀ e, c.isInitializedAt e = true ↔ e = epoch) ∧ c.activeValidatorCount = indices.length ∧
    c.committeesPerSlot = perSlot ∧ c.epochCount X = perSlot * spec.slotsPerEpoch ∧
    ∀ e, c.isInitializedAt e = true ↔ ∃ slot index members, slot / spec.slotsPerEpoch = e ∧ c.getBeaconCommittee X spec slot index = .ok members := by
  obtain ⟨h1, _, h3, h4, h5, h6, _⟩ := initialized_ok h
  have hat : ∀ e, c.isInitializedAt e = true ↔ e = epoch := by
    intro e
    unfold CommitteeCache.isInitializedAt
    rw [h4]
    simp
  refine ⟨hat, hX _ _ _ _ h3, h5, ?_, fun e => ?_⟩
  · unfold CommitteeCache.epochCount epochCommitteeCount
    rw [h5, h6]
    exact Nat.mod_eq_of_lt hw.count
  · rw [hat]
    constructor
    · rintro rfl
      have hs : e * spec.slotsPerEpoch / spec.slotsPerEpoch = e := Nat.mul_div_cancel _ hw.slots_pos
      obtain ⟨m, hm, -⟩ := C83_answered X hX spec seed indices perSlot e c h hw (e * spec.slotsPerEpoch) 0 hs h1
      exact ⟨_, 0, m, hs, hm⟩
    · rintro ⟨slot, i, m, rfl, hm⟩
      have := (getBeaconCommittee_ok hm).1
      rw [h4, Option.some.injEq] at this
      exact this.symm

/-- The example's cache: ten validators in eight committees, those of slot 29, and requests for another epoch and a committee too many. -/
example : ∃ c, exCache = .ok c ∧ c.getBeaconCommitteesAtSlot exExt exSpec 29 = .ok [[3], [5, 8]] ∧
    c.getBeaconCommittee exExt exSpec 29 2 = .err (.shuffleIndexOutOfBounds 2) ∧
    c.getBeaconCommitteesAtSlot exExt exSpec 32 = .err (.notInitializedAtEpoch 8) ∧ c.epochCount exExt = 8 ∧ c.activeValidatorCount = 10 := by
  refine ⟨_, rfl, ?_, ?_, ?_, ?_, ?_⟩ <;> decide

/-- Each committee of the example has one or two members. -/
example : ∀ c, exCache = .ok c → ∃ members, c.getBeaconCommittee exExt exSpec 29 1 = .ok members ∧ (members.length = 1 ∨ members.length = 2) :=
  fun c h => C83_answered exExt (fun _ _ _ _ h => by cases h; rfl) exSpec [] _ 2 7 c h ⟨by decide, by decide, by decide, by decide⟩ 29 1 rfl (by decide)

end Signal
