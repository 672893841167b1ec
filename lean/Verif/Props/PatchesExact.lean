import Verif.Proofs.PatchesExact
import Verif.Props.Patches

/-!
# Which state patches are accepted (C59)
-/

namespace Signal
open Spec

/-- **C59**: the check of the state patches succeeds exactly if the sums it computes fit into 64 bits and the patches are
lawful for the earliest new exit and the doubled churn limit of the registry. -/
theorem C59_accepted_iff (X : Ext) (spec : ChainSpec) (patches : OMap StatePatch) (trusted : Checkpoint)
    (state : StateInfo) (validators : OMap ValidatorInfo) (hs : patches.Sorted)
    (hq : spec.churnLimitQuotient ≠ 0) (hi : spec.effectiveBalanceIncrement ≠ 0)
    (hsmall : SmallExits (doubleChurn spec (floored spec
      (totalWeight (validators.filter (fun x => x.2.isActiveAt trusted.epoch))))) patches validators) :
    validateStatePatches X spec patches trusted state validators = .ok () ↔
      totalWeight (validators.filter (fun x => x.2.isActiveAt trusted.epoch)) < 2 ^ 64 ∧
      doubleChurn spec (floored spec
        (totalWeight (validators.filter (fun x => x.2.isActiveAt trusted.epoch)))) < 2 ^ 64 ∧
      trusted.epoch + 1 + spec.maxSeedLookahead < 2 ^ 64 ∧
      LawfulPatches spec.farFutureEpoch trusted.epoch
        (earliestNewExit spec trusted.epoch state.earliestExitEpoch state.earliestConsolidationEpoch)
        (doubleChurn spec (floored spec
          (totalWeight (validators.filter (fun x => x.2.isActiveAt trusted.epoch))))) patches validators := by
  have h64 : (2 : Nat) ^ 64 = U64 := by norm_num
  rw [h64, ← validatePatchLoop_lawful (ε := GuestReaderError) X hs hsmall]
  have hw : totalWeight (validators.filter (fun x => x.2.isActiveAt trusted.epoch)) =
      (((validators.filter (fun e => e.2.isActiveAt trusted.epoch)).map (·.2)).map (·.effectiveBalance)).sum := by
    unfold totalWeight
    rw [List.map_map]; rfl
  unfold validateStatePatches
  simp only [Res.bind_eq_ok, Res.mapErr_eq_ok, computeActivationExitEpoch_eq_ok, safeMul_eq_ok,
    getTotalBalance_ok_iff, ← hw]
  constructor
  · rintro ⟨total, ⟨h1, rfl⟩, limit, h2, churn, ⟨h3, rfl⟩, act, ⟨h4, rfl⟩, h5⟩
    rw [← getBalanceChurnLimit_eq_ok h2, Nat.mul_comm 2]
    exact ⟨h1, h3, h4, h5⟩
  · rintro ⟨h1, h2, h3, h4⟩
    have hc : getBalanceChurnLimit spec (floored spec
        (totalWeight (validators.filter (fun x => x.2.isActiveAt trusted.epoch)))) =
        .ok (max spec.minPerEpochChurnLimitElectra (floored spec
        (totalWeight (validators.filter (fun x => x.2.isActiveAt trusted.epoch))) / spec.churnLimitQuotient) -
          max spec.minPerEpochChurnLimitElectra (floored spec
        (totalWeight (validators.filter (fun x => x.2.isActiveAt trusted.epoch))) / spec.churnLimitQuotient) %
          spec.effectiveBalanceIncrement) := by
      unfold getBalanceChurnLimit
      simp only [Res.bind_eq_ok, safeDiv_eq_ok, safeRem_eq_ok, safeSub_eq_ok]
      exact ⟨_, ⟨hq, rfl⟩, _, ⟨hi, rfl⟩, Nat.mod_le _ _, rfl⟩
    have hd := getBalanceChurnLimit_eq_ok hc
    refine ⟨_, ⟨h1, rfl⟩, _, hc, _, ⟨?_, rfl⟩, _, ⟨h3, rfl⟩, ?_⟩
    · omega
    · rw [Nat.mul_comm, hd]
      exact h4

/-- Inserting a maximum is monotone. -/
theorem mem_le_lastExit {l : List (Nat × Nat)} : ∀ {e : Nat} {y : Nat × Nat}, y ∈ l → y.1 ≤ lastExit e l := by
  induction l with
  | nil => intro e y h; simp at h
  | cons a l ih =>
    intro e y h
    rcases List.mem_cons.1 h with rfl | h
    · exact Nat.le_trans (Nat.le_max_right _ _) (le_lastExit l _)
    · exact ih h

theorem Spec.LawfulPatches.after_earlier {far trustedEpoch earliest churn : Nat} {patches : OMap StatePatch}
    {validators : OMap ValidatorInfo} (h : LawfulPatches far trustedEpoch earliest churn patches validators)
    {e₁ e₂ : Nat} {p₁ p₂ : StatePatch} (h₁ : (e₁, p₁) ∈ patches) (h₂ : (e₂, p₂) ∈ patches) (he : e₁ < e₂)
    {y : Nat × Nat} (hy : y ∈ newExits patches validators e₁ p₁) {idx x : Nat} (hx : (idx, x) ∈ p₂.validatorExits)
    {v : ValidatorInfo} (hv : validators.get? idx = some v) (hne : exitIn patches (e₂ - 1) idx v ≠ x) : y.1 ≤ x := by
  obtain ⟨w, hw, hc⟩ := h.exits e₂ p₂ h₂ idx x hx
  rw [hv] at hw
  cases hw
  rcases hc with hc | ⟨-, hc⟩
  · exact absurd hc hne
  · refine Nat.le_trans ?_ hc
    unfold exitFloor
    apply mem_le_lastExit
    rw [List.mem_flatMap]
    exact ⟨(e₁, p₁), List.mem_filter.2 ⟨h₁, by simpa using he⟩, hy⟩

/-- **C59**, consequence: an exit that a patch changes relative to the patch of the preceding epoch lies not before any
exit that an earlier patch has changed; otherwise the input is rejected – also if the exit is the true one. -/
theorem C59_new_exits_in_order (X : Ext) (spec : ChainSpec) (patches : OMap StatePatch) (trusted : Checkpoint)
    (state : StateInfo) (validators : OMap ValidatorInfo) (hs : patches.Sorted)
    (hq : spec.churnLimitQuotient ≠ 0) (hi : spec.effectiveBalanceIncrement ≠ 0)
    (hsmall : SmallExits (doubleChurn spec (floored spec
      (totalWeight (validators.filter (fun x => x.2.isActiveAt trusted.epoch))))) patches validators)
    (h : validateStatePatches X spec patches trusted state validators = .ok ())
    (e₁ e₂ : Nat) (p₁ p₂ : StatePatch) (h₁ : (e₁, p₁) ∈ patches) (h₂ : (e₂, p₂) ∈ patches) (he : e₁ < e₂)
    (y : Nat × Nat) (hy : y ∈ newExits patches validators e₁ p₁) (idx x : Nat) (hx : (idx, x) ∈ p₂.validatorExits)
    (v : ValidatorInfo) (hv : validators.get? idx = some v) (hne : exitIn patches (e₂ - 1) idx v ≠ x) :
    y.1 ≤ x :=
  ((C59_accepted_iff X spec patches trusted state validators hs hq hi hsmall).1 h).2.2.2.after_earlier
    h₁ h₂ he hy hx hv hne

/-- **C59**, a gap: two patches whose epochs are not adjacent and that repeat the same two different new exits are
rejected. The second patch is compared with the trusted registry, where both exits are still new, but the first
patch has already moved the earliest exit to the later of the two. -/
theorem C59_gap_rejected (X : Ext) (spec : ChainSpec) (trusted : Checkpoint) (state : StateInfo)
    (validators : OMap ValidatorInfo) (e₁ e₂ a b x y : Nat) (p₁ p₂ : StatePatch) (h0 : e₁ ≠ 0) (hgap : e₁ + 1 < e₂) (hxy : x < y)
    (hq : spec.churnLimitQuotient ≠ 0) (hi : spec.effectiveBalanceIncrement ≠ 0)
    (hsmall : SmallExits (doubleChurn spec (floored spec
      (totalWeight (validators.filter (fun x => x.2.isActiveAt trusted.epoch))))) [(e₁, p₁), (e₂, p₂)] validators)
    (v w : ValidatorInfo) (hv : validators.get? a = some v) (hw : validators.get? b = some w)
    (hvx : v.exitEpoch ≠ x) (hwy : w.exitEpoch ≠ y)
    (hb : (b, y) ∈ p₁.validatorExits) (ha : (a, x) ∈ p₂.validatorExits) :
    validateStatePatches X spec [(e₁, p₁), (e₂, p₂)] trusted state validators ≠ .ok () := by
  intro h
  have hs : OMap.Sorted [(e₁, p₁), (e₂, p₂)] := by
    unfold OMap.Sorted
    simp; omega
  have hg : ∀ k, k ≠ e₁ → k ≠ e₂ → OMap.get? [(e₁, p₁), (e₂, p₂)] k = none := by
    intro k h1 h2
    rw [OMap.get?_eq_none_iff]
    simp [OMap.keys]; omega
  have hno : OMap.get? [(e₁, p₁), (e₂, p₂)] (e₂ - 1) = none := hg _ (by omega) (by omega)
  have hx2 : exitIn [(e₁, p₁), (e₂, p₂)] (e₂ - 1) a v ≠ x := by unfold exitIn; rw [hno]; exact hvx
  · have hno1 : OMap.get? [(e₁, p₁), (e₂, p₂)] (e₁ - 1) = none := hg _ (by omega) (by omega)
    have hy : (y, w.effectiveBalance) ∈ newExits [(e₁, p₁), (e₂, p₂)] validators e₁ p₁ := by
      unfold newExits
      rw [List.mem_filterMap]
      refine ⟨(b, y), hb, ?_⟩
      simp only [hw]
      rw [if_neg]
      unfold exitIn; rw [hno1]; exact hwy
    have := C59_new_exits_in_order X spec _ trusted state validators hs hq hi hsmall h e₁ e₂ p₁ p₂ (by simp) (by simp)
      (by omega) _ hy a x ha v hv hx2
    simp only at this
    omega

/-! ## Examples -/

/-- Validators 0 and 1 leave at epochs 15 and 16. The patches for the epochs 11 and 12 are lawful, those for 11 and 13,
with the same true exits, are not; the reader rejects them. -/
example : validateStatePatches exExt exSpec [(11, ⟨[], [(0, 15), (1, 16)]⟩), (12, ⟨[], [(0, 15), (1, 16)]⟩)]
      ⟨10, exRoot32 10⟩ exStateInfo exRegistry = .ok () ∧
    validateStatePatches exExt exSpec [(11, ⟨[], [(0, 15), (1, 16)]⟩), (13, ⟨[], [(0, 15), (1, 16)]⟩)]
      ⟨10, exRoot32 10⟩ exStateInfo exRegistry = .panic := by
  decide +kernel

/-- The example patches meet the conditions of `C59_accepted_iff`. -/
theorem exPatches_small : exPatches.Sorted ∧ exSpec.churnLimitQuotient ≠ 0 ∧ exSpec.effectiveBalanceIncrement ≠ 0 ∧
    SmallExits (doubleChurn exSpec (floored exSpec
      (totalWeight (exRegistry.filter (fun x => x.2.isActiveAt 10))))) exPatches exRegistry := by
  refine ⟨by unfold OMap.Sorted; decide, by decide, by decide, ?_⟩
  have h : ∀ z ∈ exPatches, ∀ x ∈ newExits exPatches exRegistry z.1 z.2,
      doubleChurn exSpec (floored exSpec
        (totalWeight (exRegistry.filter (fun x => x.2.isActiveAt 10)))) * (x.1 + 1) < 2 ^ 64 := by
    decide +kernel
  intro e p hm x hx
  exact h (e, p) hm x hx

example : LawfulPatches u64Max 10 15 (doubleChurn exSpec (floored exSpec
    (totalWeight (exRegistry.filter (fun x => x.2.isActiveAt 10))))) exPatches exRegistry := by
  obtain ⟨h1, h2, h3, h4⟩ := exPatches_small
  have := ((C59_accepted_iff exExt exSpec exPatches ⟨10, exRoot32 10⟩ exStateInfo exRegistry h1 h2 h3 h4).1
    exPatches_valid).2.2.2
  have he : earliestNewExit exSpec 10 exStateInfo.earliestExitEpoch exStateInfo.earliestConsolidationEpoch = 15 := by
    decide +kernel
  rw [← he]
  exact this

end Signal
