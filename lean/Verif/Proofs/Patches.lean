import Verif.Spec.Patches
import Verif.Model.GuestReader
import Verif.Proofs.OMap
import Verif.Proofs.Verify
import Verif.Proofs.Guest
import Mathlib.Tactic.Ring

/-! Helper lemmas on registry updates and state patches. -/

namespace Signal
open Spec

theorem computeActivationExitEpoch_eq_ok {spec : ChainSpec} {e a : Nat} :
    spec.computeActivationExitEpoch e = .ok a ↔
      e + 1 + spec.maxSeedLookahead < U64 ∧ a = e + 1 + spec.maxSeedLookahead := by
  unfold ChainSpec.computeActivationExitEpoch
  simp only [Res.bind_eq_ok, safeAdd_eq_ok]
  constructor
  · rintro ⟨b, ⟨h1, rfl⟩, h2, rfl⟩; exact ⟨h2, rfl⟩
  · rintro ⟨h, rfl⟩; exact ⟨e + 1, ⟨by omega, rfl⟩, h, rfl⟩

theorem Spec.OnlyScheduled.refl (spec : ChainSpec) (e : Nat) (v : ValidatorInfo) :
    OnlyScheduled spec e v v := ⟨rfl, rfl, rfl, rfl, Or.inl rfl, Or.inl rfl⟩

theorem Spec.OnlyScheduled.trans {spec : ChainSpec} {e e' : Nat} (he : e ≤ e') {u v w : ValidatorInfo}
    (h : OnlyScheduled spec e u v) (h' : OnlyScheduled spec e' v w) : OnlyScheduled spec e u w := by
  refine ⟨h'.pubkey.trans h.pubkey, h'.effectiveBalance.trans h.effectiveBalance,
    h'.slashed.trans h.slashed, h'.exitEpoch.trans h.exitEpoch, ?_, ?_⟩
  · rcases h'.activation with a | ⟨a, b⟩
    · rw [a]; exact h.activation
    · rcases h.activation with c | ⟨c, d⟩
      · exact Or.inr ⟨c ▸ a, by omega⟩
      · exact Or.inr ⟨c, by omega⟩
  · rcases h'.eligibility with a | ⟨a, b⟩
    · rw [a]; exact h.eligibility
    · rcases h.eligibility with c | ⟨c, d⟩
      · exact Or.inr ⟨c ▸ a, by omega⟩
      · exact Or.inr ⟨c, by omega⟩

theorem updateValidator_only (spec : ChainSpec) (fin e : Nat) (v : ValidatorInfo) :
    OnlyScheduled spec e v (updateValidator spec fin e (e + 1 + spec.maxSeedLookahead) v) := by
  unfold updateValidator ValidatorInfo.isEligibleForActivationQueue ValidatorInfo.isEligibleForActivation
  simp only [Bool.and_eq_true, decide_eq_true_eq]
  by_cases h1 : v.activationEligibilityEpoch = spec.farFutureEpoch ∧
      spec.minActivationBalance ≤ v.effectiveBalance
  · rw [if_pos h1]
    have hs : e < satAdd e 1 ∨ satAdd e 1 = u64Max := by unfold satAdd; omega
    split
    · rename_i h2
      exact ⟨rfl, rfl, rfl, rfl, Or.inr ⟨h2.2, Nat.le_refl _⟩, Or.inr ⟨h1.1, hs⟩⟩
    · exact ⟨rfl, rfl, rfl, rfl, Or.inl rfl, Or.inr ⟨h1.1, hs⟩⟩
  · rw [if_neg h1]
    split
    · rename_i h2
      exact ⟨rfl, rfl, rfl, rfl, Or.inr ⟨h2.2, Nat.le_refl _⟩, Or.inl rfl⟩
    · exact Spec.OnlyScheduled.refl _ _ _

theorem processRegistryUpdates_eq_ok {ε : Type} {spec : ChainSpec} {m m' : OMap ValidatorInfo}
    {fin e : Nat} (h : (processRegistryUpdates spec m fin e : Res ε _) = .ok m') :
    e + 1 + spec.maxSeedLookahead < U64 ∧
    m' = m.map (fun x => (x.1, updateValidator spec fin e (e + 1 + spec.maxSeedLookahead) x.2)) := by
  unfold processRegistryUpdates at h
  simp only [Res.bind_eq_ok, Res.unwrap_eq_ok, computeActivationExitEpoch_eq_ok, Res.pure_eq,
    Res.ok.injEq] at h
  obtain ⟨a, ⟨h1, rfl⟩, rfl⟩ := h
  exact ⟨h1, rfl⟩

theorem registryLoop_only {ε : Type} {spec : ChainSpec} {sf tr ju : Nat} (n : Nat) :
    ∀ (e : Nat) (m m' : OMap ValidatorInfo),
    (registryLoop spec sf tr ju n e m : Res ε _) = .ok m' →
    ∃ f : Nat → ValidatorInfo → ValidatorInfo, m' = m.map (fun x => (x.1, f x.1 x.2)) ∧
      ∀ i v, OnlyScheduled spec e v (f i v) := by
  induction n with
  | zero =>
    intro e m m' h
    simp only [registryLoop, Res.ok.injEq] at h
    subst h
    exact ⟨fun _ v => v, by simp, fun _ v => Spec.OnlyScheduled.refl _ _ _⟩
  | succ n ih =>
    intro e m m' h
    simp only [registryLoop, Res.bind_eq_ok] at h
    obtain ⟨m1, h1, h2⟩ := h
    obtain ⟨-, rfl⟩ := processRegistryUpdates_eq_ok h1
    obtain ⟨f, rfl, hf⟩ := ih _ _ _ h2
    refine ⟨fun i v => f i (updateValidator spec (if e < ju then sf else tr) e (e + 1 + spec.maxSeedLookahead) v), ?_, ?_⟩
    · rw [List.map_map]; rfl
    · intro i v
      exact (updateValidator_only spec _ e v).trans (Nat.le_succ e) (hf i _)

/-! ## Patches -/

theorem prevExitEpoch_eq (patches : OMap StatePatch) (e idx : Nat) (v : ValidatorInfo) :
    prevExitEpoch patches e idx v = exitIn patches (e - 1) idx v := by
  unfold prevExitEpoch exitIn satSub
  cases OMap.get? patches (e - 1) <;> simp

/-- Each checked exit is unchanged or newly set, and `earliest` does not decrease. -/
theorem validateExits_ok {ε : Type} {spec : ChainSpec} {patches : OMap StatePatch}
    {validators : OMap ValidatorInfo} {pe churn : Nat} (l : List (Nat × Nat)) :
    ∀ (earliest toConsume out : Nat),
    (validateExits spec patches validators pe churn l earliest toConsume : Res ε Nat) = .ok out →
    earliest ≤ out ∧ ∀ idx x, (idx, x) ∈ l → ∃ v, validators.get? idx = some v ∧
      (exitIn patches (pe - 1) idx v = x ∨
        exitIn patches (pe - 1) idx v = spec.farFutureEpoch ∧ earliest ≤ x ∧ x ≤ out) := by
  induction l with
  | nil =>
    intro earliest toConsume out h
    simp only [validateExits, Res.ok.injEq] at h
    subst h; simp
  | cons a l ih =>
    obtain ⟨idx, x⟩ := a
    intro earliest toConsume out h
    simp only [validateExits, Res.bind_eq_ok, expect_eq_ok] at h
    obtain ⟨v, hv, h⟩ := h
    rw [prevExitEpoch_eq] at h
    split at h
    · rename_i he
      obtain ⟨h1, h2⟩ := ih _ _ _ h
      refine ⟨h1, ?_⟩
      intro i y hm
      rcases List.mem_cons.1 hm with hm | hm
      · cases hm; exact ⟨v, hv, Or.inl he⟩
      · exact h2 i y hm
    · simp only [Res.bind_eq_ok, assert_eq_ok, decide_eq_true_eq] at h
      obtain ⟨-, h1, -, h2, -, h3, h4⟩ := h
      obtain ⟨h5, h6⟩ := ih _ _ _ h4
      refine ⟨by omega, ?_⟩
      intro i y hm
      rcases List.mem_cons.1 hm with hm | hm
      · cases hm; exact ⟨v, hv, Or.inr ⟨h1, h2, h5⟩⟩
      · obtain ⟨w, hw, hc⟩ := h6 i y hm
        refine ⟨w, hw, ?_⟩
        rcases hc with hc | ⟨c1, c2, c3⟩
        · exact Or.inl hc
        · exact Or.inr ⟨c1, by omega, c3⟩

/-- The exits of a list that change an exit epoch. -/
def changes (patches : OMap StatePatch) (validators : OMap ValidatorInfo) (pe : Nat) (l : List (Nat × Nat)) :
    List (Nat × Nat) :=
  l.filterMap (fun (idx, x) =>
    match validators.get? idx with
    | some v => if exitIn patches (pe - 1) idx v = x then none else some (x, v.effectiveBalance)
    | none => none)

theorem changes_cons (patches : OMap StatePatch) (validators : OMap ValidatorInfo) (pe idx x : Nat)
    (l : List (Nat × Nat)) {v : ValidatorInfo} (hv : validators.get? idx = some v) :
    changes patches validators pe ((idx, x) :: l) =
      if exitIn patches (pe - 1) idx v = x then changes patches validators pe l
      else (x, v.effectiveBalance) :: changes patches validators pe l := by
  unfold changes
  rw [List.filterMap_cons]
  simp only [hv]
  by_cases h : exitIn patches (pe - 1) idx v = x
  · simp only [if_pos h]
  · simp only [if_neg h]

/-- The accounting of the churn limit. -/
theorem validateExits_churn {ε : Type} {spec : ChainSpec} {patches : OMap StatePatch}
    {validators : OMap ValidatorInfo} {pe churn : Nat} (l : List (Nat × Nat)) :
    ∀ (earliest toConsume out : Nat),
    (validateExits spec patches validators pe churn l earliest toConsume : Res ε Nat) = .ok out →
    ((changes patches validators pe l).map (·.2)).sum ≤ toConsume + churn * (out - earliest) ∧
    (∀ e ∈ changes patches validators pe l, earliest ≤ e.1 ∧ e.1 ≤ out) ∧
    ∀ u, exitingBalance (changes patches validators pe l) u ≤ toConsume + churn * (u - earliest) := by
  induction l with
  | nil =>
    intro earliest toConsume out h
    simp [changes, exitingBalance]
  | cons a l ih =>
    obtain ⟨idx, x⟩ := a
    intro earliest toConsume out h
    have h0 := (validateExits_ok _ _ _ _ h).1
    simp only [validateExits, Res.bind_eq_ok, expect_eq_ok] at h
    obtain ⟨v, hv, h⟩ := h
    rw [changes_cons _ _ _ _ _ _ hv]
    rw [prevExitEpoch_eq] at h
    split at h
    · rename_i he
      rw [if_pos he]
      exact ih _ _ _ h
    · rename_i he
      rw [if_neg he]
      simp only [Res.bind_eq_ok, assert_eq_ok, decide_eq_true_eq] at h
      obtain ⟨-, h1, -, h2, -, h3, h4⟩ := h
      have h5 := (validateExits_ok _ _ _ _ h4).1
      obtain ⟨i1, i2, i3⟩ := ih _ _ _ h4
      have hw : wrapAdd toConsume (wrapMul (satSub x earliest) churn) ≤
          toConsume + churn * (x - earliest) := by
        unfold wrapAdd wrapMul satSub
        refine Nat.le_trans (Nat.mod_le _ _) (Nat.add_le_add_left ?_ _)
        rw [Nat.mul_comm churn]; exact Nat.mod_le _ _
      have key : ∀ u, x ≤ u → churn * (u - earliest) = churn * (x - earliest) + churn * (u - x) := by
        intro u hu; rw [← Nat.mul_add]; congr 1; omega
      refine ⟨?_, ?_, ?_⟩
      · simp only [List.map_cons, List.sum_cons]
        rw [key out h5]
        omega
      · intro e he'
        rcases List.mem_cons.1 he' with rfl | he'
        · exact ⟨h2, h5⟩
        · have := i2 e he'; exact ⟨by omega, this.2⟩
      · intro u
        unfold exitingBalance
        by_cases hu : x ≤ u
        · rw [List.filter_cons_of_pos (by simpa using hu)]
          have := i3 u
          unfold exitingBalance at this
          simp only [List.map_cons, List.sum_cons]
          rw [key u hu]
          omega
        · rw [List.filter_cons_of_neg (by simpa using hu)]
          have : (changes patches validators pe l).filter (fun e => decide (e.1 ≤ u)) = [] := by
            rw [List.filter_eq_nil_iff]
            intro e he'
            have := i2 e he'
            simp; omega
          rw [this]; simp

/-- The returned epoch is the last changed exit. -/
theorem validateExits_last {ε : Type} {spec : ChainSpec} {patches : OMap StatePatch}
    {validators : OMap ValidatorInfo} {pe churn : Nat} (l : List (Nat × Nat)) :
    ∀ (earliest toConsume out : Nat),
    (validateExits spec patches validators pe churn l earliest toConsume : Res ε Nat) = .ok out →
    out = earliest ∨ ∃ x ∈ changes patches validators pe l, x.1 = out := by
  induction l with
  | nil =>
    intro earliest toConsume out h
    simp only [validateExits, Res.ok.injEq] at h
    exact Or.inl h.symm
  | cons a l ih =>
    obtain ⟨idx, x⟩ := a
    intro earliest toConsume out h
    simp only [validateExits, Res.bind_eq_ok, expect_eq_ok] at h
    obtain ⟨v, hv, h⟩ := h
    rw [changes_cons _ _ _ _ _ _ hv]
    rw [prevExitEpoch_eq] at h
    split at h
    · rename_i he
      rw [if_pos he]
      exact ih _ _ _ h
    · rename_i he
      rw [if_neg he]
      simp only [Res.bind_eq_ok, assert_eq_ok, decide_eq_true_eq] at h
      obtain ⟨-, h1, -, h2, -, h3, h4⟩ := h
      rcases ih _ _ _ h4 with h5 | ⟨y, hy, hy'⟩
      · exact Or.inr ⟨_, List.mem_cons_self, h5.symm⟩
      · exact Or.inr ⟨y, List.mem_cons_of_mem _ hy, hy'⟩

theorem validatePatchLoop_ok {ε : Type} (X : Ext) {spec : ChainSpec} {patches : OMap StatePatch}
    {validators : OMap ValidatorInfo} {trusted churn : Nat} (l : List (Nat × StatePatch)) :
    ∀ earliest,
    (validatePatchLoop X spec patches validators trusted churn l earliest : Res ε Unit) = .ok () →
    ∀ pe p, (pe, p) ∈ l → trusted ≤ pe ∧ ∃ start out, earliest ≤ start ∧
      (validateExits spec patches validators pe churn (X.sortByEpoch p.validatorExits) start churn :
        Res ε Nat) = .ok out := by
  induction l with
  | nil => intro earliest _ pe p h; simp at h
  | cons a l ih =>
    obtain ⟨pe0, p0⟩ := a
    intro earliest h pe p hm
    simp only [validatePatchLoop, Res.bind_eq_ok, assert_eq_ok, decide_eq_true_eq] at h
    obtain ⟨-, h1, out, h2, h3⟩ := h
    rcases List.mem_cons.1 hm with hm | hm
    · cases hm; exact ⟨h1, earliest, out, Nat.le_refl _, h2⟩
    · obtain ⟨a1, s, o, a2, a3⟩ := ih _ h3 pe p hm
      exact ⟨a1, s, o, Nat.le_trans (validateExits_ok _ _ _ _ h2).1 a2, a3⟩

theorem getBalanceChurnLimit_eq_ok {spec : ChainSpec} {total c : Nat}
    (h : getBalanceChurnLimit spec total = .ok c) : 2 * c = doubleChurn spec total := by
  unfold getBalanceChurnLimit at h
  simp only [Res.bind_eq_ok, safeDiv_eq_ok, safeRem_eq_ok, safeSub_eq_ok] at h
  obtain ⟨q, ⟨h1, rfl⟩, r, ⟨h2, rfl⟩, h3, rfl⟩ := h
  rfl

/-- What an accepted validation has done. -/
theorem validateStatePatches_ok (X : Ext) {spec : ChainSpec} {patches : OMap StatePatch}
    {trusted : Checkpoint} {state : StateInfo} {validators : OMap ValidatorInfo}
    (h : validateStatePatches X spec patches trusted state validators = .ok ()) :
    trusted.epoch + 1 + spec.maxSeedLookahead < U64 ∧
    (validatePatchLoop X spec patches validators trusted.epoch
      (doubleChurn spec (floored spec
        (totalWeight (validators.filter (fun e => e.2.isActiveAt trusted.epoch)))))
      patches (earliestNewExit spec trusted.epoch state.earliestExitEpoch
        state.earliestConsolidationEpoch) : Res GuestReaderError Unit) = .ok () := by
  unfold validateStatePatches at h
  simp only [Res.bind_eq_ok, Res.mapErr_eq_ok, computeActivationExitEpoch_eq_ok, safeMul_eq_ok] at h
  obtain ⟨total, h1, limit, h2, churn, ⟨h3, rfl⟩, act, ⟨h4, rfl⟩, h5⟩ := h
  refine ⟨h4, ?_⟩
  have ht : total = floored spec (totalWeight (validators.filter (fun e => e.2.isActiveAt trusted.epoch))) := by
    rw [getTotalBalance_ok_iff] at h1
    rw [h1.2]
    unfold floored totalWeight
    rw [List.map_map]; rfl
  rw [← ht, ← getBalanceChurnLimit_eq_ok h2, Nat.mul_comm 2]
  exact h5

/-! ## The reader -/

theorem slotEpoch_eq_ok_iff {ε : Type} {spec : ChainSpec} {slot e : Nat} :
    (slotEpoch spec slot : Res ε Nat) = .ok e ↔ spec.slotsPerEpoch ≠ 0 ∧ slot / spec.slotsPerEpoch = e := by
  unfold slotEpoch
  split <;> rename_i h <;> simp [h]

theorem intoReader_eq_ok {X : Ext} {spec : ChainSpec} {input : GuestInput} {r : GuestReader}
    (h : input.intoReader X spec = .ok r) :
    ∃ stateRoot state vs0,
      input.beaconBlock.verify X input.consensusState.finalized.root = .ok () ∧
      extractBeaconBlock input.beaconBlock = .ok stateRoot ∧
      input.beaconState.verify X stateRoot = .ok () ∧
      extractBeaconState input.beaconState = .ok state ∧
      input.activeValidators.verify X state.validatorsRoot = .ok () ∧
      extractValidators X input.activeValidators input.publicKeys
        input.consensusState.finalized.epoch = .ok vs0 ∧
      state.fork = spec.forkAtEpoch (state.slot / spec.slotsPerEpoch) ∧
      spec.slotsPerEpoch ≠ 0 ∧
      (registryLoop spec state.finalizedCheckpointEpoch input.consensusState.finalized.epoch
        input.consensusState.currentJustified.epoch
        (input.consensusState.currentJustified.epoch + 1 - state.slot / spec.slotsPerEpoch)
        (state.slot / spec.slotsPerEpoch) vs0 : Res GuestReaderError _) = .ok r.validators ∧
      validateStatePatches X spec input.patches input.consensusState.finalized state r.validators = .ok () ∧
      blockSlotLoop X input.blockSlotProofs [] = .ok r.blockSlots ∧
      r.spec = spec ∧ r.genesisValidatorsRoot = state.genesisValidatorsRoot ∧
      r.patches = input.patches ∧ r.consensusState = input.consensusState ∧
      r.attestations = input.attestations := by
  unfold GuestInput.intoReader at h
  simp only [Res.bind_eq_ok, Res.mapErr_eq_ok, ensure_eq_ok, decide_eq_true_eq, slotEpoch_eq_ok_iff,
    Res.pure_eq, Res.ok.injEq] at h
  obtain ⟨⟨⟩, h1, sr, h2, ⟨⟩, h3, st, h4, ⟨⟩, h5, vs0, h6, se, ⟨h7, rfl⟩, ⟨⟩, h8, vs, h9, ⟨⟩, h10, bs, h11, rfl⟩ := h
  exact ⟨sr, st, vs0, h1, h2, h3, h4, h5, h6, h8, h7, h9, h10, h11, rfl, rfl, rfl, rfl, rfl⟩

theorem intoReader_sorted {X : Ext} {spec : ChainSpec} {input : GuestInput} {r : GuestReader}
    (h : input.intoReader X spec = .ok r) : r.validators.Sorted := by
  obtain ⟨sr, st, vs0, -, -, -, -, -, h1, -, -, h2, -⟩ := intoReader_eq_ok h
  have hs : vs0.Sorted := extractLoop_sorted X _ _ _ _ _ _ _ h1 List.Pairwise.nil
  obtain ⟨f, hf, -⟩ := registryLoop_only _ _ _ _ h2
  rw [hf]
  unfold OMap.Sorted at hs ⊢
  rw [List.pairwise_map]
  exact hs

end Signal
