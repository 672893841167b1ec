import Verif.Proofs.Patches
import Verif.Proofs.Example
import Verif.Props.VerifyOrder

/-!
# Registry updates and state patches (C34 – C38)
-/

namespace Signal
open Spec

/-! ## C34: registry updates -/

/-- **C34**: processing registry updates for any number of epochs keeps the set of validators, and each
record changes only by later steps of its activation queue. -/
theorem C34_only_schedules {ε : Type} (spec : ChainSpec) (sf tr ju n epoch : Nat)
    (m m' : OMap ValidatorInfo) (h : (registryLoop spec sf tr ju n epoch m : Res ε _) = .ok m') :
    m'.keys = m.keys ∧
    (∀ i v, m.get? i = some v → ∃ v', m'.get? i = some v' ∧ OnlyScheduled spec epoch v v') ∧
    (∀ i v', m'.get? i = some v' → ∃ v, m.get? i = some v ∧ OnlyScheduled spec epoch v v') := by
  obtain ⟨f, rfl, hf⟩ := registryLoop_only n epoch m m' h
  refine ⟨?_, ?_, ?_⟩
  · simp [OMap.keys]
  · intro i v hv
    rw [OMap.get?_map, hv]
    exact ⟨f i v, rfl, hf i v⟩
  · intro i v' hv'
    rw [OMap.get?_map] at hv'
    cases hg : m.get? i with
    | none => rw [hg] at hv'; simp at hv'
    | some v =>
      rw [hg] at hv'
      simp only [Option.map_some, Option.some.injEq] at hv'
      exact ⟨v, rfl, hv' ▸ hf i v⟩

/-- A scheduled activation is not visible before `epoch + 1 + MAX_SEED_LOOKAHEAD`. -/
theorem Spec.OnlyScheduled.isActiveAt {spec : ChainSpec} {epoch : Nat} {v v' : ValidatorInfo}
    (h : OnlyScheduled spec epoch v v') {e : Nat} (he : e ≤ epoch + spec.maxSeedLookahead)
    (hf : e < spec.farFutureEpoch) : v'.isActiveAt e = v.isActiveAt e := by
  unfold ValidatorInfo.isActiveAt
  rw [h.exitEpoch]
  rcases h.activation with a | ⟨a, b⟩
  · rw [a]
  · congr 1
    have h1 : ¬ v'.activationEpoch ≤ e := by omega
    have h2 : ¬ v.activationEpoch ≤ e := by omega
    simp [h1, h2]

/-- **C34**: who is active does not change before one lookahead after the first processed epoch. -/
theorem C34_activity_unchanged {ε : Type} (spec : ChainSpec) (sf tr ju n epoch : Nat)
    (m m' : OMap ValidatorInfo) (h : (registryLoop spec sf tr ju n epoch m : Res ε _) = .ok m')
    (e : Nat) (he : e ≤ epoch + spec.maxSeedLookahead) (hf : e < spec.farFutureEpoch) :
    OMap.keys (m'.filter (fun x => x.2.isActiveAt e)) = OMap.keys (m.filter (fun x => x.2.isActiveAt e)) := by
  obtain ⟨f, rfl, hf'⟩ := registryLoop_only n epoch m m' h
  unfold OMap.keys
  rw [List.filter_map, List.map_map]
  congr 1
  apply List.filter_congr
  intro x _
  exact (hf' x.1 x.2).isActiveAt he hf

/-- **C34**: one processed epoch treats every validator as the Electra specification does, provided the
finalized epoch is not after the processed one. -/
theorem C34_electra {ε : Type} (spec : ChainSpec) (fin epoch : Nat) (m m' : OMap ValidatorInfo)
    (hfin : fin ≤ epoch) (h : (processRegistryUpdates spec m fin epoch : Res ε _) = .ok m') :
    m' = m.map (fun x => (x.1, electraUpdate spec fin epoch x.2)) := by
  obtain ⟨h1, rfl⟩ := processRegistryUpdates_eq_ok h
  apply List.map_congr_left
  intro x _
  congr 1
  have hs : satAdd epoch 1 = epoch + 1 := by unfold satAdd; omega
  unfold updateValidator electraUpdate ValidatorInfo.isEligibleForActivationQueue
    ValidatorInfo.isEligibleForActivation
  simp only [Bool.and_eq_true, decide_eq_true_eq, hs]
  by_cases h2 : x.2.activationEligibilityEpoch = spec.farFutureEpoch ∧
      spec.minActivationBalance ≤ x.2.effectiveBalance
  · rw [if_pos h2, if_pos h2, if_neg]
    rintro ⟨h3, -⟩
    dsimp only at h3
    omega
  · rw [if_neg h2, if_neg h2]

/-! ## C36: patched exits -/

section
variable (X : Ext) (spec : ChainSpec) (patches : OMap StatePatch) (trusted : Checkpoint)
  (state : StateInfo) (validators : OMap ValidatorInfo)

/-- **C36**, step: each exit in an accepted patch is the one of the preceding epoch, or it was the
far-future epoch there and is not before the earliest exit epoch. -/
theorem C36_step (h : validateStatePatches X spec patches trusted state validators = .ok ())
    (e : Nat) (p : StatePatch) (hp : (e, p) ∈ patches) (idx x : Nat) (hx : (idx, x) ∈ p.validatorExits) :
    trusted.epoch ≤ e ∧ ∃ v, validators.get? idx = some v ∧
      (x = exitIn patches (e - 1) idx v ∨
        exitIn patches (e - 1) idx v = spec.farFutureEpoch ∧
          earliestNewExit spec trusted.epoch state.earliestExitEpoch
            state.earliestConsolidationEpoch ≤ x) := by
  obtain ⟨-, h2⟩ := validateStatePatches_ok X h
  obtain ⟨h3, s, o, h4, h5⟩ := validatePatchLoop_ok X _ _ h2 e p hp
  obtain ⟨v, hv, hc⟩ := (validateExits_ok _ _ _ _ h5).2 idx x ((X.sortByEpoch_perm _).mem_iff.2 hx)
  refine ⟨h3, v, hv, ?_⟩
  rcases hc with hc | ⟨c1, c2, -⟩
  · exact Or.inl hc.symm
  · exact Or.inr ⟨c1, Nat.le_trans h4 c2⟩

/-- **C36** unless the trusted epoch is 0 (there patches are not checked, `C38_epoch_zero_witness`): in an
accepted input every patched exit is the proven exit of a validator of the registry, or
that validator had no exit and the patched one is not before the earliest exit epoch (in particular not
before the trusted epoch plus `1 + MAX_SEED_LOOKAHEAD`). -/
theorem C36_exit_set_once_partial (h : validateStatePatches X spec patches trusted state validators = .ok ())
    (ht : trusted.epoch ≠ 0) (e : Nat) :
    ∀ (p : StatePatch), patches.get? e = some p → ∀ (idx x : Nat), p.validatorExits.get? idx = some x →
    ∃ v, validators.get? idx = some v ∧
      (x = v.exitEpoch ∨ v.exitEpoch = spec.farFutureEpoch ∧
        earliestNewExit spec trusted.epoch state.earliestExitEpoch
          state.earliestConsolidationEpoch ≤ x) := by
  induction e using Nat.strongRecOn with
  | ind e ih =>
    intro p hp idx x hx
    obtain ⟨h1, v, hv, hc⟩ := C36_step X spec patches trusted state validators h e p
      (OMap.get?_eq_some_mem hp) idx x (OMap.get?_eq_some_mem hx)
    refine ⟨v, hv, ?_⟩
    -- the exit in the preceding patch
    have hprev : exitIn patches (e - 1) idx v = v.exitEpoch ∨ v.exitEpoch = spec.farFutureEpoch ∧
        earliestNewExit spec trusted.epoch state.earliestExitEpoch
          state.earliestConsolidationEpoch ≤ exitIn patches (e - 1) idx v := by
      unfold exitIn
      cases hq : patches.get? (e - 1) with
      | none => exact Or.inl rfl
      | some q =>
        cases hy : q.validatorExits.get? idx with
        | none => exact Or.inl (by simp [hy])
        | some y =>
          obtain ⟨w, hw, hc'⟩ := ih (e - 1) (by omega) q hq idx y hy
          rw [hv] at hw
          cases hw
          simpa [hy] using hc'
    rcases hc with hc | ⟨c1, c2⟩
    · rw [hc]; exact hprev
    · rcases hprev with hp' | ⟨hp', -⟩
      · exact Or.inr ⟨hp'.symm.trans c1, c2⟩
      · exact Or.inr ⟨hp', c2⟩

/-- **C36** unless the trusted epoch is 0: a proven exit is never altered. -/
theorem C36_proven_exit_kept_partial (h : validateStatePatches X spec patches trusted state validators = .ok ())
    (ht : trusted.epoch ≠ 0) (e idx x : Nat) (p : StatePatch) (v : ValidatorInfo)
    (hp : patches.get? e = some p) (hx : p.validatorExits.get? idx = some x)
    (hv : validators.get? idx = some v) (hfar : v.exitEpoch ≠ spec.farFutureEpoch) :
    x = v.exitEpoch := by
  obtain ⟨w, hw, hc⟩ := C36_exit_set_once_partial X spec patches trusted state validators h ht e p hp idx x hx
  rw [hv] at hw
  cases hw
  rcases hc with hc | ⟨hc, -⟩
  · exact hc
  · exact absurd hc hfar

/-- **C36** for patches that each mention the validator: once a patch has set an exit, the patches of the
following epochs repeat it. Without the condition this is false, `C36_omission_resets`. -/
theorem C36_no_second_change_partial (h : validateStatePatches X spec patches trusted state validators = .ok ())
    (e idx x : Nat) (p : StatePatch) (hp : patches.get? e = some p)
    (hx : p.validatorExits.get? idx = some x) (hfar : x ≠ spec.farFutureEpoch) (n : Nat)
    (hall : ∀ k, k ≤ n → ∃ q y, patches.get? (e + k) = some q ∧ q.validatorExits.get? idx = some y) :
    ∀ q, patches.get? (e + n) = some q → q.validatorExits.get? idx = some x := by
  induction n with
  | zero =>
    intro q hq
    rw [Nat.add_zero, hp] at hq
    cases hq; exact hx
  | succ n ih =>
    intro q hq
    obtain ⟨q1, y1, hq1, -⟩ := hall n (by omega)
    obtain ⟨q2, y2, hq2, hy2⟩ := hall (n + 1) (Nat.le_refl _)
    rw [hq] at hq2
    cases hq2
    have hx1 := ih (fun k hk => hall k (by omega)) q1 hq1
    obtain ⟨-, v, -, hc⟩ := C36_step X spec patches trusted state validators h (e + (n + 1)) q
      (OMap.get?_eq_some_mem hq) idx y2 (OMap.get?_eq_some_mem hy2)
    have hprev : exitIn patches (e + (n + 1) - 1) idx v = x := by
      have : e + (n + 1) - 1 = e + n := by omega
      rw [this]
      unfold exitIn
      simp [hq1, hx1]
    rw [hprev] at hc
    rcases hc with hc | ⟨hc, -⟩
    · rw [hy2, hc]
    · exact absurd hc hfar

/-! ## C37: the churn limit -/

/-- **C37**: in every accepted patch, and for every epoch `u`, the balance of the validators whose exit
epoch the patch changes to one not after `u` is at most the doubled churn limit of the registry for each
epoch from the earliest new exit up to `u`, plus one. -/
theorem C37_churn (h : validateStatePatches X spec patches trusted state validators = .ok ())
    (e : Nat) (p : StatePatch) (hp : (e, p) ∈ patches) (u : Nat) :
    exitingBalance (newExits patches validators e p) u ≤
      doubleChurn spec (floored spec
        (totalWeight (validators.filter (fun x => x.2.isActiveAt trusted.epoch)))) *
      (u - earliestNewExit spec trusted.epoch state.earliestExitEpoch
        state.earliestConsolidationEpoch + 1) := by
  obtain ⟨-, h2⟩ := validateStatePatches_ok X h
  obtain ⟨h3, s, o, h4, h5⟩ := validatePatchLoop_ok X _ _ h2 e p hp
  have h6 := (validateExits_churn _ _ _ _ h5).2.2 u
  have hperm : (changes patches validators e (X.sortByEpoch p.validatorExits)).Perm
      (newExits patches validators e p) := (X.sortByEpoch_perm _).filterMap _
  have hsum : exitingBalance (newExits patches validators e p) u =
      exitingBalance (changes patches validators e (X.sortByEpoch p.validatorExits)) u := by
    unfold exitingBalance
    exact (((hperm.filter _).map _).sum_nat).symm
  rw [hsum]
  refine Nat.le_trans h6 ?_
  rw [Nat.mul_add, Nat.mul_one, Nat.add_comm]
  apply Nat.add_le_add_right
  apply Nat.mul_le_mul_left
  omega

/-- All patches of a list together. -/
theorem validatePatchLoop_total {ε : Type} {churn : Nat} (l : List (Nat × StatePatch)) :
    ∀ earliest,
    (validatePatchLoop X spec patches validators trusted.epoch churn l earliest : Res ε Unit) = .ok () →
    ∃ last, earliest ≤ last ∧
      (∀ e p, (e, p) ∈ l → ∀ x ∈ newExits patches validators e p, earliest ≤ x.1 ∧ x.1 ≤ last) ∧
      (last = earliest ∨ ∃ e p, (e, p) ∈ l ∧ ∃ x ∈ newExits patches validators e p, x.1 = last) ∧
      (l.map (fun (e, p) => ((newExits patches validators e p).map (·.2)).sum)).sum ≤
        churn * (last - earliest + l.length) := by
  induction l with
  | nil => intro earliest _; exact ⟨earliest, Nat.le_refl _, by simp, Or.inl rfl, by simp⟩
  | cons a l ih =>
    obtain ⟨e, p⟩ := a
    intro earliest h
    simp only [validatePatchLoop, Res.bind_eq_ok, assert_eq_ok, decide_eq_true_eq] at h
    obtain ⟨-, h1, out, h2, h3⟩ := h
    obtain ⟨last, i1, i2, i3, i4⟩ := ih _ h3
    have hle := (validateExits_ok _ _ _ _ h2).1
    obtain ⟨c1, c2, -⟩ := validateExits_churn _ _ _ _ h2
    have c3 := validateExits_last _ _ _ _ h2
    have hperm : (changes patches validators e (X.sortByEpoch p.validatorExits)).Perm
        (newExits patches validators e p) := (X.sortByEpoch_perm _).filterMap _
    rw [(hperm.map _).sum_nat] at c1
    refine ⟨last, by omega, ?_, ?_, ?_⟩
    · intro e' p' hm x hx
      rcases List.mem_cons.1 hm with hm | hm
      · cases hm
        have := c2 x (hperm.mem_iff.2 hx)
        omega
      · have := i2 e' p' hm x hx
        omega
    · rcases i3 with i3 | ⟨e', p', hm, hx⟩
      · rcases c3 with c3 | ⟨x, hx, hx'⟩
        · exact Or.inl (by omega)
        · exact Or.inr ⟨e, p, List.mem_cons_self, x, hperm.mem_iff.1 hx, by omega⟩
      · exact Or.inr ⟨e', p', List.mem_cons_of_mem _ hm, hx⟩
    · simp only [List.map_cons, List.sum_cons, List.length_cons]
      have : churn * (last - earliest + (l.length + 1)) =
          (churn + churn * (out - earliest)) + churn * (last - out + l.length) := by
        rw [show churn + churn * (out - earliest) = churn * (1 + (out - earliest)) by rw [Nat.mul_add, Nat.mul_one],
          ← Nat.mul_add]
        congr 1; omega
      rw [this]
      exact Nat.add_le_add c1 i4

/-- **C37**: all patches of an accepted input together let at most the doubled churn limit exit for each
epoch between the earliest new exit and the last patched one, plus once per patch. -/
theorem C37_total_churn (h : validateStatePatches X spec patches trusted state validators = .ok ()) :
    ∃ last, earliestNewExit spec trusted.epoch state.earliestExitEpoch
        state.earliestConsolidationEpoch ≤ last ∧
      (last = earliestNewExit spec trusted.epoch state.earliestExitEpoch
          state.earliestConsolidationEpoch ∨
        ∃ e p, (e, p) ∈ patches ∧ ∃ x ∈ newExits patches validators e p, x.1 = last) ∧
      (∀ e p, (e, p) ∈ patches → ∀ x ∈ newExits patches validators e p, x.1 ≤ last) ∧
      (patches.map (fun (e, p) => ((newExits patches validators e p).map (·.2)).sum)).sum ≤
        doubleChurn spec (floored spec
          (totalWeight (validators.filter (fun x => x.2.isActiveAt trusted.epoch)))) *
        (last - earliestNewExit spec trusted.epoch state.earliestExitEpoch
          state.earliestConsolidationEpoch + patches.length) := by
  obtain ⟨-, h2⟩ := validateStatePatches_ok X h
  obtain ⟨last, h3, h4, h5, h6⟩ := validatePatchLoop_total X spec patches trusted validators _ _ h2
  exact ⟨last, h3, h5, fun e p hm x hx => (h4 e p hm x hx).2, h6⟩

end

/-! ## C35: the lookahead window -/

/-- **C35**: inside the lookahead window of the trusted epoch the patches change nothing: a validator is
reported as active exactly if its proven record says so. -/
theorem C35_window (X : Ext) (spec : ChainSpec) (input : GuestInput) (r : GuestReader)
    (h : input.intoReader X spec = .ok r) (ht : input.consensusState.finalized.epoch ≠ 0) (e : Nat)
    (he : e ≤ input.consensusState.finalized.epoch + spec.maxSeedLookahead) :
    r.activeValidators e = r.validators.filter (fun x => x.2.isActiveAt e) := by
  obtain ⟨sr, st, vs0, -, -, -, -, -, -, -, -, -, hp, -, -, -, hpat, -, -⟩ := intoReader_eq_ok h
  unfold GuestReader.activeValidators
  apply List.filter_congr
  intro x hx
  have hg := OMap.mem_get? (intoReader_sorted h) (i := x.1) (v := x.2) hx
  unfold StatePatch.isActiveValidator GuestReader.patchAt
  cases hpa : r.patches.get? e with
  | none => rfl
  | some p =>
    simp only [Option.getD_some]
    cases hy : p.validatorExits.get? x.1 with
    | none => rfl
    | some y =>
      dsimp only
      obtain ⟨v, hv, hc⟩ := C36_exit_set_once_partial X spec _ _ _ _ hp ht e p (hpat ▸ hpa) x.1 y hy
      rw [hg] at hv
      cases hv
      rcases hc with hc | ⟨-, hc⟩
      · rw [hc]
        unfold ValidatorInfo.isActiveAt
        cases decide (e < x.2.exitEpoch) <;> simp
      · have : e < y := by
          unfold earliestNewExit at hc
          omega
        simp [this]

/-- **C35**: after the window, patches can only remove validators. -/
theorem C35_only_removes (r : GuestReader) (e : Nat) :
    ∀ x, x ∈ r.activeValidators e → x ∈ r.validators ∧ x.2.isActiveAt e = true := by
  intro x hx
  unfold GuestReader.activeValidators at hx
  obtain ⟨h1, h2⟩ := List.mem_filter.1 hx
  refine ⟨h1, ?_⟩
  unfold StatePatch.isActiveValidator at h2
  split at h2
  · simp only [Bool.and_eq_true] at h2; exact h2.2
  · exact h2

/-! ## C38: patches of epoch 0 -/

/-- For epoch 0 the preceding epoch saturates to 0: every exit is compared with itself. -/
theorem validateExits_epoch_zero {ε : Type} (spec : ChainSpec) (patches : OMap StatePatch) (p : StatePatch)
    (validators : OMap ValidatorInfo) (churn : Nat) (hp : patches.get? 0 = some p)
    (hs : p.validatorExits.Sorted) (l : List (Nat × Nat)) (hl : ∀ x ∈ l, x ∈ p.validatorExits)
    (hv : ∀ x ∈ l, ∃ v, validators.get? x.1 = some v) (earliest toConsume : Nat) :
    (validateExits spec patches validators 0 churn l earliest toConsume : Res ε Nat) = .ok earliest := by
  induction l with
  | nil => rfl
  | cons a l ih =>
    obtain ⟨idx, x⟩ := a
    obtain ⟨v, hv'⟩ := hv _ List.mem_cons_self
    have hg := OMap.mem_get? hs (hl _ List.mem_cons_self)
    simp only at hv'
    unfold validateExits
    simp only [hv', expect, Res.ok_bind, prevExitEpoch_eq]
    have : exitIn patches (0 - 1) idx v = x := by unfold exitIn; simp [hp, hg]
    rw [if_pos this]
    exact ih (fun y hy => hl y (List.mem_cons_of_mem _ hy)) (fun y hy => hv y (List.mem_cons_of_mem _ hy))

/-- **C38** fails for epoch 0: when the trusted epoch is 0, a patch of epoch 0 is accepted whatever exits
it gives to the validators of the registry – validation does exactly what it does without any patch. -/
theorem C38_epoch_zero_unchecked (X : Ext) (spec : ChainSpec) (root : Root) (state : StateInfo)
    (validators : OMap ValidatorInfo) (p : StatePatch) (hs : p.validatorExits.Sorted)
    (hv : ∀ x ∈ p.validatorExits, ∃ v, validators.get? x.1 = some v) :
    validateStatePatches X spec [(0, p)] ⟨0, root⟩ state validators =
      validateStatePatches X spec [] ⟨0, root⟩ state validators := by
  have hm : ∀ x, x ∈ X.sortByEpoch p.validatorExits → x ∈ p.validatorExits :=
    fun x => (X.sortByEpoch_perm _).mem_iff.1
  unfold validateStatePatches validatePatchLoop
  simp only [validateExits_epoch_zero spec [(0, p)] p validators _ (by simp [OMap.get?]) hs _ hm
    (fun x hx => hv x (hm x hx)), Res.ok_bind, Nat.le_refl, decide_true, assert, if_true, validatePatchLoop]

/-- **C38** for every other epoch: a patch of epoch `e ≠ 0` is compared with the patch of the preceding
epoch `e - 1`, a different one (`C36_step` gives what the comparison enforces). -/
theorem C38_partial (X : Ext) (spec : ChainSpec) (patches : OMap StatePatch) (trusted : Checkpoint)
    (state : StateInfo) (validators : OMap ValidatorInfo)
    (h : validateStatePatches X spec patches trusted state validators = .ok ())
    (e : Nat) (p : StatePatch) (hp : (e + 1, p) ∈ patches) (idx x : Nat)
    (hx : (idx, x) ∈ p.validatorExits) (v : ValidatorInfo) (hv : validators.get? idx = some v)
    (hne : x ≠ exitIn patches e idx v) :
    exitIn patches e idx v = spec.farFutureEpoch ∧
      trusted.epoch + 1 + spec.maxSeedLookahead ≤ x := by
  obtain ⟨-, w, hw, hc⟩ := C36_step X spec patches trusted state validators h (e + 1) p hp idx x hx
  rw [hv] at hw
  cases hw
  rcases hc with hc | ⟨c1, c2⟩
  · exact absurd hc hne
  · refine ⟨c1, ?_⟩
    unfold earliestNewExit at c2
    omega

/-! ## Examples -/

/-- A state of the example chain at the start of epoch 10; no exits are queued. -/
def exStateInfo : StateInfo := ⟨exRoot32 77, 40, ⟨[], [], 0⟩, [], 8, 0, 0⟩

/-- Validators 0 – 9 are active, validator 10 waits in the activation queue, validator 11 has not entered
it, validator 12 exits at epoch 13. -/
def exRegistry : OMap ValidatorInfo :=
  exActive ++ [(10, ⟨[110], 32, false, 9, u64Max, u64Max⟩), (11, ⟨[111], 32, false, u64Max, u64Max, u64Max⟩),
    (12, ⟨[112], 32, false, 0, 0, 13⟩)]

/-- The registry update of epochs 10 and 11 schedules 10 (epoch 9 is finalized with the trusted epoch 10)
and queues 11. -/
example : (registryLoop exSpec 8 10 11 2 10 exRegistry : Res Unit _) =
    .ok (exActive ++ [(10, ⟨[110], 32, false, 9, 11 + 1 + 4, u64Max⟩),
      (11, ⟨[111], 32, false, 11, u64Max, u64Max⟩), (12, ⟨[112], 32, false, 0, 0, 13⟩)]) := by
  decide +kernel

/-- Validator 0 exits at 15, then validator 1 at 16; the exit of 12 is repeated. -/
def exPatches : OMap StatePatch :=
  [(11, ⟨[], [(0, 15), (12, 13)]⟩), (12, ⟨[], [(0, 15), (1, 16), (12, 13)]⟩)]

theorem exPatches_valid :
    validateStatePatches exExt exSpec exPatches ⟨10, exRoot32 10⟩ exStateInfo exRegistry = .ok () := by
  decide +kernel

/-- The hypotheses of C36 and C37 are met, with exits that do change. -/
example : exitIn exPatches 10 0 (exVal 0) = u64Max ∧ exitIn exPatches 11 0 (exVal 0) = 15 ∧
    newExits exPatches exRegistry 12 ⟨[], [(0, 15), (1, 16), (12, 13)]⟩ = [(16, 32)] ∧
    (10 : Nat) ≠ 0 := by decide +kernel

/-- The checks do reject: too early, altered, changed twice, over the churn limit. -/
example : validateStatePatches exExt exSpec [(11, ⟨[], [(0, 14)]⟩)] ⟨10, []⟩ exStateInfo exRegistry = .panic ∧
    validateStatePatches exExt exSpec [(11, ⟨[], [(12, 20)]⟩)] ⟨10, []⟩ exStateInfo exRegistry = .panic ∧
    validateStatePatches exExt exSpec [(11, ⟨[], [(0, 15)]⟩), (12, ⟨[], [(0, 16)]⟩)] ⟨10, []⟩ exStateInfo
      exRegistry = .panic ∧
    validateStatePatches exExt exSpec [(9, ⟨[], [(12, 13)]⟩)] ⟨10, []⟩ exStateInfo exRegistry = .panic := by
  decide +kernel

/-- **C36**, limit: "only once" is judged against the preceding epoch only. A patch that leaves the
validator out resets it: here validator 0 exits at 15, is not mentioned for epoch 12, and exits at 40 in
epoch 13. -/
theorem C36_omission_resets :
    validateStatePatches exExt exSpec
      [(11, ⟨[], [(0, 15)]⟩), (12, ⟨[], []⟩), (13, ⟨[], [(0, 40)]⟩)] ⟨10, exRoot32 10⟩ exStateInfo
      exRegistry = .ok () := by
  decide +kernel

/-- **C38** at epoch 0, concretely: all ten validators are removed at once. -/
theorem C38_epoch_zero_witness :
    validateStatePatches exExt exSpec [(0, ⟨[], exActive.map (fun x => (x.1, 0))⟩)] ⟨0, exRoot32 0⟩
      exStateInfo exRegistry = .ok () ∧
    ∀ x ∈ exActive, x.2.isActiveAt 0 = true ∧
      StatePatch.isActiveValidator ⟨[], exActive.map (fun x => (x.1, 0))⟩ x.1 x.2 0 = false := by
  decide +kernel

end Signal
