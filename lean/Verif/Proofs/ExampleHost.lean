import Verif.Proofs.Preflight
import Verif.Proofs.ExampleGuest

/-! A concrete host with three states, for examples. -/

namespace Signal
open Spec

deriving instance DecidableEq for Spec.Validator

/-- Deciding `Continues` on concrete lists. -/
def continuesB (far t : Nat) (vs ws : List Validator) (e : Nat) : Bool :=
  decide (vs.length ≤ ws.length) &&
  (ws.drop vs.length).all (fun w => !(decide (w.activationEpoch ≤ e) && decide (e < w.exitEpoch))) &&
  (vs.zip ws).all (fun (v, w) => decide (w.pubkey = v.pubkey) &&
    (decide (v.activationEpoch ≤ e) == decide (w.activationEpoch ≤ e)) &&
    (!(decide (w.activationEpoch ≤ e) && decide (e < w.exitEpoch)) ||
      (w.slashed == v.slashed && decide (w.activationEligibilityEpoch = v.activationEligibilityEpoch) &&
        decide (w.activationEpoch = v.activationEpoch))) &&
    (decide (w.exitEpoch = v.exitEpoch) ||
      (decide (v.exitEpoch = far) && decide (t < w.exitEpoch) && decide (w.exitEpoch ≤ far))))

theorem continues_of_check {far t e : Nat} {vs ws : List Validator} (h : continuesB far t vs ws e = true) :
    Continues far t vs ws e := by
  unfold continuesB at h
  simp only [Bool.and_eq_true, decide_eq_true_eq, List.all_eq_true] at h
  obtain ⟨⟨h1, h2⟩, h3⟩ := h
  have hz : ∀ (i : Nat) (v w : Validator), vs[i]? = some v → ws[i]? = some w → (v, w) ∈ vs.zip ws := by
    intro i v w hv hw
    exact List.mem_of_getElem? (i := i) (List.getElem?_zip_eq_some.2 ⟨hv, hw⟩)
  refine ⟨h1, ?_, ?_, ?_, ?_, ?_⟩
  · intro i w hi hw
    have hm : w ∈ ws.drop vs.length := by
      refine List.mem_of_getElem? (i := i - vs.length) ?_
      rw [List.getElem?_drop, show vs.length + (i - vs.length) = i by omega]
      exact hw
    have := h2 w hm
    unfold Validator.activeAt
    simp only [Bool.not_eq_true', Bool.and_eq_false_iff, decide_eq_false_iff_not] at this
    omega
  · intro i v w hv hw
    exact (h3 _ (hz i v w hv hw)).1.1.1
  · intro i v w hv hw
    have := (h3 _ (hz i v w hv hw)).1.1.2
    simpa [decide_eq_decide] using this
  · intro i v w hv hw ha
    have := (h3 _ (hz i v w hv hw)).1.2
    unfold Validator.activeAt at ha
    simpa [ha.1, ha.2, and_assoc] using this
  · intro i v w hv hw
    have := (h3 _ (hz i v w hv hw)).2
    simpa [and_assoc] using this

/-- The registry at epochs 6 and 7: validator 8 will exit at epoch 9, and there is a new one. -/
def fxVs : List Validator :=
  (gxVs.set 8 ⟨exExt.pkSerialize [108], exRoot32 1, 32, false, 0, 0, 9, 9⟩) ++
    [⟨exExt.pkSerialize [201], exRoot32 1, 32, false, u64Max, u64Max, u64Max, u64Max⟩]

/-- A state of the host. -/
def fxState (slot : Nat) (vs : List Validator) : HostState where
  beacon := ⟨false, exRoot32 77, slot, ⟨[4, 0, 0, 0], [5, 0, 0, 0], 3⟩, vs, 1, exRoot32 2, 9, 8, fun _ => .leaf zeroRoot⟩
  latestBlockHeader := ⟨slot, 5, exRoot32 31, zeroRoot, exRoot32 32⟩
  randaoMixes := List.replicate 16 (exRoot32 1)

/-- The states of epochs 3, 6 and 7. -/
def fxProvider (slot : Nat) : Res ProviderError HostState :=
  if slot = 12 then .ok (fxState 12 gxVs)
  else if slot = 24 then .ok (fxState 24 fxVs)
  else if slot = 28 then .ok (fxState 28 fxVs)
  else .err (.notFound slot)

def fxHost : HostReader where
  spec := exSpec
  provider := fxProvider
  genesisRoot := .ok (exRoot32 77)
  headers root := .ok (if root = gxHdr6.tree.root exExt then some gxHdr6 else none)
  decompress pk := some (pk ++ List.replicate 48 0)
  consensusState := ⟨exC4, gxC3⟩
  attestations := gxVotes

/-- The queries of `verify`. -/
def fxQueries : List Query :=
  [.activeValidators 6, .randaoMix 6 4, .activeValidators 7, .randaoMix 7 5, .slotForBlock gxC6.root]

def fxLog : PreflightLog := ⟨[6, 7], [(6, [4]), (7, [5])], [gxC6.root]⟩

theorem fxState_beacon : (fxState 12 gxVs).beacon = gxState := rfl

theorem fx_filled : filledHeader (hostStateOps exExt) (fxState 12 gxVs) = gxHdr := by
  unfold filledHeader hostStateOps
  dsimp only
  rw [fxState_beacon, gxState_root]
  rfl

theorem fx_trusted : TrustedState exExt fxHost gxC3 (fxState 12 gxVs) where
  found := by
    have h1 : stateAtEpochBoundary (hostStateOps exExt) fxHost.spec.slotsPerEpoch fxHost.provider gxC3.epoch =
        .ok (fxState 12 gxVs) := rfl
    unfold stateAtCheckpoint
    rw [h1, Res.ok_bind]
    have h2 : ({ (hostStateOps exExt).latestBlockHeader (fxState 12 gxVs) with
        stateRoot := (hostStateOps exExt).hashTreeRoot (fxState 12 gxVs) } : Header) = gxHdr := fx_filled
    dsimp only at h2 ⊢
    rw [h2]
    simp [gxC3, ensure]
  start := rfl
  wf := gxState_wf
  header_wf := by rw [fx_filled]; exact gxHdr_wf
  fork := by decide
  slots_per_epoch := by decide
  finalized_past := by decide
  justified := by decide
  small := by decide
  far := by decide
  keys := by
    intro v hv
    refine ⟨v.pubkey ++ List.replicate 48 0, rfl, ?_⟩
    have : ∀ v ∈ gxVs, exExt.pkSerialize (v.pubkey ++ List.replicate 48 0) = v.pubkey := by decide +kernel
    exact this v hv

theorem fx_registry : registryOf exSpec gxState ⟨exC4, gxC3⟩ = gxVs := by decide +kernel

theorem fx_state_cases {e : Nat} {s : HostState} (h : fxHost.state e = .ok s) :
    (e = 3 ∧ s = fxState 12 gxVs) ∨ (e = 6 ∧ s = fxState 24 fxVs) ∨ (e = 7 ∧ s = fxState 28 fxVs) := by
  have h : fxProvider (satMul e 4) = .ok s := Res.mapErr_eq_ok.1 h
  unfold fxProvider at h
  have hs : ∀ n, n < 100 → satMul e 4 = n → e * 4 = n := by
    intro n hn hm
    unfold satMul at hm
    have : (2 : Nat) ^ 64 = 18446744073709551616 := by norm_num
    omega
  split at h
  · rename_i h12
    cases h
    exact Or.inl ⟨by have := hs 12 (by omega) h12; omega, rfl⟩
  · split at h
    · rename_i h24
      cases h
      exact Or.inr (Or.inl ⟨by have := hs 24 (by omega) h24; omega, rfl⟩)
    · split at h
      · rename_i h28
        cases h
        exact Or.inr (Or.inr ⟨by have := hs 28 (by omega) h28; omega, rfl⟩)
      · simp at h

theorem fx_consistent : Consistent exExt fxHost gxC3 (fxState 12 gxVs) fxQueries where
  states := by
    intro e s _ hs
    have hreg : registryOf fxHost.spec (fxState 12 gxVs).beacon fxHost.consensusState = gxVs := fx_registry
    rw [hreg]
    apply continues_of_check
    rcases fx_state_cases hs with ⟨rfl, rfl⟩ | ⟨rfl, rfl⟩ | ⟨rfl, rfl⟩ <;> decide +kernel
  headers := by
    intro root h hh
    have hh : (if root = gxHdr6.tree.root exExt then some gxHdr6 else none) = some h := by
      unfold fxHost at hh
      simpa using hh
    split at hh
    · rename_i hr
      cases hh
      exact ⟨gxHdr6_wf, hr.symm⟩
    · simp at hh
  genesis := rfl
  forks := by
    intro e s hs
    rcases fx_state_cases hs with ⟨rfl, rfl⟩ | ⟨rfl, rfl⟩ | ⟨rfl, rfl⟩ <;> rfl

theorem fx_log : preflightRun gxC3.epoch fxHost .empty fxQueries = .ok fxLog := by decide +kernel

theorem fx_active : ∃ a, fxHost.activeValidators gxC3.epoch = .ok a := by
  have h : fxHost.activeValidators gxC3.epoch = .ok exActive := by decide +kernel
  exact ⟨_, h⟩

/-- The host's reader is accepted by `verify`. -/
theorem fx_verifies : verify exExt Config.default fxHost.toReader = .ok (⟨exC7, gxC6⟩, 24) := by decide +kernel

theorem fx_patches_computed : (do
    let b1 ← mixPatches fxHost fxLog.mixEpochs []
    let b2 ← exitPatches fxHost gxC3.epoch gxVs fxLog.validatorEpochs b1
    return b2.map (fun (epoch, b) => (epoch, b.patch)) : Res PreflightError _) = .ok gxPatches := by
  decide +kernel

theorem fx_patches {b1 b2 : OMap PatchBuilder} (h1 : mixPatches fxHost fxLog.mixEpochs [] = .ok b1)
    (h2 : exitPatches fxHost gxC3.epoch gxVs fxLog.validatorEpochs b1 = .ok b2) :
    b2.map (fun (epoch, b) => (epoch, b.patch)) = gxPatches := by
  have h := fx_patches_computed
  rw [h1, Res.ok_bind, h2, Res.ok_bind] at h
  exact Res.ok.inj h

theorem validateStatePatches_congr (X : Ext) (spec : ChainSpec) (patches : OMap StatePatch) (trusted : Checkpoint)
    (s s' : StateInfo) (vs : OMap ValidatorInfo) (h1 : s.earliestExitEpoch = s'.earliestExitEpoch)
    (h2 : s.earliestConsolidationEpoch = s'.earliestConsolidationEpoch) :
    validateStatePatches X spec patches trusted s vs = validateStatePatches X spec patches trusted s' vs := by
  unfold validateStatePatches
  rw [h1, h2]

theorem fx_present : present fxHost.decompress gxVs gxC3.epoch = exActive := by decide +kernel

theorem fx_accepted : validateStatePatches exExt exSpec gxPatches gxC3 (stateInfo exExt gxState)
    (present fxHost.decompress gxVs gxC3.epoch) = .ok () := by
  rw [fx_present, ← gxInput_patches]
  exact validateStatePatches_congr _ _ _ _ _ _ _ rfl rfl

/-! ## Two exit queues -/

/-- At epoch 6 validator 8 is to exit at epoch 12. -/
def fyVs6 : List Validator := gxVs.set 8 ⟨exExt.pkSerialize [108], exRoot32 1, 32, false, 0, 0, 12, 12⟩

/-- During epoch 6 validator 7 has initiated its exit, at epoch 11, the first that is possible. -/
def fyVs7 : List Validator := fyVs6.set 7 ⟨exExt.pkSerialize [107], exRoot32 1, 32, false, 0, 0, 11, 11⟩

/-- The states of epochs 3, 6 and 7. -/
def fyProvider (slot : Nat) : Res ProviderError HostState :=
  if slot = 12 then .ok (fxState 12 gxVs)
  else if slot = 24 then .ok (fxState 24 fyVs6)
  else if slot = 28 then .ok (fxState 28 fyVs7)
  else .err (.notFound slot)

def fyHost : HostReader where
  spec := exSpec
  provider := fyProvider
  genesisRoot := .ok (exRoot32 77)
  headers root := .ok (if root = gxHdr6.tree.root exExt then some gxHdr6 else none)
  decompress pk := some (pk ++ List.replicate 48 0)
  consensusState := ⟨exC4, gxC3⟩
  attestations := gxVotes

theorem fy_trusted : TrustedState exExt fyHost gxC3 (fxState 12 gxVs) where
  found := by
    have h1 : stateAtEpochBoundary (hostStateOps exExt) fyHost.spec.slotsPerEpoch fyHost.provider gxC3.epoch =
        .ok (fxState 12 gxVs) := rfl
    unfold stateAtCheckpoint
    rw [h1, Res.ok_bind]
    have h2 : ({ (hostStateOps exExt).latestBlockHeader (fxState 12 gxVs) with
        stateRoot := (hostStateOps exExt).hashTreeRoot (fxState 12 gxVs) } : Header) = gxHdr := fx_filled
    dsimp only at h2 ⊢
    rw [h2]
    simp [gxC3, ensure]
  start := rfl
  wf := gxState_wf
  header_wf := by rw [fx_filled]; exact gxHdr_wf
  fork := by decide
  slots_per_epoch := by decide
  finalized_past := by decide
  justified := by decide
  small := by decide
  far := by decide
  keys := fx_trusted.keys

theorem fy_state_cases {e : Nat} {s : HostState} (h : fyHost.state e = .ok s) :
    (e = 3 ∧ s = fxState 12 gxVs) ∨ (e = 6 ∧ s = fxState 24 fyVs6) ∨ (e = 7 ∧ s = fxState 28 fyVs7) := by
  have h : fyProvider (satMul e 4) = .ok s := Res.mapErr_eq_ok.1 h
  unfold fyProvider at h
  have hs : ∀ n, n < 100 → satMul e 4 = n → e * 4 = n := by
    intro n hn hm
    unfold satMul at hm
    have : (2 : Nat) ^ 64 = 18446744073709551616 := by norm_num
    omega
  split at h
  · rename_i h12
    cases h
    exact Or.inl ⟨by have := hs 12 (by omega) h12; omega, rfl⟩
  · split at h
    · rename_i h24
      cases h
      exact Or.inr (Or.inl ⟨by have := hs 24 (by omega) h24; omega, rfl⟩)
    · split at h
      · rename_i h28
        cases h
        exact Or.inr (Or.inr ⟨by have := hs 28 (by omega) h28; omega, rfl⟩)
      · simp at h

theorem fy_consistent : Consistent exExt fyHost gxC3 (fxState 12 gxVs) fxQueries where
  states := by
    intro e s _ hs
    have hreg : registryOf fyHost.spec (fxState 12 gxVs).beacon fyHost.consensusState = gxVs := fx_registry
    rw [hreg]
    apply continues_of_check
    rcases fy_state_cases hs with ⟨rfl, rfl⟩ | ⟨rfl, rfl⟩ | ⟨rfl, rfl⟩ <;> decide +kernel
  headers := fx_consistent.headers
  genesis := rfl
  forks := by
    intro e s hs
    rcases fy_state_cases hs with ⟨rfl, rfl⟩ | ⟨rfl, rfl⟩ | ⟨rfl, rfl⟩ <;> rfl

theorem fy_log : preflightRun gxC3.epoch fyHost .empty fxQueries = .ok fxLog := by decide +kernel

theorem fy_active : ∃ a, fyHost.activeValidators gxC3.epoch = .ok a := by
  have h : fyHost.activeValidators gxC3.epoch = .ok exActive := by decide +kernel
  exact ⟨_, h⟩

/-- The host's reader is accepted by `verify`. -/
theorem fy_verifies : verify exExt Config.default fyHost.toReader = .ok (⟨exC7, gxC6⟩, 24) := by decide +kernel

def fyPatches : OMap StatePatch :=
  [(6, ⟨[(4, exRoot32 1)], [(8, 12)]⟩), (7, ⟨[(5, exRoot32 1)], [(7, 11), (8, 12)]⟩)]

theorem fy_patches_computed : (do
    let b1 ← mixPatches fyHost fxLog.mixEpochs []
    let b2 ← exitPatches fyHost gxC3.epoch gxVs fxLog.validatorEpochs b1
    return b2.map (fun (epoch, b) => (epoch, b.patch)) : Res PreflightError _) = .ok fyPatches := by
  decide +kernel

theorem fy_patches {b1 b2 : OMap PatchBuilder} (h1 : mixPatches fyHost fxLog.mixEpochs [] = .ok b1)
    (h2 : exitPatches fyHost gxC3.epoch gxVs fxLog.validatorEpochs b1 = .ok b2) :
    b2.map (fun (epoch, b) => (epoch, b.patch)) = fyPatches := by
  have h := fy_patches_computed
  rw [h1, Res.ok_bind, h2, Res.ok_bind] at h
  exact Res.ok.inj h

theorem fy_present : present fyHost.decompress gxVs gxC3.epoch = exActive := by decide +kernel

theorem fy_rejected' : validateStatePatches exExt exSpec fyPatches gxC3
    ⟨exRoot32 77, 12, ⟨[4, 0, 0, 0], [5, 0, 0, 0], 3⟩, zeroRoot, 1, 9, 8⟩ exActive = .panic := by decide +kernel

theorem fy_rejected : validateStatePatches exExt exSpec fyPatches gxC3 (stateInfo exExt gxState)
    (present fyHost.decompress gxVs gxC3.epoch) = .panic := by
  rw [fy_present, ← fy_rejected']
  exact validateStatePatches_congr _ _ _ _ _ _ _ rfl rfl

end Signal
