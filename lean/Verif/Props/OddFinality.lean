import Verif.Props.Program

/-! # C66 and C67: why chaining needs a node that reports no epoch final before it is over

The chaining theorems ask that the node keeps to its answers and that no answer for the start of epoch `e` already calls epoch `e` final
(`SteadyView`). The second condition is not idle. The node below always gives the same answers, and every round succeeds and is accepted by
the guest, but for the start of epoch 6 it already says that epoch 6 is final. The search for the next state meets that answer; the search
for the start of the next round begins at epoch 7 and does not. -/

namespace Signal
open Spec Wire Program

/-- The node: epoch 6 is final at the start of epoch 6, which no chain can report. -/
def oddAsk : StateAnswers := fun slot =>
  if slot < 16 then .err .node
  else if slot < 20 then .ok ⟨exC4, gxC3⟩
  else if slot < 24 then .ok ⟨gxC6, gxC3⟩
  else if slot < 28 then .ok ⟨exC7, gxC6⟩
  else if slot < 44 then .ok ⟨fpC9, gxC6⟩
  else if slot < 48 then .ok ⟨fpC10, fpC9⟩
  else .err .node

def oddWorld1 : World := { fpWorld1 with find := oddAsk, walk := oddAsk }
def oddWorld2 : World := { fpWorld2 with find := oddAsk, walk := oddAsk }

def oddVotes : List Attestation := fpVotes.drop 4

set_option maxRecDepth 100000 in
theorem odd_search1 : hostSearch exSpec.slotsPerEpoch oddAsk oddAsk fpBlocks gxC3 9 =
    some (.ok (⟨exC4, gxC3⟩, ⟨exC7, gxC6⟩, [⟨exC4, gxC6⟩, ⟨gxC6, exC7⟩], gxVotes)) := by decide +kernel

set_option maxRecDepth 100000 in
theorem odd_search2 : hostSearch exSpec.slotsPerEpoch oddAsk oddAsk fpBlocks gxC6 9 =
    some (.ok (⟨fpC9, gxC6⟩, ⟨fpC10, fpC9⟩, [⟨fpC9, fpC10⟩], oddVotes)) := by decide +kernel

theorem odd_checkpoint1 : trustedCheckpoint exExt exSpec oddWorld1 3 = .ok gxC3 := fp_checkpoint1

theorem odd_checkpoint2 : trustedCheckpoint exExt exSpec oddWorld2 6 = .ok gxC6 := fp_checkpoint2

theorem odd_prepared1 : ∃ input, prepare fpWire exExt id exSpec Config.default 9 oddWorld1 3 =
      some (.ok ⟨encodeInput fpWire input, ⟨exC4, gxC3⟩, ⟨exC7, gxC6⟩, 24⟩) := by
  obtain ⟨input, hp, -⟩ := fx_same_journal
  have hp : preflight exExt id Config.default fxHost gxC3 = .ok (input, ⟨exC4, gxC3⟩, ⟨exC7, gxC6⟩, 24) := hp
  exact ⟨input, prepare_of odd_checkpoint1 odd_search1 hp⟩

def oddHost2 : HostReader := oddWorld2.reader exSpec ⟨fpC9, gxC6⟩ oddVotes

theorem odd_trusted : TrustedState exExt oddHost2 gxC6 fpState6 where
  found := fp_trusted.found
  start := rfl
  wf := fp_trusted.wf
  header_wf := fp_trusted.header_wf
  fork := by decide
  slots_per_epoch := by decide
  finalized_past := by decide
  justified := by decide
  small := by decide
  far := by decide
  keys := fp_trusted.keys

theorem odd_registry : registryOf exSpec gxState ⟨fpC9, gxC6⟩ = gxVs := by decide +kernel

theorem odd_state_cases {e : Nat} {s : HostState} (h : oddHost2.state e = .ok s) :
    (e = 6 ∧ s = fpState6) ∨ (e = 9 ∧ s = fxState 36 gxVs) ∨ (e = 10 ∧ s = fxState 40 gxVs) := fp_state_cases h

theorem odd_consistent (queries : List Query) : Consistent exExt oddHost2 gxC6 fpState6 queries where
  states := by
    intro e s _ hs
    have hreg : registryOf oddHost2.spec fpState6.beacon oddHost2.consensusState = gxVs := odd_registry
    rw [hreg]
    apply continues_of_check
    rcases odd_state_cases hs with ⟨rfl, rfl⟩ | ⟨rfl, rfl⟩ | ⟨rfl, rfl⟩ <;> decide +kernel
  headers := by
    intro root h hh
    have hh : (if root = fpHdr9.tree.root exExt then some fpHdr9 else none) = some h := Res.ok.inj hh
    split at hh
    · rename_i hr
      cases hh
      exact ⟨fpHdr9_wf, hr.symm⟩
    · simp at hh
  genesis := rfl
  forks := by
    intro e s hs
    rcases odd_state_cases hs with ⟨rfl, rfl⟩ | ⟨rfl, rfl⟩ | ⟨rfl, rfl⟩ <;> rfl

set_option maxRecDepth 100000 in
theorem odd_verifies : verify exExt Config.default oddHost2.toReader = .ok (⟨fpC10, fpC9⟩, 36) := by decide +kernel

theorem odd_active : ∃ a, oddHost2.activeValidators gxC6.epoch = .ok a := by
  have h : oddHost2.activeValidators gxC6.epoch = .ok exActive := by decide +kernel
  exact ⟨_, h⟩

theorem odd_prepared2 : ∃ input, prepare fpWire exExt id exSpec Config.default 9 oddWorld2 6 =
      some (.ok ⟨encodeInput fpWire input, ⟨fpC9, gxC6⟩, ⟨fpC10, fpC9⟩, 36⟩) := by
  obtain ⟨input, hp⟩ := C61_preflight_succeeds exExt id (fun l => List.Perm.refl l) (by decide) odd_trusted odd_verifies
    (odd_consistent _) odd_active
  have hp : preflight exExt id Config.default oddHost2 gxC6 = .ok (input, ⟨fpC9, gxC6⟩, ⟨fpC10, fpC9⟩, 36) := hp
  exact ⟨input, prepare_of odd_checkpoint2 odd_search2 hp⟩

/-! Both worlds are quiet. -/

theorem odd_only1 (e : Nat) (r : HostReader) (t : Checkpoint) (h : ReaderFor exExt exSpec 9 oddWorld1 e r t) :
    e = 3 ∧ r = fxHost ∧ t = gxC3 := by
  obtain ⟨h1, state, next, links, atts, h2, rfl⟩ := h
  obtain ⟨st, b, h3, h4⟩ := trustedCheckpoint_parts h1
  obtain ⟨s, h5⟩ := stateAtEpochBoundary_some h3
  have h5 : fxHost.state e = .ok s := Res.mapErr_eq_ok.2 h5
  rcases fx_state_cases h5 with ⟨rfl, -⟩ | ⟨rfl, -⟩ | ⟨rfl, -⟩
  · rw [odd_checkpoint1] at h1
    cases h1
    have := h2.symm.trans odd_search1
    simp only [Option.some.injEq, Res.ok.injEq, Prod.mk.injEq] at this
    obtain ⟨rfl, -, -, rfl⟩ := this
    exact ⟨rfl, rfl, rfl⟩
  · have : st = fxState 24 fxVs := (Res.ok.inj (Eq.trans rfl h3 : Res.ok (fxState 24 fxVs) = Res.ok st)).symm
    subst this
    exact absurd (Res.ok.inj (Eq.trans rfl h4 : Res.ok none = Res.ok (some b))) (by simp)
  · have : st = fxState 28 fxVs := (Res.ok.inj (Eq.trans rfl h3 : Res.ok (fxState 28 fxVs) = Res.ok st)).symm
    subst this
    exact absurd (Res.ok.inj (Eq.trans rfl h4 : Res.ok none = Res.ok (some b))) (by simp)

theorem odd_only2 (e : Nat) (r : HostReader) (t : Checkpoint) (h : ReaderFor exExt exSpec 9 oddWorld2 e r t) :
    e = 6 ∧ r = oddHost2 ∧ t = gxC6 := by
  obtain ⟨h1, state, next, links, atts, h2, rfl⟩ := h
  obtain ⟨st, b, h3, h4⟩ := trustedCheckpoint_parts h1
  obtain ⟨s, h5⟩ := stateAtEpochBoundary_some h3
  have h5 : oddHost2.state e = .ok s := Res.mapErr_eq_ok.2 h5
  rcases odd_state_cases h5 with ⟨rfl, -⟩ | ⟨rfl, -⟩ | ⟨rfl, -⟩
  · rw [odd_checkpoint2] at h1
    cases h1
    have := h2.symm.trans odd_search2
    simp only [Option.some.injEq, Res.ok.injEq, Prod.mk.injEq] at this
    obtain ⟨rfl, -, -, rfl⟩ := this
    exact ⟨rfl, rfl, rfl⟩
  · have : st = fxState 36 gxVs := (Res.ok.inj (Eq.trans rfl h3 : Res.ok (fxState 36 gxVs) = Res.ok st)).symm
    subst this
    exact absurd (Res.ok.inj (Eq.trans rfl h4 : Res.ok none = Res.ok (some b))) (by simp)
  · have : st = fxState 40 gxVs := (Res.ok.inj (Eq.trans rfl h3 : Res.ok (fxState 40 gxVs) = Res.ok st)).symm
    subst this
    exact absurd (Res.ok.inj (Eq.trans rfl h4 : Res.ok none = Res.ok (some b))) (by simp)

theorem odd_quiet1 (e : Nat) : QuietWorld fpWire exExt id exSpec Config.default 9 oddWorld1 e := by
  refine quietWorld_of odd_only1 rfl rfl fx_trusted ?_ ?_ ?_ ?_ ?_ ?_ ?_ e
  · intro post slot h
    rw [fx_verifies] at h
    cases h
    have e : verifyQueries exExt exSpec fxHost.attestations gxC6.root = fxQueries := fx_queries
    rw [e]
    exact fx_consistent
  · have h6 : fxHost.activeValidators 6 = .ok (exActive.set 8 (8, { exVal 8 with exitEpoch := 9 })) := by decide +kernel
    have h7 : fxHost.activeValidators 7 = .ok (exActive.set 8 (8, { exVal 8 with exitEpoch := 9 })) := by decide +kernel
    have h : ∀ a ∈ fxHost.attestations, a.data.target.epoch = 6 ∨ a.data.target.epoch = 7 := by decide +kernel
    intro a ha
    refine ⟨exActive.set 8 (8, { exVal 8 with exitEpoch := 9 }), ?_, by decide, by decide⟩
    rcases h a ha with h | h
    · rw [h, h6]
    · rw [h, h7]
  · exact ⟨fx_wf.mixes, fx_wf.exits, fx_wf.keys, fx_wf.state,
      fun a ha => (fpAll_table (List.mem_append_left _ ha)).1⟩
  · rw [fxState_beacon]
    decide
  · decide
  · exact fun a _ s hs i v w hvi hwi => fx_balances s hs i v w hvi hwi
  · obtain ⟨input, hp, hj⟩ := fx_same_journal
    obtain ⟨reader, _, _, hr, _⟩ := guestEntry_eq_ok hj
    exact ⟨input, _, reader, hp, hr⟩

theorem odd_quiet2 (e : Nat) : QuietWorld fpWire exExt id exSpec Config.default 9 oddWorld2 e := by
  refine quietWorld_of odd_only2 rfl rfl odd_trusted ?_ ?_ ?_ ?_ ?_ ?_ ?_ e
  · intro post slot _
    exact odd_consistent _
  · have h7 : oddHost2.activeValidators 10 = .ok exActive := by decide +kernel
    have h : ∀ a ∈ oddHost2.attestations, a.data.target.epoch = 10 := by decide +kernel
    intro a ha
    refine ⟨exActive, ?_, by decide, by decide⟩
    rw [h a ha, h7]
  · have hx : ∀ v ∈ gxVs, v.exitEpoch < 2 ^ 64 := by decide +kernel
    have hk : ∀ v ∈ gxVs, (v.pubkey ++ List.replicate 48 0).length = 96 := by decide +kernel
    refine ⟨?_, ?_, ?_, ⟨⟨by decide, exExt.sha256_length _⟩, ⟨by decide, exExt.sha256_length _⟩⟩,
      fun a ha => (fpAll_table (List.mem_append_right _ (List.mem_of_mem_drop ha))).1⟩
    · intro slot s hs x hx
      have : x = exRoot32 1 := by
        rcases fp_provided hs with rfl | rfl | rfl <;> exact List.eq_of_mem_replicate hx
      rw [this]
      decide
    · intro slot s hs
      rw [fp_validators (fp_provided hs)]
      exact hx
    · intro slot s hs v hv k hk'
      rw [fp_validators (fp_provided hs)] at hv
      have hk' : some (v.pubkey ++ List.replicate 48 0) = some k := hk'
      cases hk'
      exact ⟨hk v hv, rfl⟩
  · rw [fp_beacon6]
    decide
  · decide
  · intro a _ s hs i v w hvi hwi
    have h : s.beacon.validators = gxVs := by
      rcases odd_state_cases hs with ⟨-, rfl⟩ | ⟨-, rfl⟩ | ⟨-, rfl⟩ <;> rfl
    rw [fp_beacon6] at hvi
    have hvi : gxVs[i]? = some v := hvi
    rw [h, hvi] at hwi
    cases hwi
    rfl
  · have hreg : registryOf oddHost2.spec fpState6.beacon oddHost2.consensusState = gxVs := odd_registry
    have hpres : present oddHost2.decompress gxVs gxC6.epoch = exActive := by decide +kernel
    have htot : totalWeight ((present oddHost2.decompress (registryOf oddHost2.spec fpState6.beacon
        oddHost2.consensusState) gxC6.epoch).filter (fun x => x.2.isActiveAt gxC6.epoch)) = 320 := by
      rw [hreg, hpres]; decide +kernel
    obtain ⟨input, hp, hj⟩ := C61_quiet_period (ε := Unit) exExt id (fun l => List.Perm.refl l) (by decide) odd_trusted odd_verifies
      (odd_consistent _) odd_active (by decide) (by decide) 320 htot.symm (by decide) (by decide) (by
        intro a _ s hs i v w hvi hwi
        have h : s.beacon.validators = gxVs := by
          rcases odd_state_cases hs with ⟨-, rfl⟩ | ⟨-, rfl⟩ | ⟨-, rfl⟩ <;> rfl
        rw [fp_beacon6] at hvi
        have hvi : gxVs[i]? = some v := hvi
        rw [h, hvi] at hwi
        cases hwi
        exact ⟨rfl, fun _ => rfl⟩)
    obtain ⟨reader, _, _, hr, _⟩ := guestEntry_eq_ok hj
    exact ⟨input, _, reader, hp, hr⟩

/-! ## The witnesses -/

def oddPasses : List Pass := [⟨.ok 3, oddWorld1⟩, ⟨.ok 6, oddWorld1⟩, ⟨.ok 9, oddWorld2⟩]

/-- **C66.** A node that always answers alike and whose every epoch the guest accepts, yet the files of two successive rounds do not form a
chain: the journal of the second starts from a state that is not the one at which the journal of the first ends. -/
theorem C66_early_finality : ∃ (W : WireExt) (X : Ext) (order : List Nat → List Nat) (spec : ChainSpec) (cfg : Config) (bound : Nat)
    (ask : StateAnswers) (passes : List Pass) (epoch e1 e2 : Nat) (p1 p2 : Prepared),
    WireLaws W ∧
    (∀ pass ∈ passes, pass.world.find = ask ∧ pass.world.walk = ask) ∧
    (∀ pass ∈ passes, ∀ e, QuietWorld W X order spec cfg bound pass.world e) ∧
    (buildLoop W X order spec cfg bound true epoch passes).1 = roundOps e1 p1 ++ roundOps e2 p2 ∧
    p1.post.finalized = p2.pre.finalized ∧ p2.pre ≠ p1.post := by
  obtain ⟨input1, h1⟩ := odd_prepared1
  obtain ⟨input2, h2⟩ := odd_prepared2
  refine ⟨fpWire, exExt, id, exSpec, Config.default, 9, oddAsk, oddPasses, 3, 3, 6, ⟨encodeInput fpWire input1, ⟨exC4, gxC3⟩, ⟨exC7, gxC6⟩, 24⟩,
    ⟨encodeInput fpWire input2, ⟨fpC9, gxC6⟩, ⟨fpC10, fpC9⟩, 36⟩, fpWire_laws, ?_, ?_,
    two_passes (by decide) (by decide) (show ¬9 < (gxC6.epoch + 1) % U64 by decide) h1 h2, rfl, ?_⟩
  · intro pass hp
    simp only [oddPasses, List.mem_cons, List.not_mem_nil, or_false] at hp
    rcases hp with rfl | rfl | rfl <;> exact ⟨rfl, rfl⟩
  · intro pass hp
    simp only [oddPasses, List.mem_cons, List.not_mem_nil, or_false] at hp
    rcases hp with rfl | rfl | rfl
    · exact odd_quiet1
    · exact odd_quiet1
    · exact odd_quiet2
  · intro h
    have : (9 : Nat) = 7 := congrArg (fun s : ConsensusState => s.currentJustified.epoch) h
    omega

/-- **C67.** With the same node the log of `sync` says `Ok` for a line whose first state is not the state from which the guest started. -/
theorem C67_early_finality : ∃ (W : WireExt) (X Xg : Ext) (order : List Nat → List Nat) (spec : ChainSpec) (cfg : Config)
    (bound : Nat) (ask : StateAnswers) (initial : ConsensusState) (w1 w2 : World) (line1 line2 : LogLine) (p : Prepared),
    (∀ w ∈ [w1, w2], w.find = ask ∧ w.walk = ask ∧ ∀ e, QuietWorld W X order spec cfg bound w e) ∧
    (syncLoop W X Xg order spec cfg bound true initial [w1, w2]).1 = [line1, line2] ∧ line1.message = .ok ∧ line2.message = .ok ∧
    prepare W X order spec cfg bound w2 line2.before.finalized.epoch = some (.ok p) ∧
    (guestMain W Xg spec cfg (Frame.encodeInputStdin p.inputBytes) : Res Unit Bytes) =
      .ok (Abi.encodeJournal p.pre p.post p.finalizedSlot) ∧
    p.pre ≠ line2.before := by
  obtain ⟨input1, h1⟩ := odd_prepared1
  obtain ⟨input2, h2⟩ := odd_prepared2
  have hword : exExt.usizeMod = 2 ^ 32 := rfl
  have k1 := (quiet_accepted fpWire fpWire_laws exExt id (fun l => List.Perm.refl l) (by decide) 126 (by rw [hword]; norm_num)
    (by rw [hword]) (by decide) exExt_keepsLength fpWire_bits exSpec Config.default (by decide) 9 (odd_quiet1 3) h1).1 true
  have k2 := quiet_accepted fpWire fpWire_laws exExt id (fun l => List.Perm.refl l) (by decide) 126 (by rw [hword]; norm_num)
    (by rw [hword]) (by decide) exExt_keepsLength fpWire_bits exSpec Config.default (by decide) 9 (odd_quiet2 6) h2
  obtain ⟨k2, k3⟩ := k2
  have k2 := k2 true
  refine ⟨fpWire, exExt, onMachine exExt (2 ^ 32) 126, id, exSpec, Config.default, 9, oddAsk, ⟨exC4, gxC3⟩, oddWorld1, oddWorld2,
    ⟨⟨exC4, gxC3⟩, ⟨exC7, gxC6⟩, .ok⟩, ⟨⟨exC7, gxC6⟩, ⟨fpC10, fpC9⟩, .ok⟩, _, ?_, ?_, rfl, rfl, h2, k3 Unit, ?_⟩
  · intro w hw
    simp only [List.mem_cons, List.not_mem_nil, or_false] at hw
    rcases hw with rfl | rfl
    · exact ⟨rfl, rfl, odd_quiet1⟩
    · exact ⟨rfl, rfl, odd_quiet2⟩
  · have e3 : (⟨exC4, gxC3⟩ : ConsensusState).finalized.epoch = 3 := rfl
    have e6 : (⟨exC7, gxC6⟩ : ConsensusState).finalized.epoch = 6 := rfl
    rw [syncLoop, e3, h1]
    dsimp only at k1 k2 ⊢
    rw [k1]
    dsimp only
    rw [syncLoop, e6, h2]
    dsimp only
    rw [k2]
    simp only [ne_eq, not_true_eq_false, if_false, syncLoop]
  · intro h
    have : (9 : Nat) = 7 := congrArg (fun s : ConsensusState => s.currentJustified.epoch) h
    omega

end Signal
