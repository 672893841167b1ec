import Verif.Props.Safety
import Verif.Props.OneView

/-!
# C107: conflicting journals from one trusted state, whatever is behind its root
-/

namespace Signal
open Spec

/-- The balance of a validator in two sets of which each may lack it. -/
def balanceIn (m m' : OMap ValidatorInfo) (i : Nat) : Nat := max (balance m i) (balance m' i)

/-- Both sets have the validator, with the same key and balance. -/
def InBoth (X : Ext) (m m' : OMap ValidatorInfo) (i : Nat) : Prop := ∃ a b, m.get? i = some a ∧ m'.get? i = some b ∧ SameValidator X a b

theorem balanceIn_left {X : Ext} {t : Nat} {m m' : OMap ValidatorInfo} (h : SameRegistry X t m m') {i : Nat} (hi : i ∈ m.keys) : balanceIn m m' i = balance m i := by
  obtain ⟨a, ha⟩ := OMap.mem_keys_iff.1 hi
  cases hb : m'.get? i with
  | none => simp [balanceIn, balance, ha, hb]
  | some b => simp [balanceIn, balance, ha, hb, ((h i).1 a b ha hb).effectiveBalance]

theorem balanceIn_right {X : Ext} {t : Nat} {m m' : OMap ValidatorInfo} (h : SameRegistry X t m m') {i : Nat} (hi : i ∈ m'.keys) : balanceIn m m' i = balance m' i := by
  obtain ⟨b, hb⟩ := OMap.mem_keys_iff.1 hi
  cases ha : m.get? i with
  | none => simp [balanceIn, balance, ha, hb]
  | some a => simp [balanceIn, balance, ha, hb, ((h i).1 a b ha hb).effectiveBalance]

theorem active_keys {r : GuestReader} {e i : Nat} (hi : i ∈ (r.activeValidators e).keys) : i ∈ r.validators.keys := by
  simp only [OMap.keys, List.mem_map] at hi ⊢
  obtain ⟨x, hx, rfl⟩ := hi
  exact ⟨x, (List.mem_filter.1 hx).1, rfl⟩

theorem signed_known {X : Ext} {r : GuestReader} (hs : r.validators.Sorted) {atts : List Attestation} {link : Link} {i : Nat} (h : Signed X r.toReader atts link i) :
    ∃ a, r.validators.get? i = some a := by
  obtain ⟨l, hl, b, -, -, signers, hi, hv⟩ := h
  simp only [GuestReader.toReader, Res.ok.injEq] at hl
  subst hl
  obtain ⟨v, hg⟩ := hv.signers_active i hi
  have hsf : OMap.Sorted (r.activeValidators link.target.epoch) := OMap.sorted_filter hs _
  rw [OMap.ofList_sorted hsf] at hg
  exact OMap.mem_keys_iff.1 (active_keys (OMap.mem_keys_iff.2 ⟨v, hg⟩))

theorem intoReader_fields {X : Ext} {spec : ChainSpec} {input : GuestInput} {r : GuestReader} (hr : input.intoReader X spec = .ok r) :
    r.spec = spec ∧ r.consensusState = input.consensusState ∧ r.attestations = input.attestations := by
  unfold GuestInput.intoReader at hr
  simp only [Res.bind_eq_ok, Res.pure_eq, Res.ok.injEq] at hr
  obtain ⟨_, -, _, -, _, -, _, -, _, -, _, -, _, -, _, -, _, -, _, -, _, -, rfl⟩ := hr
  exact ⟨rfl, rfl, rfl⟩

theorem counts_common {X : Ext} {t : Nat} {r r' : GuestReader} (h : SameRegistry X t r.validators r'.validators) (hs : r.validators.Sorted) (hs' : r'.validators.Sorted) :
    CountsWith r.toReader (fun e => (r.activeValidators e).keys) (balanceIn r.validators r'.validators) ∧
    CountsWith r'.toReader (fun e => (r'.activeValidators e).keys) (balanceIn r.validators r'.validators) := by
  constructor
  · intro e l hl
    obtain ⟨h1, h2⟩ := guest_countsWith r hs e l hl
    exact ⟨h1, fun i hi => by rw [h2 i hi, balanceIn_left h (active_keys hi)]⟩
  · intro e l hl
    obtain ⟨h1, h2⟩ := guest_countsWith r' hs' e l hl
    exact ⟨h1, fun i hi => by rw [h2 i hi, balanceIn_right h (active_keys hi)]⟩

/-- **C107.** If two accepted inputs for one trusted state finalize checkpoints of which neither is an ancestor of the other, then there are two links, voted for in the one and in
the other input, which form a slashable pair, and validators, known to both with one key and balance, who signed votes for both, of at least the weight `2/3 W + 2/3 W' - U`,
where `W`, `W'` are the balances counted as active at the two target epochs and `U` the balance of the validators active at either. Unlike in `C41_accountable_safety_partial` no
block, state or registry behind the trusted root is assumed, and the trusted epoch, the lookahead and the two thresholds are arbitrary. Missing: proofs of 64 or more levels, and
active balances of at most one and a half increments (`C41_fails_below_floor`). -/
theorem C107_convicts_partial (X : Ext) {spec : ChainSpec} {cfg cfg' : Config} {input input' : GuestInput} {r r' : GuestReader} {post post' : ConsensusState} {slot slot' : Nat}
    (hr : input.intoReader X spec = .ok r) (hr' : input'.intoReader X spec = .ok r')
    (hv : verify X cfg r.toReader = .ok (post, slot)) (hv' : verify X cfg' r'.toReader = .ok (post', slot')) (htrust : input'.consensusState = input.consensusState)
    (hc : NoCollisionBetween X input.beaconBlock input'.beaconBlock ∧ NoCollisionBetween X input.beaconState input'.beaconState ∧
      NoCollisionBetween X input.activeValidators input'.activeValidators)
    (hw : ∀ p ∈ [input.beaconBlock, input.beaconState, input.activeValidators, input'.beaconBlock, input'.beaconState, input'.activeValidators], NoWrap p)
    (hbig : ∀ a ∈ input.attestations, 3 * spec.effectiveBalanceIncrement <
      2 * sumOf (balanceIn r.validators r'.validators) (r.activeValidators a.data.target.epoch).keys)
    (hbig' : ∀ a ∈ input'.attestations, 3 * spec.effectiveBalanceIncrement <
      2 * sumOf (balanceIn r.validators r'.validators) (r'.activeValidators a.data.target.epoch).keys)
    (anc : Checkpoint → Checkpoint → Prop) (hanc : Ancestry anc (input.attestations ++ input'.attestations))
    (hconf : ¬ anc post.finalized post'.finalized) (hconf' : ¬ anc post'.finalized post.finalized) :
    ∃ link link' : Link, (∃ a ∈ input.attestations, linkOf a = link) ∧ (∃ a ∈ input'.attestations, linkOf a = link') ∧ Slashable link link' ∧
      ∃ offenders : List Nat, offenders.Nodup ∧
      (∀ i ∈ offenders, Signed X r.toReader input.attestations link i ∧ Signed X r'.toReader input'.attestations link' i ∧
        InBoth X r.validators r'.validators i) ∧
      let bal := balanceIn r.validators r'.validators
      2 * sumOf bal (r.activeValidators link.target.epoch).keys + 2 * sumOf bal (r'.activeValidators link'.target.epoch).keys ≤
        3 * sumOf bal offenders + 3 * sumOf bal (union (r.activeValidators link.target.epoch).keys (r'.activeValidators link'.target.epoch).keys) := by
  obtain ⟨-, hsame⟩ := C106_view_partial X hr hr' htrust hc hw
  have hs := intoReader_sorted hr
  have hs' := intoReader_sorted hr'
  obtain ⟨c1, c2⟩ := counts_common hsame hs hs'
  obtain ⟨e1, e2, e3⟩ := intoReader_fields hr
  obtain ⟨f1, f2, f3⟩ := intoReader_fields hr'
  have g1 : r.toReader.spec = spec := e1
  have g2 : r'.toReader.spec = spec := f1
  obtain ⟨l, l', k1, k2, k3, off, k4, k5, k6⟩ := C41_runs_partial X cfg cfg' r.toReader r'.toReader post post' slot slot' hv hv'
    (by show Res.ok r.consensusState = .ok r'.consensusState; rw [e2, f2, htrust]) _ _ _ c1 c2 input.attestations input'.attestations
    (by show Res.ok r.attestations = _; rw [e3]) (by show Res.ok r'.attestations = _; rw [f3]) (by rw [g1]; exact hbig) (by rw [g2]; exact hbig') anc hanc hconf hconf'
  refine ⟨l, l', k1, k2, k3, off, k4, fun i hi => ?_, k6⟩
  obtain ⟨s1, s2⟩ := k5 i hi
  obtain ⟨a, ha⟩ := signed_known hs s1
  obtain ⟨b, hb⟩ := signed_known hs' s2
  exact ⟨s1, s2, a, b, ha, hb, (hsame i).1 a b ha hb⟩

/-- **C107** when the same validators count as active at all target epochs: the offenders hold at least a third of their balance. -/
theorem C107_one_third_partial (X : Ext) {spec : ChainSpec} {cfg cfg' : Config} {input input' : GuestInput} {r r' : GuestReader} {post post' : ConsensusState} {slot slot' : Nat}
    (hr : input.intoReader X spec = .ok r) (hr' : input'.intoReader X spec = .ok r')
    (hv : verify X cfg r.toReader = .ok (post, slot)) (hv' : verify X cfg' r'.toReader = .ok (post', slot')) (htrust : input'.consensusState = input.consensusState)
    (hc : NoCollisionBetween X input.beaconBlock input'.beaconBlock ∧ NoCollisionBetween X input.beaconState input'.beaconState ∧
      NoCollisionBetween X input.activeValidators input'.activeValidators)
    (hw : ∀ p ∈ [input.beaconBlock, input.beaconState, input.activeValidators, input'.beaconBlock, input'.beaconState, input'.activeValidators], NoWrap p)
    (set : List Nat) (hset : ∀ a ∈ input.attestations, (r.activeValidators a.data.target.epoch).keys = set)
    (hset' : ∀ a ∈ input'.attestations, (r'.activeValidators a.data.target.epoch).keys = set)
    (hbig : 3 * spec.effectiveBalanceIncrement < 2 * sumOf (balance r.validators) set)
    (anc : Checkpoint → Checkpoint → Prop) (hanc : Ancestry anc (input.attestations ++ input'.attestations))
    (hconf : ¬ anc post.finalized post'.finalized) (hconf' : ¬ anc post'.finalized post.finalized) :
    ∃ link link' : Link, (∃ a ∈ input.attestations, linkOf a = link) ∧ (∃ a ∈ input'.attestations, linkOf a = link') ∧ Slashable link link' ∧
      ∃ offenders : List Nat, offenders.Nodup ∧
      (∀ i ∈ offenders, Signed X r.toReader input.attestations link i ∧ Signed X r'.toReader input'.attestations link' i ∧
        InBoth X r.validators r'.validators i) ∧
      sumOf (balance r.validators) set ≤ 3 * sumOf (balance r.validators) offenders := by
  obtain ⟨-, hsame⟩ := C106_view_partial X hr hr' htrust hc hw
  have hsum : ∀ l : List Nat, (∀ i ∈ l, i ∈ r.validators.keys) → sumOf (balanceIn r.validators r'.validators) l = sumOf (balance r.validators) l := by
    intro l hl
    unfold sumOf
    rw [List.map_congr_left (fun i hi => balanceIn_left hsame (hl i hi))]
  have hkeys : ∀ a ∈ input.attestations, ∀ i ∈ set, i ∈ r.validators.keys := fun a ha i hi => active_keys (hset a ha ▸ hi)
  have hkeys2 : (∃ a, a ∈ input.attestations) → sumOf (balanceIn r.validators r'.validators) set = sumOf (balance r.validators) set := fun ⟨a, ha⟩ => hsum _ (hkeys a ha)
  have hne : ∃ a, a ∈ input.attestations := by
    obtain ⟨p, as, links, k1, k2, k3, k4, k5, -⟩ := C09_exactly_one_finalization X cfg r.toReader post slot hv
    have e : as = input.attestations := by
      have : Res.ok r.attestations = Res.ok as := k2
      rw [← (intoReader_fields hr).2.2]
      exact (Res.ok.inj this).symm
    cases links with
    | nil =>
      cases k4
      exact absurd rfl k5
    | cons l ls =>
      obtain ⟨a, ha, -⟩ := k3.nonempty l (by simp)
      exact ⟨a, e ▸ ha⟩
  have hS := hkeys2 hne
  obtain ⟨l, l', ⟨a, ha, h1⟩, ⟨a', ha', h2⟩, k3, off, k4, k5, k6⟩ := C107_convicts_partial X hr hr' hv hv' htrust hc hw
    (by intro a ha; rw [hset a ha, hS]; exact hbig) (by intro a ha; rw [hset' a ha, hS]; exact hbig) anc hanc hconf hconf'
  refine ⟨l, l', ⟨a, ha, h1⟩, ⟨a', ha', h2⟩, k3, off, k4, k5, ?_⟩
  have e1 : (r.activeValidators l.target.epoch).keys = set := by rw [← h1]; exact hset a ha
  have e2 : (r'.activeValidators l'.target.epoch).keys = set := by rw [← h2]; exact hset' a' ha'
  have e3 : set.filter (fun i => decide (i ∉ set)) = [] := by
    rw [List.filter_eq_nil_iff]
    intro i hi
    simpa using hi
  have e4 := hsum off (fun i hi => by
    obtain ⟨-, -, x, y, hx, -⟩ := k5 i hi
    exact OMap.mem_keys_iff.2 ⟨x, hx⟩)
  dsimp only at k6
  rw [e1, e2, union, e3, List.append_nil, hS, e4] at k6
  omega

set_option maxRecDepth 100000

theorem gxWide_verifies : verify exExt Config.default { gxForkReader with validators := gxWideActive : GuestReader }.toReader = .ok (⟨gxC7', gxC6'⟩, 25) := by
  decide +kernel

/-- The remaining hypotheses are met by the two inputs for which those of C106 are shown to be met: they finalize two blocks of epoch 6. -/
example : verify exExt Config.default gxReader.toReader = .ok (⟨exC7, gxC6⟩, 24) ∧
    verify exExt Config.default { gxForkReader with validators := gxWideActive : GuestReader }.toReader = .ok (⟨gxC7', gxC6'⟩, 25) ∧
    (∀ a ∈ gxInput.attestations, 3 * exSpec.effectiveBalanceIncrement <
      2 * sumOf (balanceIn gxReader.validators gxWideActive) (gxReader.activeValidators a.data.target.epoch).keys) ∧
    (∀ a ∈ gxWide.attestations, 3 * exSpec.effectiveBalanceIncrement <
      2 * sumOf (balanceIn gxReader.validators gxWideActive)
        ({ gxForkReader with validators := gxWideActive : GuestReader }.activeValidators a.data.target.epoch).keys) ∧
    (∀ a ∈ gxInput.attestations, (gxReader.activeValidators a.data.target.epoch).keys = List.range 10) ∧
    (∀ a ∈ gxWide.attestations, ({ gxForkReader with validators := gxWideActive : GuestReader }.activeValidators a.data.target.epoch).keys = List.range 10) ∧
    3 * exSpec.effectiveBalanceIncrement < 2 * sumOf (balance gxReader.validators) (List.range 10) ∧
    Ancestry gxAnc (gxInput.attestations ++ gxWide.attestations) ∧ ¬ gxAnc gxC6 gxC6' ∧ ¬ gxAnc gxC6' gxC6 :=
  ⟨gxReader_verifies, gxWide_verifies, by decide +kernel, by decide +kernel, by decide +kernel, by decide +kernel, by decide +kernel, gxAnc_ancestry, gx_conflict⟩

end Signal
