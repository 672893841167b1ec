import Verif.Proofs.ExampleHost
import Verif.Props.PatchesExact

/-!
# C45, C53: the host's preflight and the guest
-/

namespace Signal
open Spec

/-! ## The active set after patching -/

theorem activeIn_sorted (dec : Bytes → Option Bytes) (vs : List Validator) (t : Nat) : (activeIn dec vs t).Sorted := by
  refine (sorted_filterMap_zipIdx _ ?_ vs 0).1
  rintro ⟨v, i⟩ y hy
  dsimp only at hy
  split at hy
  · obtain ⟨k, -, rfl⟩ := Option.map_eq_some_iff.1 hy; rfl
  · simp at hy

theorem mem_activeIn {dec : Bytes → Option Bytes} {vs : List Validator} {t i : Nat} {x : ValidatorInfo} :
    (i, x) ∈ activeIn dec vs t ↔ ∃ v key, vs[i]? = some v ∧ v.activeAt t ∧ dec v.pubkey = some key ∧
      x = v.info key := by
  unfold activeIn
  rw [List.mem_filterMap]
  constructor
  · rintro ⟨⟨v, j⟩, hm, hy⟩
    rw [List.mem_zipIdx_iff_getElem?] at hm
    dsimp only at hm hy
    split at hy
    · rename_i hlt
      obtain ⟨key, hk, he⟩ := Option.map_eq_some_iff.1 hy
      simp only [Prod.mk.injEq] at he
      obtain ⟨rfl, rfl⟩ := he
      exact ⟨v, key, hm, hlt, hk, rfl⟩
    · simp at hy
  · rintro ⟨v, key, h1, h2, h3, rfl⟩
    refine ⟨(v, i), by rw [List.mem_zipIdx_iff_getElem?]; exact h1, ?_⟩
    dsimp only
    have h2 : v.activationEpoch ≤ t ∧ t < v.exitEpoch := h2
    rw [if_pos h2, h3]; rfl

theorem activeValidators_eq_activeIn {r : HostReader} {e : Nat} {a : List (Nat × ValidatorInfo)} {s : HostState}
    (hs : r.state e = .ok s) (h : r.activeValidators e = .ok a) : a = activeIn r.decompress s.beacon.validators e := by
  refine sorted_ext (activeValidators_sorted h) (activeIn_sorted _ _ _) ?_
  rintro ⟨i, x⟩
  rw [mem_activeValidators hs h, mem_activeIn]

theorem identities_sorted {a : OMap ValidatorInfo} (h : a.Sorted) :
    OMap.Sorted (V := Bytes × Bool × Nat × Nat) (identities a) := by
  unfold OMap.Sorted at h ⊢
  unfold identities
  rw [List.pairwise_map]
  exact h

theorem patched_active_iff {far t e i : Nat} {vs ws : List Validator} {v w : Validator} {key : Bytes} {p : StatePatch}
    (hfar : t < far) (he : t ≤ e) (hc : Continues far t vs ws e) (hv : vs[i]? = some v) (hw : ws[i]? = some w)
    (hp : p.validatorExits = changedExits vs ws ∨ (e = t ∧ p.validatorExits = [])) :
    (t < v.exitEpoch ∧ p.isActiveValidator i (v.info key) e = true) ↔ w.activeAt e := by
  have hact := hc.activated i v w hv hw
  have hex := hc.exit i v w hv hw
  unfold StatePatch.isActiveValidator ValidatorInfo.isActiveAt Validator.activeAt
  rcases hp with hp | ⟨rfl, hp⟩
  · rw [hp]
    by_cases hch : w.exitEpoch = v.exitEpoch
    · have hnone : (changedExits vs ws).get? i = none := by
        cases hg : (changedExits vs ws).get? i with
        | none => rfl
        | some x =>
          obtain ⟨v', w', g1, g2, g3, -⟩ := get?_changedExits.1 hg
          rw [hv] at g1; rw [hw] at g2
          cases g1; cases g2
          exact absurd hch g3
      rw [hnone]
      simp only [Bool.and_eq_true, decide_eq_true_eq]
      dsimp only [Validator.info]
      rw [hch]
      constructor <;> intro h <;> omega
    · have hsome : (changedExits vs ws).get? i = some w.exitEpoch :=
        get?_changedExits.2 ⟨v, w, hv, hw, hch, rfl⟩
      rw [hsome]
      simp only [Bool.and_eq_true, decide_eq_true_eq]
      dsimp only [Validator.info]
      omega
  · rw [hp]
    simp only [OMap.get?, Bool.and_eq_true, decide_eq_true_eq, List.find?_nil, Option.map_none]
    dsimp only [Validator.info]
    omega

/-- The guest's active set is the real one if its patch for the epoch contains the changed exits. -/
theorem patched_identities {dec : Bytes → Option Bytes} {far t e : Nat} {vs ws : List Validator} {g : GuestReader}
    (hfar : t < far) (he : t ≤ e) (hc : Continues far t vs ws e) (hg : g.validators = present dec vs t)
    (hp : (g.patchAt e).validatorExits = changedExits vs ws ∨ (e = t ∧ (g.patchAt e).validatorExits = [])) :
    identities (g.activeValidators e) = identities (activeIn dec ws e) := by
  have hs1 : OMap.Sorted (g.activeValidators e) := by
    unfold GuestReader.activeValidators
    rw [hg]
    exact OMap.sorted_filter (present_sorted _ _ _) _
  refine sorted_ext (identities_sorted hs1) (identities_sorted (activeIn_sorted _ _ _)) ?_
  intro y
  unfold identities
  rw [List.mem_map, List.mem_map]
  constructor
  · rintro ⟨⟨i, x⟩, hm, rfl⟩
    unfold GuestReader.activeValidators at hm
    rw [hg, List.mem_filter, mem_present] at hm
    obtain ⟨⟨v, key, h1, h2, h3, rfl⟩, h4⟩ := hm
    have hlt : i < ws.length := by
      have := (List.getElem?_eq_some_iff.1 h1).1
      have := hc.grows
      omega
    have hw := List.getElem?_eq_getElem hlt
    have ha := (patched_active_iff hfar he hc h1 hw hp).1 ⟨h2, h4⟩
    obtain ⟨e1, e2, e3⟩ := hc.active i v _ h1 hw ha
    refine ⟨(i, (ws[i]).info key), mem_activeIn.2 ⟨_, key, hw, ha, ?_, rfl⟩, ?_⟩
    · rw [hc.pubkey i v _ h1 hw]; exact h3
    · simp only [Validator.info, e1, e2, e3]
  · rintro ⟨⟨i, x⟩, hm, rfl⟩
    obtain ⟨w, key, h1, h2, h3, rfl⟩ := mem_activeIn.1 hm
    have hlt : i < vs.length := by
      by_contra hn
      exact hc.added i w (by omega) h1 h2
    have hv := List.getElem?_eq_getElem hlt
    obtain ⟨e1, e2, e3⟩ := hc.active i _ w hv h1 h2
    obtain ⟨h4, h5⟩ := (patched_active_iff (key := key) hfar he hc hv h1 hp).2 h2
    refine ⟨(i, (vs[i]).info key), ?_, ?_⟩
    · unfold GuestReader.activeValidators
      rw [hg, List.mem_filter]
      refine ⟨mem_present.2 ⟨_, key, hv, h4, ?_, rfl⟩, h5⟩
      rw [← hc.pubkey i _ w hv h1]; exact h3
    · simp only [Validator.info, e1, e2, e3]

/-- **C45.** Let `vs` be the trusted registry, of which the guest knows those that have not exited, and `s` a state of an
epoch from the trusted one on whose registry continues it. If the guest's patch for that epoch is the one
`validator_diff` computes, its active set is the one of `s`: the same validators with the same keys, slashings and
activations. -/
theorem C45_active_set (dec : Bytes → Option Bytes) (far t e : Nat) (vs : List Validator) (s : HostState) (mixes : OMap Root)
    (g : GuestReader) (hfar : t < far) (he : t ≤ e) (hc : Continues far t vs s.beacon.validators e)
    (hg : g.validators = present dec vs t)
    (hp : g.patches.get? e = some (PatchBuilder.validatorDiff ⟨s, ⟨mixes, []⟩⟩ vs).patch) :
    identities (g.activeValidators e) = identities (activeIn dec s.beacon.validators e) := by
  refine patched_identities hfar he hc hg (Or.inl ?_)
  unfold GuestReader.patchAt PatchBuilder.validatorDiff at *
  rw [hp]
  exact diffLoop_changedExits _ _

/-- Only exits have changed, and those were not set before. -/
theorem continues_of_exits {far t e : Nat} {vs ws : List Validator} (hl : ws.length = vs.length)
    (h : ∀ (i : Nat) (v w : Validator), vs[i]? = some v → ws[i]? = some w → w = { v with exitEpoch := w.exitEpoch, withdrawableEpoch := w.withdrawableEpoch } ∧
      (w.exitEpoch = v.exitEpoch ∨ v.exitEpoch = far ∧ t < w.exitEpoch ∧ w.exitEpoch ≤ far)) :
    Continues far t vs ws e := by
  refine ⟨by omega, ?_, ?_, ?_, ?_, fun i v w hv hw => (h i v w hv hw).2⟩
  · intro i w hi hw
    have := (List.getElem?_eq_some_iff.1 hw).1
    omega
  · intro i v w hv hw
    rw [(h i v w hv hw).1]
  · intro i v w hv hw
    rw [(h i v w hv hw).1]
  · intro i v w hv hw _
    rw [(h i v w hv hw).1]
    exact ⟨rfl, rfl, rfl⟩

/-- **C45**, as the property puts it: if from the trusted registry to the one of `s` only exit epochs (and with them the epochs
of withdrawal) have changed, and those from the far future to one after the trusted epoch, the indices of the guest's patched active set are those of the
validators active in `s`. -/
theorem C45_only_exits (dec : Bytes → Option Bytes) (far t e : Nat) (vs : List Validator) (s : HostState) (mixes : OMap Root)
    (g : GuestReader) (hfar : t < far) (he : t ≤ e) (hl : s.beacon.validators.length = vs.length)
    (hdec : ∀ v ∈ vs, (dec v.pubkey).isSome)
    (h : ∀ (i : Nat) (v w : Validator), vs[i]? = some v → s.beacon.validators[i]? = some w →
      w = { v with exitEpoch := w.exitEpoch, withdrawableEpoch := w.withdrawableEpoch } ∧
      (w.exitEpoch = v.exitEpoch ∨ v.exitEpoch = far ∧ t < w.exitEpoch ∧ w.exitEpoch ≤ far))
    (hg : g.validators = present dec vs t)
    (hp : g.patches.get? e = some (PatchBuilder.validatorDiff ⟨s, ⟨mixes, []⟩⟩ vs).patch) (i : Nat) :
    i ∈ (g.activeValidators e).keys ↔ i ∈ activeIndices s.beacon.validators e := by
  have hids := C45_active_set dec far t e vs s mixes g hfar he (continues_of_exits hl h) hg hp
  have hkeys : ∀ a : List (Nat × ValidatorInfo), OMap.keys a = (identities a).map (·.1) := by
    intro a
    unfold OMap.keys identities
    rw [List.map_map]; rfl
  rw [hkeys, hids, ← hkeys]
  unfold OMap.keys activeIndices
  rw [List.mem_map, List.mem_filter, List.mem_range]
  constructor
  · rintro ⟨⟨j, x⟩, hm, rfl⟩
    obtain ⟨w, key, h1, h2, -, -⟩ := mem_activeIn.1 hm
    refine ⟨(List.getElem?_eq_some_iff.1 h1).1, ?_⟩
    dsimp only
    rw [h1]
    exact decide_eq_true h2
  · rintro ⟨hi, ha⟩
    have hw := List.getElem?_eq_getElem hi
    rw [hw] at ha
    have ha := of_decide_eq_true ha
    have hv := List.getElem?_eq_getElem (l := vs) (i := i) (by omega)
    obtain ⟨key, hk⟩ := Option.isSome_iff_exists.1 (hdec _ (List.mem_of_getElem? hv))
    refine ⟨(i, _), mem_activeIn.2 ⟨_, key, hw, ha, ?_, rfl⟩, rfl⟩
    rw [(h i _ _ hv hw).1]
    exact hk

/-! ## The input -/

variable (X : Ext) (order : List Nat → List Nat) (ho : ∀ l, (order l).Perm l) (hcap : 126 ≤ X.stackCapacity)
variable {r : HostReader} {trusted : Checkpoint} {st : HostState} {queries : List Query} {log : PreflightLog}
include ho hcap

/-- **C53.** If the answers of the host are consistent with the trusted state, `to_input` succeeds after any sequence of
answered queries. -/
theorem C53_input_built (ht : TrustedState X r trusted st) (hc : Consistent X r trusted st queries)
    (hlog : preflightRun trusted.epoch r .empty queries = .ok log)
    (ha : ∃ a, r.activeValidators trusted.epoch = .ok a) :
    ∃ input, toInput X order r trusted log = .ok input := by
  obtain ⟨a, ha⟩ := ha
  obtain ⟨input, h, -⟩ := toInput_ok ho hcap ht hc (preflightRun_recorded hlog) ha
  exact ⟨input, h⟩

/-- Facts about a built input. -/
theorem inputFor_of_toInput (ht : TrustedState X r trusted st) (hc : Consistent X r trusted st queries)
    (hlog : preflightRun trusted.epoch r .empty queries = .ok log) {input : GuestInput}
    (hi : toInput X order r trusted log = .ok input) : InputFor X r trusted st queries input := by
  have ha : ∃ a, r.activeValidators trusted.epoch = .ok a := by
    unfold toInput at hi
    obtain ⟨_, -, hi⟩ := Res.bind_eq_ok.1 hi
    obtain ⟨_, -, hi⟩ := Res.bind_eq_ok.1 hi
    obtain ⟨_, -, hi⟩ := Res.bind_eq_ok.1 hi
    obtain ⟨_, -, hi⟩ := Res.bind_eq_ok.1 hi
    obtain ⟨_, -, hi⟩ := Res.bind_eq_ok.1 hi
    obtain ⟨a, h, -⟩ := Res.bind_eq_ok.1 hi
    exact ⟨a, Res.mapErr_eq_ok.1 h⟩
  obtain ⟨a, ha⟩ := ha
  obtain ⟨input', h1, h2⟩ := toInput_ok ho hcap ht hc (preflightRun_recorded hlog) ha
  rw [hi] at h1
  cases h1
  exact h2

/-- **C53.** The reader the guest makes of the input has the host's chain, consensus state and votes, and it gives the answer
of the host to every recorded query. -/
theorem C53_same_answers (ht : TrustedState X r trusted st) (hc : Consistent X r trusted st queries)
    (hlog : preflightRun trusted.epoch r .empty queries = .ok log) {input : GuestInput}
    (hi : toInput X order r trusted log = .ok input) {g : GuestReader} (hg : input.intoReader X r.spec = .ok g) :
    (∀ q ∈ queries, SameAnswer r g q) ∧
    g.toReader.spec = r.spec ∧ g.toReader.consensusState = r.toReader.consensusState ∧
    g.toReader.attestations = r.toReader.attestations ∧
    g.toReader.genesisValidatorsRoot = r.toReader.genesisValidatorsRoot ∧
    ∀ e, (∃ s, r.state e = .ok s) → g.toReader.fork e = r.toReader.fork e := by
  have hf := inputFor_of_toInput X order ho hcap ht hc hlog hi
  obtain ⟨slots, -, s2, s3, s4⟩ := intoReader_built ht hf
  obtain ⟨-, rfl⟩ := (s4 g).1 hg
  have hr := preflightRun_recorded hlog
  refine ⟨?_, rfl, rfl, rfl, ?_, ?_⟩
  · intro q hq
    have hans := hr.answered q hq
    cases q with
    | activeValidators e =>
      obtain ⟨he, a, ha⟩ := hans
      obtain ⟨s, hs⟩ := activeValidators_state ha
      refine ⟨a, ha, ?_⟩
      rw [activeValidators_eq_activeIn hs ha]
      refine patched_identities ht.far he (hc.states e s (Or.inr hq) hs) rfl ?_
      by_cases het : e = trusted.epoch
      · right
        refine ⟨het, ?_⟩
        unfold GuestReader.patchAt
        cases hp : input.patches.get? e with
        | none => rfl
        | some p => exact hf.patches.no_exits e p (Or.inr het) hp
      · left
        obtain ⟨s', p, h1, h2, h3⟩ := hf.patches.exits e hq het
        rw [hs] at h1
        cases h1
        rw [changedExits_registryOf]
        unfold GuestReader.patchAt
        dsimp only
        rw [h2]
        exact h3
    | randaoMix e i =>
      obtain ⟨m, hm⟩ := hans
      refine ⟨m, hm, ?_⟩
      obtain ⟨s, h1, h2⟩ := randaoMix_state hm
      obtain ⟨s', p, h3, h4, h5⟩ := hf.patches.mixes e i hq
      rw [h1] at h3
      cases h3
      unfold GuestReader.toReader GuestReader.patchAt
      dsimp only
      rw [h4, Option.getD_some, h5, h2]
    | slotForBlock root =>
      obtain ⟨n, hn⟩ := hans
      refine ⟨n, hn, ?_⟩
      obtain ⟨hd, h1, h2⟩ := slotForBlock_header hn
      obtain ⟨n', hn'⟩ := s3 root hq
      unfold GuestReader.toReader
      dsimp only
      cases hfd : slots.find? (fun e => decide (e.1 = root)) with
      | none =>
        rw [List.find?_eq_none] at hfd
        exact absurd (decide_eq_true rfl) (hfd _ hn')
      | some y =>
        have e1 := List.find?_some hfd
        have e2 := List.mem_of_find?_eq_some hfd
        simp only [decide_eq_true_eq] at e1
        obtain ⟨hd', g1, g2⟩ := s2 y e2
        rw [e1, h1] at g1
        cases g1
        simp only [Option.map_some, okOr, g2, h2]
  · unfold GuestReader.toReader HostReader.toReader
    dsimp only
    rw [hc.genesis]; rfl
  · rintro e ⟨s, hs⟩
    unfold GuestReader.toReader HostReader.toReader HostReader.fork
    dsimp only
    rw [hs, Res.ok_bind, hc.forks e s hs]; rfl

/-- **C60.** Exactly when the guest accepts the input: the sums it computes fit into 64 bits, and the exits in the patches are
lawful for the registry. -/
theorem C60_accepted_iff (ht : TrustedState X r trusted st) (hc : Consistent X r trusted st queries)
    (hlog : preflightRun trusted.epoch r .empty queries = .ok log) {input : GuestInput}
    (hi : toInput X order r trusted log = .ok input)
    (hq : r.spec.churnLimitQuotient ≠ 0) (hinc : r.spec.effectiveBalanceIncrement ≠ 0)
    (vs : OMap ValidatorInfo) (hvs : vs = present r.decompress (registryOf r.spec st.beacon r.consensusState) trusted.epoch)
    (total : Nat) (htotal : total = totalWeight (vs.filter (fun x => x.2.isActiveAt trusted.epoch)))
    (hsmall : SmallExits (doubleChurn r.spec (floored r.spec total)) input.patches vs) :
    (∃ g, input.intoReader X r.spec = .ok g) ↔
      total < 2 ^ 64 ∧ doubleChurn r.spec (floored r.spec total) < 2 ^ 64 ∧
      LawfulPatches r.spec.farFutureEpoch trusted.epoch
        (earliestNewExit r.spec trusted.epoch st.beacon.earliestExitEpoch st.beacon.earliestConsolidationEpoch)
        (doubleChurn r.spec (floored r.spec total)) input.patches vs := by
  have hf := inputFor_of_toInput X order ho hcap ht hc hlog hi
  obtain ⟨slots, -, -, -, s4⟩ := intoReader_built ht hf
  subst htotal hvs
  have h59 := C59_accepted_iff X r.spec input.patches trusted (stateInfo X st.beacon)
    (present r.decompress (registryOf r.spec st.beacon r.consensusState) trusted.epoch) hf.patches.sorted hq hinc hsmall
  have hsm : trusted.epoch + 1 + r.spec.maxSeedLookahead < 2 ^ 64 := by
    have := ht.small
    have := ht.justified
    omega
  constructor
  · rintro ⟨g, hg⟩
    obtain ⟨h1, h2, -, h4⟩ := h59.1 ((s4 g).1 hg).1
    exact ⟨h1, h2, h4⟩
  · rintro ⟨h1, h2, h3⟩
    exact ⟨_, (s4 _).2 ⟨h59.2 ⟨h1, h2, hsm, h3⟩, rfl⟩⟩

/-- **C60.** In particular it accepts the input if no exit changed: the states of the requested epochs have the exits of the
trusted one. Mixes are requested at no earlier epoch. -/
theorem C60_accepted_without_exits_partial (ht : TrustedState X r trusted st) (hc : Consistent X r trusted st queries)
    (hlog : preflightRun trusted.epoch r .empty queries = .ok log) {input : GuestInput}
    (hi : toInput X order r trusted log = .ok input)
    (hq : r.spec.churnLimitQuotient ≠ 0) (hinc : r.spec.effectiveBalanceIncrement ≠ 0)
    (total : Nat) (htotal : total = totalWeight ((present r.decompress
      (registryOf r.spec st.beacon r.consensusState) trusted.epoch).filter (fun x => x.2.isActiveAt trusted.epoch)))
    (hweight : total < 2 ^ 64) (hchurn : doubleChurn r.spec (floored r.spec total) < 2 ^ 64)
    (hmix : ∀ e i, Query.randaoMix e i ∈ queries → trusted.epoch ≤ e)
    (hexit : ∀ (e : Nat) s, Query.activeValidators e ∈ queries → r.state e = .ok s →
      ∀ (i : Nat) (v w : Validator), st.beacon.validators[i]? = some v → s.beacon.validators[i]? = some w →
        w.exitEpoch = v.exitEpoch) :
    ∃ g, input.intoReader X r.spec = .ok g := by
  have hf := inputFor_of_toInput X order ho hcap ht hc hlog hi
  have hr := preflightRun_recorded hlog
  have hempty : ∀ e p, (e, p) ∈ input.patches → p.validatorExits = [] := by
    intro e p hm
    have hg := OMap.mem_get? hf.patches.sorted hm
    by_cases h : Query.activeValidators e ∈ queries ∧ e ≠ trusted.epoch
    · obtain ⟨s, p', h1, h2, h3⟩ := hf.patches.exits e h.1 h.2
      rw [hg] at h2
      cases h2
      rw [h3]
      rw [List.eq_nil_iff_forall_not_mem]
      rintro ⟨i, x⟩ hx
      obtain ⟨v, w, g1, g2, g3, -⟩ := mem_changedExits.1 hx
      exact g3 (hexit e s h.1 h1 i v w g1 g2)
    · exact hf.patches.no_exits e p (by
        by_cases hq : Query.activeValidators e ∈ queries
        · exact Or.inr (by_contra fun hne => h ⟨hq, hne⟩)
        · exact Or.inl hq) hg
  have hnew : ∀ e p, (e, p) ∈ input.patches → ∀ vs : OMap ValidatorInfo, newExits input.patches vs e p = [] := by
    intro e p hm vs
    unfold newExits
    rw [hempty e p hm]; rfl
  refine (C60_accepted_iff X order ho hcap ht hc hlog hi hq hinc _ rfl total htotal ?_).2 ⟨hweight, hchurn, ?_, ?_, ?_⟩
  · intro e p hm x hx
    rw [hnew e p hm] at hx
    simp at hx
  · intro e p hm
    rcases hf.patches.epochs e p (OMap.mem_get? hf.patches.sorted hm) with ⟨h, -⟩ | ⟨i, h⟩
    · exact (hr.answered _ h).1
    · exact hmix e i h
  · intro e p hm idx x hx
    rw [hempty e p hm] at hx
    simp at hx
  · intro e p hm x hx
    rw [hnew e p hm] at hx
    simp at hx

omit ho hcap

/-- The patches of an input are those the two loops compute. -/
theorem toInput_patches {input : GuestInput} (hi : toInput X order r trusted log = .ok input) :
    ∃ st b1 b2, stateAtCheckpoint X (hostStateOps X) r.spec.slotsPerEpoch r.provider trusted = .ok st ∧
      mixPatches r log.mixEpochs [] = .ok b1 ∧
      exitPatches r trusted.epoch st.beacon.validators log.validatorEpochs b1 = .ok b2 ∧
      input.patches = b2.map (fun (epoch, b) => (epoch, b.patch)) := by
  unfold toInput at hi
  obtain ⟨st, h1, hi⟩ := Res.bind_eq_ok.1 hi
  obtain ⟨_, -, hi⟩ := Res.bind_eq_ok.1 hi
  obtain ⟨_, -, hi⟩ := Res.bind_eq_ok.1 hi
  obtain ⟨_, -, hi⟩ := Res.bind_eq_ok.1 hi
  obtain ⟨_, -, hi⟩ := Res.bind_eq_ok.1 hi
  obtain ⟨_, -, hi⟩ := Res.bind_eq_ok.1 hi
  obtain ⟨_, -, hi⟩ := Res.bind_eq_ok.1 hi
  obtain ⟨_, -, hi⟩ := Res.bind_eq_ok.1 hi
  obtain ⟨_, -, hi⟩ := Res.bind_eq_ok.1 hi
  obtain ⟨b1, h2, hi⟩ := Res.bind_eq_ok.1 hi
  obtain ⟨b2, h3, hi⟩ := Res.bind_eq_ok.1 hi
  obtain ⟨_, -, hi⟩ := Res.bind_eq_ok.1 hi
  cases hi
  exact ⟨st, b1, b2, Res.mapErr_eq_ok.1 h1, h2, h3, rfl⟩

/-- **C60 does not hold in general**: there is a consistent host whose votes `verify` accepts with the default configuration,
and the guest aborts on the input built for it. At the first target epoch a validator is to exit at epoch 12; during
that epoch another initiates its exit and, being in the other of the two exit queues, gets epoch 11. -/
theorem C60_consistent_rejected : ∃ (X : Ext) (r : HostReader) (trusted : Checkpoint) (st : HostState)
    (queries : List Query) (log : PreflightLog) (input : GuestInput),
    TrustedState X r trusted st ∧ Consistent X r trusted st queries ∧
    preflightRun trusted.epoch r .empty queries = .ok log ∧
    (∃ post, verify X Config.default r.toReader = .ok post) ∧
    toInput X id r trusted log = .ok input ∧ input.intoReader X r.spec = .panic := by
  have hcap : 126 ≤ exExt.stackCapacity := by decide
  obtain ⟨input, hi⟩ := C53_input_built exExt id (fun l => List.Perm.refl l) hcap fy_trusted fy_consistent fy_log fy_active
  refine ⟨exExt, fyHost, gxC3, fxState 12 gxVs, fxQueries, fxLog, input, fy_trusted, fy_consistent, fy_log,
    ⟨_, fy_verifies⟩, hi, ?_⟩
  have hf := inputFor_of_toInput exExt id (fun l => List.Perm.refl l) hcap fy_trusted fy_consistent fy_log hi
  obtain ⟨st, b1, b2, h1, h2, h3, h4⟩ := toInput_patches exExt id hi
  rw [fy_trusted.found] at h1
  cases h1
  have hp : input.patches = fyPatches := h4.trans (fy_patches h2 h3)
  rw [intoReader_result fy_trusted hf, hp]
  have hreg : registryOf fyHost.spec (fxState 12 gxVs).beacon fyHost.consensusState = gxVs := fx_registry
  rw [hreg]
  have := fy_rejected
  rw [show fyHost.spec = exSpec from rfl, show (fxState 12 gxVs).beacon = gxState from rfl, this]
  rfl

/-! ## Concrete cases -/

/-- C45 for a registry with an exit and a validator waiting for activation. -/
example (g : GuestReader) (hg : g.validators = present (fun pk => some (pk ++ List.replicate 48 0)) gxVs 3)
    (hp : g.patches.get? 6 = some (PatchBuilder.validatorDiff ⟨fxState 24 fxVs, ⟨[], []⟩⟩ gxVs).patch) :
    identities (g.activeValidators 6) = identities (activeIn (fun pk => some (pk ++ List.replicate 48 0)) fxVs 6) :=
  C45_active_set _ u64Max 3 6 gxVs (fxState 24 fxVs) [] g (by decide) (by decide)
    (continues_of_check (by decide +kernel)) hg hp

/-- The patch of that case and the number of active validators before and after the exit. -/
example : (PatchBuilder.validatorDiff ⟨fxState 24 fxVs, ⟨[], []⟩⟩ gxVs).patch.validatorExits = [(8, 9)] ∧
    (activeIn (fun pk => some (pk ++ List.replicate 48 0)) fxVs 6).length = 10 ∧
    (activeIn (fun pk => some (pk ++ List.replicate 48 0)) fxVs 9).length = 9 := by decide +kernel

/-- C45 for a registry in which only exits have changed. -/
example (g : GuestReader) (hg : g.validators = present (fun pk => some (pk ++ List.replicate 48 0)) gxVs 3)
    (hp : g.patches.get? 7 = some (PatchBuilder.validatorDiff ⟨fxState 28 fyVs7, ⟨[], []⟩⟩ gxVs).patch) (i : Nat) :
    i ∈ (g.activeValidators 7).keys ↔ i ∈ activeIndices fyVs7 7 := by
  refine C45_only_exits _ u64Max 3 7 gxVs (fxState 28 fyVs7) [] g (by decide) (by decide) (by decide) (by simp) ?_ hg hp i
  intro i v w hv hw
  have hm : (v, w) ∈ gxVs.zip fyVs7 :=
    List.mem_of_getElem? (i := i) (List.getElem?_zip_eq_some.2 ⟨hv, hw⟩)
  have := (by decide +kernel : ∀ x ∈ gxVs.zip fyVs7,
    x.2 = { x.1 with exitEpoch := x.2.exitEpoch, withdrawableEpoch := x.2.withdrawableEpoch } ∧
      (x.2.exitEpoch = x.1.exitEpoch ∨ x.1.exitEpoch = u64Max ∧ 3 < x.2.exitEpoch ∧ x.2.exitEpoch ≤ u64Max))
  exact this _ hm

/-- C53 and C60 for a concrete host: the input is built, the guest accepts it, and it answers as the host did. -/
example : ∃ input g, toInput exExt id fxHost gxC3 fxLog = .ok input ∧ input.intoReader exExt fxHost.spec = .ok g ∧
    ∀ q ∈ fxQueries, SameAnswer fxHost g q := by
  have hcap : 126 ≤ exExt.stackCapacity := by decide
  have ho : ∀ l : List Nat, (id l).Perm l := fun l => List.Perm.refl l
  obtain ⟨input, hi⟩ := C53_input_built exExt id ho hcap fx_trusted fx_consistent fx_log fx_active
  have hf := inputFor_of_toInput exExt id ho hcap fx_trusted fx_consistent fx_log hi
  obtain ⟨st, b1, b2, h1, h2, h3, h4⟩ := toInput_patches exExt id hi
  rw [fx_trusted.found] at h1
  cases h1
  have hp : input.patches = gxPatches := h4.trans (fx_patches h2 h3)
  obtain ⟨slots, -, -, -, s4⟩ := intoReader_built fx_trusted hf
  have hreg : registryOf fxHost.spec (fxState 12 gxVs).beacon fxHost.consensusState = gxVs := fx_registry
  have hacc : ∃ g, input.intoReader exExt fxHost.spec = .ok g := by
    refine ⟨_, (s4 _).2 ⟨?_, rfl⟩⟩
    rw [hreg, hp]
    exact fx_accepted
  obtain ⟨g, hg⟩ := hacc
  exact ⟨input, g, hi, hg, (C53_same_answers exExt id ho hcap fx_trusted fx_consistent fx_log hi hg).1⟩

/-- C60: queries at the trusted epoch only, where no exit can have changed. -/
example : ∃ input g, toInput exExt id fxHost gxC3 ⟨[3], [(3, [1])], []⟩ = .ok input ∧
    input.intoReader exExt fxHost.spec = .ok g := by
  have hcap : 126 ≤ exExt.stackCapacity := by decide
  have ho : ∀ l : List Nat, (id l).Perm l := fun l => List.Perm.refl l
  have hlog : preflightRun gxC3.epoch fxHost .empty [.activeValidators 3, .randaoMix 3 1] =
    .ok ⟨[3], [(3, [1])], []⟩ := by decide +kernel
  have hc : Consistent exExt fxHost gxC3 (fxState 12 gxVs) [.activeValidators 3, .randaoMix 3 1] := by
    refine ⟨?_, fx_consistent.headers, fx_consistent.genesis, fx_consistent.forks⟩
    intro e s he hs
    refine fx_consistent.states e s (Or.inl ?_) hs
    rcases he with he | he
    · exact he
    · simp only [List.mem_cons, Query.activeValidators.injEq, reduceCtorEq, List.not_mem_nil, or_false] at he
      rw [he]; rfl
  obtain ⟨input, hi⟩ := C53_input_built exExt id ho hcap fx_trusted hc hlog fx_active
  have hreg : registryOf fxHost.spec (fxState 12 gxVs).beacon fxHost.consensusState = gxVs := fx_registry
  have htot : totalWeight ((present fxHost.decompress (registryOf fxHost.spec (fxState 12 gxVs).beacon
      fxHost.consensusState) gxC3.epoch).filter (fun x => x.2.isActiveAt gxC3.epoch)) = 320 := by
    rw [hreg, fx_present]; decide +kernel
  obtain ⟨g, hg⟩ := C60_accepted_without_exits_partial exExt id ho hcap fx_trusted hc hlog hi (by decide) (by decide) 320
    htot.symm (by decide) (by decide) (by
      intro e i he
      simp only [List.mem_cons, Query.randaoMix.injEq, reduceCtorEq, List.not_mem_nil, or_false, false_or] at he
      rw [he.1]; decide) (by
      intro e s he hs i v w hv hw
      simp only [List.mem_cons, Query.activeValidators.injEq, reduceCtorEq, List.not_mem_nil, or_false] at he
      subst he
      rcases fx_state_cases hs with ⟨-, rfl⟩ | ⟨h, -⟩ | ⟨h, -⟩
      · rw [hv] at hw; cases hw; rfl
      · omega
      · omega)
  exact ⟨input, g, hi, hg⟩

end Signal
