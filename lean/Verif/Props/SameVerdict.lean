import Verif.Proofs.SameVerdict

/-!
# C61: the guest's verdict on the input of the preflight
-/

namespace Signal
open Spec

/-- **C61.** Recording changes nothing: from the trusted checkpoint, `verify` succeeds over the recording reader exactly if
it does over the reader it wraps, with the same result. -/
theorem C61_recording_transparent (X : Ext) (cfg : Config) (R : Reader) (pre : ConsensusState) (t : Nat)
    (hpre : R.consensusState = .ok pre) (ht : t ≤ pre.finalized.epoch) (result : ConsensusState × Nat) :
    verify X cfg (preflightReader t R) = .ok result ↔ verify X cfg R = .ok result := by
  obtain ⟨post, slot⟩ := result
  constructor
  · intro h
    obtain ⟨pre', atts, h1, h2, h3, h4⟩ := verify_answered h
    have : SameAnswers X (preflightReader t R) R := by
      refine ⟨rfl, rfl, rfl, rfl, fun _ _ _ _ => rfl, ?_, ?_, fun _ _ _ _ => rfl⟩
      · intro atts' ha a hm
        rw [h2] at ha; cases ha
        obtain ⟨_, _, ⟨m, hmix⟩, _⟩ := h3 a hm
        rw [hmix]
        simp only [preflightReader, Res.bind_eq_ok, expect_eq_ok, Res.pure_eq, Res.ok.injEq] at hmix
        obtain ⟨_, hmix, m', rfl, hm'⟩ := hmix
        rw [← hm']
        exact hmix
      · intro atts' ha a hm
        rw [h2] at ha; cases ha
        obtain ⟨_, ⟨l, hl⟩, _, _⟩ := h3 a hm
        rw [hl]
        simp only [preflightReader, Res.bind_eq_ok, assert_eq_ok] at hl
        obtain ⟨_, _, hl⟩ := hl
        exact hl
    rw [C61_determined X cfg _ _ this]
    exact h
  · intro h
    obtain ⟨pre', atts, h1, h2, h3, h4⟩ := verify_answered h
    rw [hpre] at h1; cases h1
    have : SameAnswers X R (preflightReader t R) := by
      refine ⟨rfl, rfl, rfl, rfl, fun _ _ _ _ => rfl, ?_, ?_, fun _ _ _ _ => rfl⟩
      · intro atts' ha a hm
        rw [h2] at ha; cases ha
        obtain ⟨_, _, ⟨m, hmix⟩, _⟩ := h3 a hm
        simp only [preflightReader, hmix, Res.ok_bind, expect]
        rfl
      · intro atts' ha a hm
        rw [h2] at ha; cases ha
        obtain ⟨he, _, _, _⟩ := h3 a hm
        simp only [preflightReader, assert, le_trans ht he, decide_true, if_true, Res.ok_bind]
    rw [C61_determined X cfg _ _ this]
    exact h

/-- **C61.** If the verification over the host's reader succeeds, every request it has made can be recorded. -/
theorem C61_requests_recorded (X : Ext) (cfg : Config) (r : HostReader) (t : Nat) (post : ConsensusState) (slot : Nat)
    (ht : t ≤ r.consensusState.finalized.epoch) (h : verify X cfg r.toReader = .ok (post, slot)) :
    ∃ log, preflightRun t r .empty (verifyQueries X r.spec r.attestations post.finalized.root) = .ok log := by
  obtain ⟨pre, atts, h1, h2, h3, h4⟩ := verify_answered h
  cases h1; cases h2
  apply preflightRun_of_answered
  intro q hq
  rcases mem_verifyQueries.1 hq with ⟨a, ha, rfl | rfl⟩ | rfl
  · obtain ⟨g1, ⟨l, g2⟩, _⟩ := h3 a ha
    exact ⟨le_trans ht g1, l, toReader_active.1 g2⟩
  · obtain ⟨_, _, ⟨m, g2⟩, _⟩ := h3 a ha
    exact ⟨m, toReader_mix.1 g2⟩
  · exact ⟨slot, toReader_slot.1 h4⟩

variable (X : Ext) (order : List Nat → List Nat) (ho : ∀ l, (order l).Perm l) (hcap : 126 ≤ X.stackCapacity)
variable {cfg : Config} {r : HostReader} {trusted : Checkpoint} {st : HostState} {input : GuestInput}
  {pre post : ConsensusState} {slot : Nat}

/-- The parts of a successful preflight. -/
theorem preflight_parts (ht : TrustedState X r trusted st)
    (h : preflight X order cfg r trusted = .ok (input, pre, post, slot)) :
    verify X cfg r.toReader = .ok (post, slot) ∧ pre = input.consensusState ∧
    ∃ log, preflightRun trusted.epoch r .empty (verifyQueries X r.spec r.attestations post.finalized.root) = .ok log ∧
      toInput X order r trusted log = .ok input := by
  unfold preflight at h
  simp only [Res.bind_eq_ok, Res.mapErr_eq_ok, Res.pure_eq, Res.ok.injEq] at h
  obtain ⟨⟨post', slot'⟩, h1, log, h2, input', h3, h4⟩ := h
  cases h4
  refine ⟨?_, rfl, log, h2, h3⟩
  exact (C61_recording_transparent X cfg r.toReader r.consensusState trusted.epoch rfl (by rw [ht.start]) _).1 h1

include ho hcap

/-- **C61.** If the host's verification succeeds and its answers are consistent with the trusted state, the preflight
succeeds with the same result. -/
theorem C61_preflight_succeeds (ht : TrustedState X r trusted st)
    (h : verify X cfg r.toReader = .ok (post, slot))
    (hc : Consistent X r trusted st (verifyQueries X r.spec r.attestations post.finalized.root))
    (ha : ∃ a, r.activeValidators trusted.epoch = .ok a) :
    ∃ input, preflight X order cfg r trusted = .ok (input, r.consensusState, post, slot) := by
  obtain ⟨log, hl⟩ := C61_requests_recorded X cfg r trusted.epoch post slot (by rw [ht.start]) h
  obtain ⟨input, hi⟩ := C53_input_built X order ho hcap ht hc hl ha
  have hcs := (inputFor_of_toInput X order ho hcap ht hc hl hi).consensus
  refine ⟨input, ?_⟩
  have h' := (C61_recording_transparent X cfg r.toReader r.consensusState trusted.epoch rfl (by rw [ht.start]) _).2 h
  unfold preflight
  simp only [h', hl, hi, Res.mapErr, Res.ok_bind, hcs]
  rfl

theorem guest_sameView (ht : TrustedState X r trusted st)
    (hc : Consistent X r trusted st (verifyQueries X r.spec r.attestations post.finalized.root))
    (h : preflight X order cfg r trusted = .ok (input, pre, post, slot)) {g : GuestReader}
    (hg : input.intoReader X r.spec = .ok g) :
    SameView X r.toReader g.toReader ∧
      g.toReader.slotForBlock post.finalized.root = r.toReader.slotForBlock post.finalized.root := by
  obtain ⟨hv, _, log, hl, hi⟩ := preflight_parts X order ht h
  obtain ⟨s1, s2, s3, s4, s5, s6⟩ := C53_same_answers X order ho hcap ht hc hl hi hg
  constructor
  · refine ⟨s2, s3, s4, s5, ?_, ?_, ?_⟩
    · intro atts ha a hm
      cases ha
      obtain ⟨_, _, h1, h2, h3, _⟩ := verify_answered hv
      cases h2
      obtain ⟨_, ⟨l, hl⟩, _⟩ := h3 a hm
      exact s6 _ (activeValidators_state (toReader_active.1 hl))
    · intro atts ha a hm
      cases ha
      obtain ⟨m, h1, h2⟩ := s1 _ (mem_verifyQueries.2 (Or.inl ⟨a, hm, Or.inr rfl⟩))
      exact h2.trans (toReader_mix.2 h1).symm
    · intro atts ha a hm l hl
      cases ha
      obtain ⟨l', h1, h2⟩ := s1 _ (mem_verifyQueries.2 (Or.inl ⟨a, hm, Or.inl rfl⟩))
      have := toReader_active.1 hl
      rw [h1] at this
      cases this
      exact ⟨_, rfl, h2⟩
  · obtain ⟨n, h1, h2⟩ := s1 _ (mem_verifyQueries.2 (Or.inr rfl))
    exact h2.trans (toReader_slot.2 h1).symm

/-- **C61.** The journal the guest commits for the input of a preflight is the one the host announces. It may abort, but it
cannot commit to anything else. -/
theorem C61_same_journal_or_abort (ht : TrustedState X r trusted st)
    (hc : Consistent X r trusted st (verifyQueries X r.spec r.attestations post.finalized.root))
    (h : preflight X order cfg r trusted = .ok (input, pre, post, slot)) (journal : Bytes) {ε : Type}
    (hj : (guestEntry X r.spec cfg input : Res ε Bytes) = .ok journal) :
    journal = Abi.encodeJournal pre post slot := by
  obtain ⟨hv, rfl, log, hl, hi⟩ := preflight_parts X order ht h
  unfold guestEntry at hj
  simp only [Res.bind_eq_ok, Res.unwrap_eq_ok, Res.pure_eq, Res.ok.injEq] at hj
  obtain ⟨g, hg, ⟨post', slot'⟩, hv', rfl⟩ := hj
  obtain ⟨h1, h2⟩ := guest_sameView X order ho hcap ht hc h hg
  obtain ⟨_, _, _, _, _, _, hu, _⟩ := C61_verdict_iff X cfg _ _ post slot hv h1 h2
  have := hu _ hv'
  cases this
  rfl

/-- **C61.** Exactly when it commits to it: if it accepts the input, and if the voters the host has counted for the links have
enough weight with the balances the guest uses, which are those of the trusted state. -/
theorem C61_same_journal_iff (ht : TrustedState X r trusted st)
    (hc : Consistent X r trusted st (verifyQueries X r.spec r.attestations post.finalized.root))
    (h : preflight X order cfg r trusted = .ok (input, pre, post, slot)) {ε : Type} :
    ∃ voters : Link → List Nat,
      (∀ a ∈ r.attestations, ∃ active signers, Justifies X cfg r.toReader trusted (linkOf a)
        (r.attestations.filter (fun b => decide (linkOf b = linkOf a))) active signers (voters (linkOf a))) ∧
      ((guestEntry X r.spec cfg input : Res ε Bytes) = .ok (Abi.encodeJournal pre post slot) ↔
        ∃ g, input.intoReader X r.spec = .ok g ∧ ∀ a ∈ r.attestations,
          EnoughWeight cfg r.spec (g.activeValidators a.data.target.epoch) (voters (linkOf a))) := by
  obtain ⟨hv, rfl, log, hl, hi⟩ := preflight_parts X order ht h
  have hf := inputFor_of_toInput X order ho hcap ht hc hl hi
  have hsorted : ∀ g, input.intoReader X r.spec = .ok g → ∀ e, OMap.ofList (g.activeValidators e) =
      g.activeValidators e := by
    intro g hg e
    obtain ⟨slots, -, -, -, s4⟩ := intoReader_built ht hf
    obtain ⟨-, rfl⟩ := (s4 g).1 hg
    exact OMap.ofList_sorted (OMap.sorted_filter (present_sorted _ _ _) _)
  by_cases hg : ∃ g, input.intoReader X r.spec = .ok g
  · obtain ⟨g, hg⟩ := hg
    obtain ⟨h1, h2⟩ := guest_sameView X order ho hcap ht hc h hg
    obtain ⟨pre', atts, k1, k2, voters, k3, k4, k5⟩ := C61_verdict_iff X cfg _ _ post slot hv h1 h2
    cases k1; cases k2
    refine ⟨voters, ?_, ?_⟩
    · rw [← ht.start]; exact k3
    constructor
    · intro hj
      refine ⟨g, hg, ?_⟩
      unfold guestEntry at hj
      rw [hg] at hj
      simp only [Res.bind_eq_ok, Res.unwrap_eq_ok, Res.pure_eq, Res.ok.injEq] at hj
      obtain ⟨_, rfl, ⟨post', slot'⟩, hv', _⟩ := hj
      have := k4 _ hv'
      cases this
      intro a ha
      have := k5.1 hv' a ha _ rfl
      rw [hsorted g hg, h1.spec] at this
      exact this
    · rintro ⟨g', hg', hw⟩
      rw [hg] at hg'; cases hg'
      have := k5.2 (by
        intro a ha l hl
        cases hl
        rw [hsorted g hg, h1.spec]
        exact hw a ha)
      unfold guestEntry
      simp only [hg, Res.unwrap, this, Res.ok_bind]
      rfl
  · have hv0 : SameView X r.toReader r.toReader := ⟨rfl, rfl, rfl, rfl, fun _ _ _ _ => rfl, fun _ _ _ _ => rfl,
      fun _ _ _ _ l hl => ⟨l, hl, rfl⟩⟩
    obtain ⟨pre', atts, k1, k2, voters, k3, -, -⟩ := C61_verdict_iff X cfg _ _ post slot hv hv0 rfl
    cases k1; cases k2
    refine ⟨voters, by rw [← ht.start]; exact k3, ?_⟩
    constructor
    · intro hj
      unfold guestEntry at hj
      simp only [Res.bind_eq_ok, Res.unwrap_eq_ok] at hj
      obtain ⟨g, hg', _⟩ := hj
      exact absurd ⟨g, hg'⟩ hg
    · rintro ⟨g, hg', _⟩
      exact absurd ⟨g, hg'⟩ hg

/-- **C61.** In particular, if no active validator's balance has changed since the trusted state, the guest commits to the
journal of the host for every input it accepts. -/
theorem C61_same_journal (ht : TrustedState X r trusted st)
    (hc : Consistent X r trusted st (verifyQueries X r.spec r.attestations post.finalized.root))
    (h : preflight X order cfg r trusted = .ok (input, pre, post, slot))
    (hbal : ∀ a ∈ r.attestations, ∀ s, r.state a.data.target.epoch = .ok s →
      ∀ (i : Nat) (v w : Validator), st.beacon.validators[i]? = some v → s.beacon.validators[i]? = some w →
        w.activeAt a.data.target.epoch → w.effectiveBalance = v.effectiveBalance)
    (hacc : ∃ g, input.intoReader X r.spec = .ok g) {ε : Type} :
    (guestEntry X r.spec cfg input : Res ε Bytes) = .ok (Abi.encodeJournal pre post slot) := by
  obtain ⟨g, hg⟩ := hacc
  obtain ⟨hv, rfl, log, hl, hi⟩ := preflight_parts X order ht h
  have hf := inputFor_of_toInput X order ho hcap ht hc hl hi
  obtain ⟨h1, h2⟩ := guest_sameView X order ho hcap ht hc h hg
  obtain ⟨pre', atts, k1, k2, voters, k3, k4, k5⟩ := C61_verdict_iff X cfg _ _ post slot hv h1 h2
  cases k1; cases k2
  have hv0 : SameView X r.toReader r.toReader := ⟨rfl, rfl, rfl, rfl, fun _ _ _ _ => rfl, fun _ _ _ _ => rfl,
    fun _ _ _ _ l hl => ⟨l, hl, rfl⟩⟩
  have hr := preflightRun_recorded hl
  have hverify : verify X cfg g.toReader = .ok (post, slot) := by
    obtain ⟨pre₂, atts₂, e1, e2, e3, e4, e5⟩ := verify_ok hv
    cases e1; cases e2
    obtain ⟨vot, hcv⟩ := groups_counted e3
    have htr := (verifyLoop_transfer (fun p hp => h1.group (atts := r.attestations) rfl hp) hcv e3 post).2 ⟨rfl, ?_⟩
    · exact verify_ok_of (by rw [h1.start]; rfl) (by rw [h1.votes]; rfl) htr e4 (by rw [h2]; exact e5)
    · have hself := ((verifyLoop_transfer (fun p hp => hv0.group (atts := r.attestations) rfl hp) hcv e3 post).1 e3).2
      rintro ⟨l, gr⟩ hp l' hl'
      cases hl'
      obtain ⟨hne, hk⟩ := chunkBy_key hp
      obtain ⟨a, hag⟩ := List.exists_mem_of_ne_nil gr hne
      have ha : a ∈ r.attestations := by
        rw [← chunkBy_flatten (key := linkOf) r.attestations]
        exact List.mem_flatMap.2 ⟨_, hp, hag⟩
      have hla := hk a hag
      subst hla
      have hq : Query.activeValidators a.data.target.epoch ∈
          verifyQueries X r.spec r.attestations post.finalized.root :=
        mem_verifyQueries.2 (Or.inl ⟨a, ha, Or.inl rfl⟩)
      obtain ⟨hge, al, hal⟩ := hr.answered _ hq
      obtain ⟨s, hs⟩ := activeValidators_state hal
      have hw := hself _ hp al (toReader_active.2 hal)
      have hspec : g.toReader.spec = r.spec := h1.spec
      rw [hspec]
      obtain ⟨slots, -, -, -, s4⟩ := intoReader_built ht hf
      have hsorted : OMap.ofList (g.activeValidators (linkOf a).target.epoch) =
          g.activeValidators (linkOf a).target.epoch := by
        obtain ⟨-, rfl⟩ := (s4 g).1 hg
        exact OMap.ofList_sorted (OMap.sorted_filter (present_sorted _ _ _) _)
      dsimp only
      rw [hsorted]
      obtain ⟨-, rfl⟩ := (s4 g).1 hg
      rw [OMap.ofList_sorted (activeValidators_sorted hal), activeValidators_eq_activeIn hs hal] at hw
      refine enoughWeight_congr (Eq.symm ?_) hw
      refine patched_project (fun v => v.effectiveBalance) ?_ ht.far hge (hc.states _ s (Or.inr hq) hs) rfl ?_
      · intro i v w key hvi hwi hact
        obtain ⟨v₀, g1, -, -, g3, -⟩ := registryOf_get? hvi
        have := hbal a ha s hs i v₀ w g1 hwi hact
        simp only [Validator.info]
        rw [this, g3]
      · by_cases het : a.data.target.epoch = trusted.epoch
        · right
          refine ⟨het, ?_⟩
          unfold GuestReader.patchAt
          dsimp only
          have hee : (linkOf a).target.epoch = a.data.target.epoch := rfl
          rw [hee]
          cases hp : input.patches.get? a.data.target.epoch with
          | none => rfl
          | some p => exact hf.patches.no_exits _ p (Or.inr het) hp
        · left
          obtain ⟨s', p, h1, h2, h3⟩ := hf.patches.exits _ hq het
          rw [hs] at h1
          cases h1
          rw [changedExits_registryOf]
          unfold GuestReader.patchAt
          dsimp only
          have hee : (linkOf a).target.epoch = a.data.target.epoch := rfl
          rw [hee, h2]
          exact h3
  unfold guestEntry
  simp only [hg, Res.unwrap, hverify, Res.ok_bind]
  rfl

/-- **C61.** From the host's verification to the guest's journal, when between the trusted state and the target epochs no exit was
initiated and no active validator's balance has changed: the preflight gives an input, the guest accepts it, and it
commits to the result of the host. -/
theorem C61_quiet_period (ht : TrustedState X r trusted st)
    (hv : verify X cfg r.toReader = .ok (post, slot))
    (hc : Consistent X r trusted st (verifyQueries X r.spec r.attestations post.finalized.root))
    (ha : ∃ a, r.activeValidators trusted.epoch = .ok a)
    (hq : r.spec.churnLimitQuotient ≠ 0) (hinc : r.spec.effectiveBalanceIncrement ≠ 0)
    (total : Nat) (htotal : total = totalWeight ((present r.decompress
      (registryOf r.spec st.beacon r.consensusState) trusted.epoch).filter (fun x => x.2.isActiveAt trusted.epoch)))
    (hweight : total < 2 ^ 64) (hchurn : doubleChurn r.spec (floored r.spec total) < 2 ^ 64)
    (hsame : ∀ a ∈ r.attestations, ∀ s, r.state a.data.target.epoch = .ok s →
      ∀ (i : Nat) (v w : Validator), st.beacon.validators[i]? = some v → s.beacon.validators[i]? = some w →
        w.exitEpoch = v.exitEpoch ∧ (w.activeAt a.data.target.epoch → w.effectiveBalance = v.effectiveBalance))
    {ε : Type} :
    ∃ input, preflight X order cfg r trusted = .ok (input, r.consensusState, post, slot) ∧
      (guestEntry X r.spec cfg input : Res ε Bytes) = .ok (Abi.encodeJournal r.consensusState post slot) := by
  obtain ⟨input, hp⟩ := C61_preflight_succeeds X order ho hcap ht hv hc ha
  refine ⟨input, hp, ?_⟩
  obtain ⟨-, -, log, hl, hi⟩ := preflight_parts X order ht hp
  obtain ⟨pre', atts, h1, h2, h3, -⟩ := verify_answered hv
  cases h1; cases h2
  refine C61_same_journal X order ho hcap ht hc hp (fun a hm s hs i v w hvi hwi => (hsame a hm s hs i v w hvi hwi).2) ?_
  refine C60_accepted_without_exits_partial X order ho hcap ht hc hl hi hq hinc total htotal hweight hchurn ?_ ?_
  · intro e i hm
    rcases mem_verifyQueries.1 hm with ⟨a, ha, h | h⟩ | h
    · cases h
    · cases h
      rw [← ht.start]
      exact (h3 a ha).1
    · cases h
  · intro e s hm hs i v w hvi hwi
    rcases mem_verifyQueries.1 hm with ⟨a, ha, h | h⟩ | h
    · cases h
      exact (hsame a ha s hs i v w hvi hwi).1
    · cases h
    · cases h

omit ho hcap

/-! ## Concrete cases -/

set_option maxRecDepth 100000 in
theorem fx_queries : verifyQueries exExt fxHost.spec fxHost.attestations gxC6.root = fxQueries := by decide +kernel

/-- No balance changes in the states of the concrete host. -/
theorem fx_balances {e : Nat} (s : HostState) (hs : fxHost.state e = .ok s) (i : Nat) (v w : Validator)
    (hvi : (fxState 12 gxVs).beacon.validators[i]? = some v) (hwi : s.beacon.validators[i]? = some w) :
    w.effectiveBalance = v.effectiveBalance := by
  have key : ∀ vs : List Validator, ((gxVs.zip vs).all fun x => decide (x.2.effectiveBalance = x.1.effectiveBalance)) = true →
      (fxState 12 gxVs).beacon.validators[i]? = some v → vs[i]? = some w → w.effectiveBalance = v.effectiveBalance := by
    intro vs hall h1 h2
    have := List.all_eq_true.1 hall (v, w) (List.mem_of_getElem? (i := i) (List.getElem?_zip_eq_some.2 ⟨h1, h2⟩))
    exact of_decide_eq_true this
  rcases fx_state_cases hs with ⟨-, rfl⟩ | ⟨-, rfl⟩ | ⟨-, rfl⟩
  · exact key gxVs (by decide) hvi hwi
  · exact key fxVs (by decide) hvi hwi
  · exact key fxVs (by decide) hvi hwi

/-- C61 for a concrete host, with an exit and a new validator between the trusted state and the votes: the preflight
succeeds and the guest commits to the host's result. -/
theorem fx_same_journal : ∃ input, preflight exExt id Config.default fxHost gxC3 =
      .ok (input, fxHost.consensusState, ⟨exC7, gxC6⟩, 24) ∧
    (guestEntry exExt fxHost.spec Config.default input : Res Unit Bytes) =
      .ok (Abi.encodeJournal fxHost.consensusState ⟨exC7, gxC6⟩ 24) := by
  have hcap : 126 ≤ exExt.stackCapacity := by decide
  have ho : ∀ l : List Nat, (id l).Perm l := fun l => List.Perm.refl l
  have hc : Consistent exExt fxHost gxC3 (fxState 12 gxVs)
      (verifyQueries exExt fxHost.spec fxHost.attestations (⟨exC7, gxC6⟩ : ConsensusState).finalized.root) := by
    rw [show (⟨exC7, gxC6⟩ : ConsensusState).finalized.root = gxC6.root from rfl, fx_queries]
    exact fx_consistent
  obtain ⟨input, hp⟩ := C61_preflight_succeeds exExt id ho hcap fx_trusted fx_verifies hc fx_active
  refine ⟨input, hp, C61_same_journal exExt id ho hcap fx_trusted hc hp ?_ ?_⟩
  · exact fun a _ s hs i v w hvi hwi _ => fx_balances s hs i v w hvi hwi
  · obtain ⟨-, -, log, hl, hi⟩ := preflight_parts exExt id fx_trusted hp
    have hf := inputFor_of_toInput exExt id ho hcap fx_trusted hc hl hi
    rw [show (⟨exC7, gxC6⟩ : ConsensusState).finalized.root = gxC6.root from rfl, fx_queries, fx_log] at hl
    cases hl
    obtain ⟨st, b1, b2, h1, h2, h3, h4⟩ := toInput_patches exExt id hi
    rw [fx_trusted.found] at h1
    cases h1
    have hp : input.patches = gxPatches := h4.trans (fx_patches h2 h3)
    obtain ⟨slots, -, -, -, s4⟩ := intoReader_built fx_trusted hf
    have hreg : registryOf fxHost.spec (fxState 12 gxVs).beacon fxHost.consensusState = gxVs := fx_registry
    refine ⟨_, (s4 _).2 ⟨?_, rfl⟩⟩
    rw [hreg, hp]
    exact fx_accepted

/-! A host with nothing but a new validator between the trusted state and the votes. -/

def fqVs : List Validator := gxVs ++ [⟨exExt.pkSerialize [201], exRoot32 1, 32, false, u64Max, u64Max, u64Max, u64Max⟩]

def fqProvider (slot : Nat) : Res ProviderError HostState :=
  if slot = 12 then .ok (fxState 12 gxVs)
  else if slot = 24 then .ok (fxState 24 fqVs)
  else if slot = 28 then .ok (fxState 28 fqVs)
  else .err (.notFound slot)

def fqHost : HostReader := { fxHost with provider := fqProvider }

theorem fq_trusted : TrustedState exExt fqHost gxC3 (fxState 12 gxVs) where
  found := by
    have h1 : stateAtEpochBoundary (hostStateOps exExt) fqHost.spec.slotsPerEpoch fqHost.provider gxC3.epoch =
        .ok (fxState 12 gxVs) := rfl
    unfold stateAtCheckpoint
    rw [h1, Res.ok_bind]
    have h2 : ({ (hostStateOps exExt).latestBlockHeader (fxState 12 gxVs) with
        stateRoot := (hostStateOps exExt).hashTreeRoot (fxState 12 gxVs) } : Header) = gxHdr := fx_filled
    dsimp only at h2 ⊢
    rw [h2]
    simp [gxC3, ensure]
  start := rfl
  wf := gxState_wf
  header_wf := by rw [fx_filled]; exact gxHdr_wf
  fork := by decide
  slots_per_epoch := by decide
  finalized_past := by decide
  justified := by decide
  small := by decide
  far := by decide
  keys := by
    intro v hv
    refine ⟨v.pubkey ++ List.replicate 48 0, rfl, ?_⟩
    have : ∀ v ∈ gxVs, exExt.pkSerialize (v.pubkey ++ List.replicate 48 0) = v.pubkey := by decide +kernel
    exact this v hv

theorem fq_state_cases {e : Nat} {s : HostState} (h : fqHost.state e = .ok s) :
    (e = 3 ∧ s = fxState 12 gxVs) ∨ (e = 6 ∧ s = fxState 24 fqVs) ∨ (e = 7 ∧ s = fxState 28 fqVs) := by
  have h : fqProvider (satMul e 4) = .ok s := Res.mapErr_eq_ok.1 h
  unfold fqProvider at h
  have hs : ∀ n, n < 100 → satMul e 4 = n → e * 4 = n := by
    intro n hn hm
    unfold satMul at hm
    have : (2 : Nat) ^ 64 = 18446744073709551616 := by norm_num
    omega
  split at h
  · rename_i h12
    cases h
    exact Or.inl ⟨by have := hs 12 (by omega) h12; omega, rfl⟩
  · split at h
    · rename_i h24
      cases h
      exact Or.inr (Or.inl ⟨by have := hs 24 (by omega) h24; omega, rfl⟩)
    · split at h
      · rename_i h28
        cases h
        exact Or.inr (Or.inr ⟨by have := hs 28 (by omega) h28; omega, rfl⟩)
      · simp at h

theorem fq_consistent : Consistent exExt fqHost gxC3 (fxState 12 gxVs) fxQueries where
  states := by
    intro e s _ hs
    have hreg : registryOf fqHost.spec (fxState 12 gxVs).beacon fqHost.consensusState = gxVs := fx_registry
    rw [hreg]
    apply continues_of_check
    rcases fq_state_cases hs with ⟨rfl, rfl⟩ | ⟨rfl, rfl⟩ | ⟨rfl, rfl⟩ <;> decide +kernel
  headers := by
    intro root h hh
    have hh : (if root = gxHdr6.tree.root exExt then some gxHdr6 else none) = some h := by
      unfold fqHost fxHost at hh
      simpa using hh
    split at hh
    · rename_i hr
      cases hh
      exact ⟨gxHdr6_wf, hr.symm⟩
    · simp at hh
  genesis := rfl
  forks := by
    intro e s hs
    rcases fq_state_cases hs with ⟨rfl, rfl⟩ | ⟨rfl, rfl⟩ | ⟨rfl, rfl⟩ <;> rfl

theorem fq_active : ∃ a, fqHost.activeValidators gxC3.epoch = .ok a := by
  have h : fqHost.activeValidators gxC3.epoch = .ok exActive := by decide +kernel
  exact ⟨_, h⟩

set_option maxRecDepth 100000 in
theorem fq_verifies : verify exExt Config.default fqHost.toReader = .ok (⟨exC7, gxC6⟩, 24) := by decide +kernel

/-- C61 for that host, with the hypotheses of the quiet period. -/
example : ∃ input, preflight exExt id Config.default fqHost gxC3 =
      .ok (input, fqHost.consensusState, ⟨exC7, gxC6⟩, 24) ∧
    (guestEntry exExt fqHost.spec Config.default input : Res Unit Bytes) =
      .ok (Abi.encodeJournal fqHost.consensusState ⟨exC7, gxC6⟩ 24) := by
  have hreg : registryOf fqHost.spec (fxState 12 gxVs).beacon fqHost.consensusState = gxVs := fx_registry
  have htot : totalWeight ((present fqHost.decompress (registryOf fqHost.spec (fxState 12 gxVs).beacon
      fqHost.consensusState) gxC3.epoch).filter (fun x => x.2.isActiveAt gxC3.epoch)) = 320 := by
    rw [hreg, show present fqHost.decompress gxVs gxC3.epoch = exActive from fx_present]; decide +kernel
  refine C61_quiet_period exExt id (fun l => List.Perm.refl l) (by decide) fq_trusted fq_verifies ?_ fq_active (by decide)
    (by decide) 320 htot.symm (by decide) (by decide) ?_
  · have e : verifyQueries exExt fqHost.spec fqHost.attestations (⟨exC7, gxC6⟩ : ConsensusState).finalized.root =
      fxQueries := fx_queries
    rw [e]
    exact fq_consistent
  · intro a _ s hs i v w hvi hwi
    have key : ∀ vs : List Validator, ((gxVs.zip vs).all fun x => decide (x.2 = x.1)) = true →
        (fxState 12 gxVs).beacon.validators[i]? = some v → vs[i]? = some w → w = v := by
      intro vs hall h1 h2
      have := List.all_eq_true.1 hall (v, w) (List.mem_of_getElem? (i := i) (List.getElem?_zip_eq_some.2 ⟨h1, h2⟩))
      exact of_decide_eq_true this
    have : w = v := by
      rcases fq_state_cases hs with ⟨-, rfl⟩ | ⟨-, rfl⟩ | ⟨-, rfl⟩
      · exact key gxVs (by decide +kernel) hvi hwi
      · exact key fqVs (by decide +kernel) hvi hwi
      · exact key fqVs (by decide +kernel) hvi hwi
    subst this
    exact ⟨rfl, fun _ => rfl⟩

/-! Two readers with the same view of the chain but other balances. -/

/-- The reader of the example, with ten times the balance for validators 5 to 9 at epoch 7. -/
def exReaderB : Reader := { exReader with
  activeValidators := fun e => .ok (if e = 7 then
    exActive.map (fun x => if 5 ≤ x.1 then (x.1, { x.2 with effectiveBalance := 320 }) else x) else exActive) }

set_option maxRecDepth 100000 in
/-- C61: the second reader has the same view, and it fails since the voters lack weight with its balances (validator 9, which
is slashed, is the heavier for it). -/
theorem C61_balances_matter : ∃ (X : Ext) (R G : Reader) (post : ConsensusState) (slot : Nat) (e : VerifyError),
    SameView X R G ∧ G.slotForBlock = R.slotForBlock ∧ verify X Config.default R = .ok (post, slot) ∧
      verify X Config.default G = .err e := by
  refine ⟨exExt, exReader, exReaderB, ⟨exC7, exC6⟩, 24, .thresholdNotMet 1440 1496, ?_, rfl, exReader_verifies, by decide +kernel⟩
  refine ⟨rfl, rfl, rfl, rfl, fun _ _ _ _ => rfl, fun _ _ _ _ => rfl, ?_⟩
  intro atts _ a _ l hl
  cases hl
  refine ⟨_, rfl, ?_⟩
  split
  · decide
  · rfl

end Signal
