import Verif.Proofs.Timed

/-! Proofs for answers that change: the preflight and `prepare_input`. -/

namespace Signal.Timed
open Spec Wire Program

theorem mapErr_bind {ε ε' α β : Type} (g : ε → ε') (x : Res ε α) (f : α → Res ε β) :
    (x >>= f).mapErr g = x.mapErr g >>= fun a => (f a).mapErr g := by
  cases x <;> rfl

theorem mapErr_mapErr {ε ε' ε'' α : Type} (g : ε → ε') (h : ε' → ε'') (x : Res ε α) :
    (x.mapErr g).mapErr h = x.mapErr (fun e => h (g e)) := by
  cases x <;> rfl

/-! ## The record -/

theorem preflightRun_fold {t : Nat} {r : HostReader} : ∀ {qs : List Query} {log log' : PreflightLog},
    preflightRun t r log qs = .ok log' → log' = qs.foldl record log
  | [], log, log', h => by cases h; rfl
  | q :: qs, log, log', h => by
    unfold preflightRun at h
    rw [Res.bind_eq_ok] at h
    obtain ⟨l, h1, h2⟩ := h
    have : l = record log q := by
      cases q with
      | activeValidators e =>
        simp only [preflightQuery, Res.bind_eq_ok, Res.pure_eq] at h1
        obtain ⟨_, _, _, _, h⟩ := h1
        cases h; rfl
      | randaoMix e i =>
        simp only [preflightQuery, Res.bind_eq_ok, Res.pure_eq] at h1
        obtain ⟨_, _, _, _, h⟩ := h1
        cases h; rfl
      | slotForBlock root =>
        simp only [preflightQuery, Res.bind_eq_ok, Res.pure_eq] at h1
        obtain ⟨_, _, h⟩ := h1
        cases h; rfl
    rw [List.foldl_cons, ← this]
    exact preflightRun_fold h2

/-- What the groups of votes record. -/
def groupLog (X : Ext) (spec : ChainSpec) (attestations : List Attestation) : PreflightLog :=
  ((chunkBy attLink attestations).flatMap (fun (link, _) =>
    [.activeValidators link.target.epoch, .randaoMix link.target.epoch (seedMixIndex X spec link.target.epoch)])).foldl record .empty

theorem fold_groups (X : Ext) (spec : ChainSpec) (n : Nat) : ∀ (groups : List (Link × List Attestation)) (lg : PreflightLog),
    (groups.map (·.1)).foldl (Logic.recGroup X spec (fun (a : Known) q => (record a.1 q, a.2))) (lg, n) =
      ((groups.flatMap (fun (link, _) =>
        [Query.activeValidators link.target.epoch, .randaoMix link.target.epoch (seedMixIndex X spec link.target.epoch)])).foldl record lg, n)
  | [], lg => rfl
  | (link, _) :: gs, lg => by
    rw [List.map_cons, List.foldl_cons, List.flatMap_cons, List.foldl_append]
    exact fold_groups X spec n gs _

theorem groups_blockReads (X : Ext) (spec : ChainSpec) : ∀ (groups : List (Link × List Attestation)) (lg : PreflightLog),
    ((groups.flatMap (fun (link, _) =>
        [Query.activeValidators link.target.epoch, .randaoMix link.target.epoch (seedMixIndex X spec link.target.epoch)])).foldl record
          lg).blockReads = lg.blockReads
  | [], lg => rfl
  | (link, _) :: gs, lg => by
    rw [List.flatMap_cons, List.foldl_append, groups_blockReads X spec gs]
    rfl

/-- The record of the whole preflight. -/
def finalLog (X : Ext) (spec : ChainSpec) (attestations : List Attestation) (root : Root) : PreflightLog :=
  record (groupLog X spec attestations) (.slotForBlock root)

theorem finalLog_eq (X : Ext) (spec : ChainSpec) (atts : List Attestation) (root : Root) :
    (verifyQueries X spec atts root).foldl record .empty = finalLog X spec atts root := by
  unfold verifyQueries finalLog groupLog
  rw [List.foldl_append]
  rfl

theorem finalLog_blockReads (X : Ext) (spec : ChainSpec) (atts : List Attestation) (root : Root) :
    (finalLog X spec atts root).blockReads = [root] := by
  unfold finalLog record groupLog
  dsimp only
  rw [groups_blockReads]
  rfl

/-! ## The preflight step by step -/

/-- The error of a missing header. -/
def slotStep (h : Res HostError (Option Header)) : Res PreflightRunError Nat :=
  (h >>= fun h => okOr .blockMissing h >>= fun h => .ok h.slot).mapErr (fun _ => .verify .stateReader)

theorem signal_preflight_eq {X : Ext} {order : List Nat → List Nat} {cfg : Config} {r : HostReader} {trusted : Checkpoint}
    (ht : trusted.epoch ≤ r.consensusState.finalized.epoch) : Signal.preflight X order cfg r trusted =
      (Signal.verifyLoop X cfg (preflightReader trusted.epoch r.toReader) r.consensusState.finalized r.consensusState
        (chunkBy attLink r.attestations)).mapErr .verify >>= fun post =>
      (ensure (decide (post.finalized ≠ r.consensusState.finalized)) (VerifyError.invalidFinalization post.finalized)).mapErr .verify
        >>= fun _ =>
      slotStep (r.headers post.finalized.root) >>= fun slot =>
      (Signal.toInput X order r trusted (finalLog X r.spec r.attestations post.finalized.root)).mapErr .input >>= fun input =>
      .ok (input, input.consensusState, post, slot) := by
  have hv : Signal.verify X cfg (preflightReader trusted.epoch r.toReader) =
      Signal.verifyLoop X cfg (preflightReader trusted.epoch r.toReader) r.consensusState.finalized r.consensusState
        (chunkBy attLink r.attestations) >>= fun post =>
      ensure (decide (post.finalized ≠ r.consensusState.finalized)) (VerifyError.invalidFinalization post.finalized) >>= fun _ =>
      (((r.slotForBlock post.finalized.root).mapErr (fun _ => ReaderError.other)).mapErr (fun _ => VerifyError.stateReader)) >>= fun slot =>
      .ok (post, slot) := rfl
  have hlog : ∀ post slot, Signal.verify X cfg (preflightReader trusted.epoch r.toReader) = .ok (post, slot) →
      preflightRun trusted.epoch r .empty (verifyQueries X r.spec r.attestations post.finalized.root) =
        .ok (finalLog X r.spec r.attestations post.finalized.root) := by
    intro post slot h
    have h' := (C61_recording_transparent X cfg r.toReader r.consensusState trusted.epoch rfl ht _).1 h
    obtain ⟨log, hl⟩ := C61_requests_recorded X cfg r trusted.epoch post slot ht h'
    rw [hl, preflightRun_fold hl, finalLog_eq]
  unfold Signal.preflight
  cases h1 : Signal.verifyLoop X cfg (preflightReader trusted.epoch r.toReader) r.consensusState.finalized r.consensusState
        (chunkBy attLink r.attestations) with
  | err e => rw [hv, h1]; rfl
  | panic => rw [hv, h1]; rfl
  | ok post =>
    rw [h1, Res.ok_bind] at hv
    cases h2 : (ensure (decide (post.finalized ≠ r.consensusState.finalized)) (VerifyError.invalidFinalization post.finalized) :
        Res VerifyError Unit) with
    | err e => rw [hv, h2]; simp only [Res.mapErr, Res.ok_bind, h2]; rfl
    | panic => rw [hv, h2]; simp only [Res.mapErr, Res.ok_bind, h2]; rfl
    | ok u =>
      rw [h2, Res.ok_bind] at hv
      have h3 : slotStep (r.headers post.finalized.root) =
          (r.slotForBlock post.finalized.root).mapErr (fun _ => PreflightRunError.verify .stateReader) := rfl
      cases h4 : r.slotForBlock post.finalized.root with
      | err e => rw [hv, h4]; simp only [Res.mapErr, Res.ok_bind, h2, h3, h4]; rfl
      | panic => rw [hv, h4]; simp only [Res.mapErr, Res.ok_bind, h2, h3, h4]; rfl
      | ok slot =>
        have hv' : Signal.verify X cfg (preflightReader trusted.epoch r.toReader) = .ok (post, slot) := by
          rw [hv, h4]; rfl
        have hl := hlog post slot hv'
        rw [hv']
        simp only [Res.mapErr, Res.ok_bind, h2, h3, h4, hl]
        rfl

theorem timed_preflight_eq {X : Ext} {order : List Nat → List Nat} {cfg : Config} {r : Host} {trusted : Checkpoint} {s : Session} :
    preflight X order cfg r trusted s =
      (verifyLoop X cfg (r.recording trusted.epoch) r.consensusState.finalized r.consensusState
        (chunkBy attLink r.attestations) s).mapErr .verify >>= fun p =>
      (ensure (decide (p.1.finalized ≠ r.consensusState.finalized)) (VerifyError.invalidFinalization p.1.finalized)).mapErr .verify
        >>= fun _ =>
      slotStep (r.outside.header p.2.headerRequests p.1.finalized.root) >>= fun slot =>
      (toInput X order r trusted { p.2 with
        headerRequests := p.2.headerRequests + 1,
        log := record p.2.log (.slotForBlock p.1.finalized.root) }).mapErr .input >>= fun q =>
      .ok ((q.1, q.1.consensusState, p.1, slot), q.2) := by
  have h1 : preflight X order cfg r trusted s = ((verifyLoop X cfg (r.recording trusted.epoch) r.consensusState.finalized r.consensusState
        (chunkBy attLink r.attestations) s >>= fun p =>
      (ensure (decide (p.1.finalized ≠ r.consensusState.finalized)) (VerifyError.invalidFinalization p.1.finalized) >>= fun u =>
        .ok (u, p.2)) >>= fun u =>
      ((((r.slotForBlock p.1.finalized.root) u.2).mapErr (fun _ => ReaderError.other) >>= fun v =>
        .ok (v.1, { v.2 with log := record v.2.log (.slotForBlock p.1.finalized.root) })).mapErr (fun _ => VerifyError.stateReader)) >>=
        fun v => .ok ((p.1, v.1), v.2)).mapErr PreflightRunError.verify) >>= fun p =>
      (toInput X order r trusted p.2).mapErr .input >>= fun q => .ok ((q.1, q.1.consensusState, p.1.1, p.1.2), q.2) := rfl
  rw [h1]
  cases verifyLoop X cfg (r.recording trusted.epoch) r.consensusState.finalized r.consensusState (chunkBy attLink r.attestations) s with
  | err e => rfl
  | panic => rfl
  | ok p =>
    obtain ⟨post, s1⟩ := p
    simp only [Res.ok_bind, Res.mapErr]
    cases (ensure (decide (post.finalized ≠ r.consensusState.finalized)) (VerifyError.invalidFinalization post.finalized) :
        Res VerifyError Unit) with
    | err e => rfl
    | panic => rfl
    | ok u =>
      simp only [Res.ok_bind]
      have h2 : r.slotForBlock post.finalized.root s1 = r.outside.header s1.headerRequests post.finalized.root >>= fun h =>
          okOr .blockMissing h >>= fun h => .ok (h.slot, { s1 with headerRequests := s1.headerRequests + 1 }) := by
        show ((r.outside.header s1.headerRequests post.finalized.root >>= fun h =>
          Res.ok (h, { s1 with headerRequests := s1.headerRequests + 1 })) >>= fun p =>
            (okOr HostError.blockMissing p.1 >>= fun h => Res.ok (h, p.2)) >>= fun p => Res.ok (p.1.slot, p.2)) = _
        cases r.outside.header s1.headerRequests post.finalized.root with
        | err e => rfl
        | panic => rfl
        | ok h => cases h <;> rfl
      rw [h2]
      unfold slotStep
      cases r.outside.header s1.headerRequests post.finalized.root with
      | err e => rfl
      | panic => rfl
      | ok h => cases h <;> rfl

/-! ## The preflight over both kinds of answers -/

section
variable {X : Ext} {order : List Nat → List Nat} {cfg : Config} {r : Host} {trusted : Checkpoint}

/-- The loop over the votes, with what is known. -/
theorem loop_rule {g : Root} {H : Root → Res HostError (Option Header)} {Ix : Type} (L : HostLogic r g H Ix) (n : Nat) :
    L.J (verifyLoop X cfg (r.recording trusted.epoch) r.consensusState.finalized r.consensusState (chunkBy attLink r.attestations))
      (fun i => Signal.verifyLoop X cfg (preflightReader trusted.epoch (still r g H (L.P i)).toReader) r.consensusState.finalized
        r.consensusState (chunkBy attLink r.attestations)) (.empty, n) (groupLog X r.spec r.attestations, n) := by
  have h := Logic.verifyLoop (X := X) (L.related trusted.epoch) cfg r.consensusState.finalized (chunkBy attLink r.attestations)
    r.consensusState (PreflightLog.empty, n) trivial
  rw [fold_groups] at h
  exact h

/-- The preflight over fixed answers, once the votes are counted. -/
theorem signal_preflight_step {g : Root} {H : Root → Res HostError (Option Header)} {P : Nat → Res ProviderError HostState}
    (ht : trusted.epoch ≤ r.consensusState.finalized.epoch) {post : ConsensusState}
    (h : Signal.verifyLoop X cfg (preflightReader trusted.epoch (still r g H P).toReader) r.consensusState.finalized
        r.consensusState (chunkBy attLink r.attestations) = .ok post) :
    Signal.preflight X order cfg (still r g H P) trusted =
      (ensure (decide (post.finalized ≠ r.consensusState.finalized)) (VerifyError.invalidFinalization post.finalized)).mapErr .verify
        >>= fun _ =>
      slotStep (H post.finalized.root) >>= fun slot =>
      (signalInputHead X order (still r g H P) trusted (finalLog X r.spec r.attestations post.finalized.root) >>= fun k =>
        mapRes (Signal.slotProof X order (still r g H P)) [post.finalized.root] >>= fun ps => .ok (k ps)).mapErr .input >>= fun input =>
      .ok (input, input.consensusState, post, slot) := by
  rw [signal_preflight_eq (r := still r g H P) ht]
  have h : Signal.verifyLoop X cfg (preflightReader trusted.epoch (still r g H P).toReader) (still r g H P).consensusState.finalized
        (still r g H P).consensusState (chunkBy attLink (still r g H P).attestations) = .ok post := h
  rw [h]
  simp only [Res.mapErr, Res.ok_bind, signalInput_parts, finalLog_blockReads]
  rfl

/-- What explains an outcome of the preflight: a success by all answers that agree with the cache, a failure by some answers that were
given. -/
def PreflightExplained (X : Ext) (order : List Nat → List Nat) (cfg : Config) (r : Host) (trusted : Checkpoint) (g : Root)
    (C : StateCache HostState) : Res PreflightRunError ((GuestInput × ConsensusState × ConsensusState × Nat) × Session) → Prop
  | .ok ((input, pre, post, slot), s') => Inv r true s' ∧ C <+: s'.cache ∧ ∃ h0 h1 : Header,
      r.outside.header 0 post.finalized.root = .ok (some h0) ∧ slot = h0.slot ∧
      r.outside.header 1 post.finalized.root = .ok (some h1) ∧ ∀ P, Gives s'.cache P →
        Signal.preflight X order cfg (still r g (r.outside.header 1) P) trusted = .ok (input, pre, post, h1.slot)
  | .err _ => ∃ k e', Fails r C (fun P => Signal.preflight X order cfg (still r g (r.outside.header k) P) trusted) (.err e')
  | .panic => ∃ k, Fails r C (fun P => Signal.preflight X order cfg (still r g (r.outside.header k) P) trusted) .panic

theorem preflight_sound (g : Root) (hg : OneNetwork r.outside g) (ht : trusted.epoch ≤ r.consensusState.finalized.epoch)
    {s : Session} (hi : Inv r true s) (hl : s.log = .empty) (hn : s.headerRequests = 0) :
    PreflightExplained X order cfg r trusted g s.cache (preflight X order cfg r trusted s) := by
  rw [timed_preflight_eq]
  have v := fun k => loop_rule (X := X) (cfg := cfg) (trusted := trusted) (soundLogic r g hg (r.outside.header k)) 0 s hi (by rw [hl, hn])
  generalize verifyLoop X cfg (r.recording trusted.epoch) r.consensusState.finalized r.consensusState (chunkBy attLink r.attestations) s = q
    at v ⊢
  have ends : ∀ q : Res VerifyError ConsensusState, ∀ q' : Res PreflightRunError (GuestInput × ConsensusState × ConsensusState × Nat),
      (∀ P, Signal.verifyLoop X cfg (preflightReader trusted.epoch (still r g (r.outside.header 0) P).toReader)
        r.consensusState.finalized r.consensusState (chunkBy attLink r.attestations) = q →
        Signal.preflight X order cfg (still r g (r.outside.header 0) P) trusted = q') →
      Fails r s.cache (fun P => Signal.verifyLoop X cfg (preflightReader trusted.epoch (still r g (r.outside.header 0) P).toReader)
        r.consensusState.finalized r.consensusState (chunkBy attLink r.attestations)) q →
      Fails r s.cache (fun P => Signal.preflight X order cfg (still r g (r.outside.header 0) P) trusted) q' := by
    rintro q q' hq ⟨P, p1, p2, p3⟩
    exact ⟨P, p1, p2, hq P p3⟩
  cases q with
  | err e =>
    refine ⟨0, .verify e, ends (.err e) _ (fun P p => ?_) (v 0)⟩
    rw [signal_preflight_eq (r := still r g (r.outside.header 0) P) ht]
    have p : Signal.verifyLoop X cfg (preflightReader trusted.epoch (still r g (r.outside.header 0) P).toReader)
      (still r g (r.outside.header 0) P).consensusState.finalized (still r g (r.outside.header 0) P).consensusState
      (chunkBy attLink (still r g (r.outside.header 0) P).attestations) = .err e := p
    rw [p]
    rfl
  | panic =>
    refine ⟨0, ends .panic _ (fun P p => ?_) (v 0)⟩
    rw [signal_preflight_eq (r := still r g (r.outside.header 0) P) ht]
    have p : Signal.verifyLoop X cfg (preflightReader trusted.epoch (still r g (r.outside.header 0) P).toReader)
      (still r g (r.outside.header 0) P).consensusState.finalized (still r g (r.outside.header 0) P).consensusState
      (chunkBy attLink (still r g (r.outside.header 0) P).attestations) = .panic := p
    rw [p]
    rfl
  | ok p =>
    obtain ⟨post, s1⟩ := p
    obtain ⟨i1, p1, k1, -⟩ := v 0
    have f1 : ∀ k P, Gives s1.cache P → Signal.preflight X order cfg (still r g (r.outside.header k) P) trusted = _ :=
      fun k P hP => signal_preflight_step ht ((v k).2.2.2 P hP)
    have hn1 : s1.headerRequests = 0 := congrArg Prod.snd k1
    have hl1 : s1.log = groupLog X r.spec r.attestations := congrArg Prod.fst k1
    simp only [Res.mapErr, Res.ok_bind, hn1]
    have now : ∀ k q, Signal.preflight X order cfg (still r g (r.outside.header k) (fromCache s1.cache)) trusted = q →
        Fails r s.cache (fun P => Signal.preflight X order cfg (still r g (r.outside.header k) P) trusted) q :=
      fun k q h => ⟨_, (fromCache_gives _).of_prefix p1, i1.given, h⟩
    have f0 := fun k => f1 k _ (fromCache_gives s1.cache)
    cases h2 : (ensure (decide (post.finalized ≠ r.consensusState.finalized)) (VerifyError.invalidFinalization post.finalized) :
        Res VerifyError Unit) with
    | err e => exact ⟨0, .verify e, now 0 _ (by rw [f0, h2]; rfl)⟩
    | panic => exact ⟨0, now 0 _ (by rw [f0, h2]; rfl)⟩
    | ok u =>
      simp only [Res.ok_bind]
      cases h3 : slotStep (r.outside.header 0 post.finalized.root) with
      | err e => exact ⟨0, e, now 0 _ (by rw [f0, h2, h3]; rfl)⟩
      | panic => exact ⟨0, now 0 _ (by rw [f0, h2, h3]; rfl)⟩
      | ok slot =>
        simp only [Res.ok_bind]
        obtain ⟨h0, e0, e0'⟩ : ∃ h0 : Header, r.outside.header 0 post.finalized.root = .ok (some h0) ∧ slot = h0.slot := by
          unfold slotStep at h3
          rw [Res.mapErr_eq_ok, Res.bind_eq_ok] at h3
          obtain ⟨h0, e1, e2⟩ := h3
          rw [Res.bind_eq_ok] at e2
          obtain ⟨h0', e3, e4⟩ := e2
          rw [okOr_eq_ok] at e3
          subst e3
          cases e4
          exact ⟨h0', e1, rfl⟩
        rw [input_parts, run_bind]
        have hd := fun k => (soundLogic r g hg (r.outside.header k)).inputHead X order trusted
          (finalLog X r.spec r.attestations post.finalized.root) 1 { s1 with
            headerRequests := 0 + 1, log := record s1.log (.slotForBlock post.finalized.root) }
          ⟨i1.states, i1.validators, i1.some⟩ (by dsimp only; rw [hl1]; rfl)
        generalize inputHead X order r trusted { s1 with
            headerRequests := 0 + 1, log := record s1.log (.slotForBlock post.finalized.root) } = q at hd ⊢
        cases q with
        | err e =>
          obtain ⟨P, q1, q2, q3⟩ := hd 0
          have q3 : signalInputHead X order (still r g (r.outside.header 0) P) trusted
            (finalLog X r.spec r.attestations post.finalized.root) = .err e := q3
          exact ⟨0, .input e, P, Gives.of_prefix q1 p1, q2, by dsimp only; rw [f1 0 P q1, h2, h3, q3]; rfl⟩
        | panic =>
          obtain ⟨P, q1, q2, q3⟩ := hd 0
          have q3 : signalInputHead X order (still r g (r.outside.header 0) P) trusted
            (finalLog X r.spec r.attestations post.finalized.root) = .panic := q3
          exact ⟨0, P, Gives.of_prefix q1 p1, q2, by dsimp only; rw [f1 0 P q1, h2, h3, q3]; rfl⟩
        | ok p =>
          obtain ⟨kf, s2⟩ := p
          obtain ⟨i2, p2, k2, f2⟩ := hd 1
          have p2 : s1.cache <+: s2.cache := p2
          have k2 : (s2.log, s2.headerRequests) = (⟨[], [], [post.finalized.root]⟩, 1) := by
            rw [k2, finalLog_blockReads]
          have hl2 : s2.log = ⟨[], [], [post.finalized.root]⟩ := congrArg Prod.fst k2
          have f2 : ∀ P, Gives s2.cache P → signalInputHead X order (still r g (r.outside.header 1) P) trusted
            (finalLog X r.spec r.attestations post.finalized.root) = .ok kf := f2
          have sp : Explained r true s2.cache (fun P => mapRes (Signal.slotProof X order (still r g (r.outside.header 1) P))
              [post.finalized.root]) (⟨[], [], [post.finalized.root]⟩, 2) (slotProofs X order r [post.finalized.root] s2) :=
            HostLogic.slotProofs (sound_header r g hg) X order post.finalized.root ⟨[], [], [post.finalized.root]⟩ s2 i2 k2
          have hrun : ((fun s => .ok (s.log, s) : Ask Session PreflightError PreflightLog) >>= fun log =>
              slotProofs X order r log.blockReads >>= fun ps => pure (kf ps)) s2 =
              slotProofs X order r [post.finalized.root] s2 >>= fun p => .ok (kf p.1, p.2) := by
            show (slotProofs X order r s2.log.blockReads s2 >>= fun p => .ok (kf p.1, p.2)) = _
            rw [hl2]
          simp only [Res.ok_bind]
          rw [hrun]
          -- the fixed answers, with the second header
          have f3 : ∀ P, Gives s2.cache P → Signal.preflight X order cfg (still r g (r.outside.header 1) P) trusted =
              slotStep (r.outside.header 1 post.finalized.root) >>= fun slot =>
              (mapRes (Signal.slotProof X order (still r g (r.outside.header 1) P)) [post.finalized.root] >>= fun ps =>
                .ok (kf ps)).mapErr .input >>= fun input => .ok (input, input.consensusState, post, slot) := by
            intro P hP
            rw [f1 1 P (hP.of_prefix p2), h2, f2 P hP]
            rfl
          have proof : ∀ P, mapRes (Signal.slotProof X order (still r g (r.outside.header 1) P)) [post.finalized.root] =
              ((r.outside.header 1 post.finalized.root).mapErr PreflightError.host >>= fun h => okOr .blockNotFound h >>= fun h =>
                (build X order [8] h.tree).mapErr PreflightError.proof >>= fun proof =>
                (proof.verify X post.finalized.root).mapErr PreflightError.proof >>= fun _ => .ok proof) >>= fun p => .ok [p] :=
            fun P => rfl
          generalize slotProofs X order r [post.finalized.root] s2 = q at sp ⊢
          have p12 := p1.trans p2
          cases h1 : r.outside.header 1 post.finalized.root with
          | err x =>
            cases q with
            | ok p =>
              obtain ⟨-, -, -, f⟩ := sp
              have f := f _ (fromCache_gives _)
              dsimp only at f
              rw [proof, h1] at f
              cases f
            | err e =>
              exact ⟨1, .verify .stateReader, _, (fromCache_gives s2.cache).of_prefix p12, i2.given, by
                dsimp only; rw [f3 _ (fromCache_gives _), h1]; rfl⟩
            | panic =>
              obtain ⟨P, -, -, f⟩ := sp
              dsimp only at f
              rw [proof, h1] at f
              cases f
          | panic =>
            cases q with
            | ok p =>
              obtain ⟨-, -, -, f⟩ := sp
              have f := f _ (fromCache_gives _)
              dsimp only at f
              rw [proof, h1] at f
              cases f
            | err e =>
              obtain ⟨P, -, -, f⟩ := sp
              dsimp only at f
              rw [proof, h1] at f
              cases f
            | panic =>
              exact ⟨1, _, (fromCache_gives s2.cache).of_prefix p12, i2.given, by
                dsimp only; rw [f3 _ (fromCache_gives _), h1]; rfl⟩
          | ok oh =>
            cases oh with
            | none =>
              cases q with
              | ok p =>
                obtain ⟨-, -, -, f⟩ := sp
                have f := f _ (fromCache_gives _)
                dsimp only at f
                rw [proof, h1] at f
                cases f
              | err e =>
                exact ⟨1, .verify .stateReader, _, (fromCache_gives s2.cache).of_prefix p12, i2.given, by
                  dsimp only; rw [f3 _ (fromCache_gives _), h1]; rfl⟩
              | panic =>
                obtain ⟨P, -, -, f⟩ := sp
                dsimp only at f
                rw [proof, h1] at f
                cases f
            | some hd =>
              have hs : slotStep (r.outside.header 1 post.finalized.root) = .ok hd.slot := by rw [h1]; rfl
              cases q with
              | ok p =>
                obtain ⟨ps, s3⟩ := p
                obtain ⟨i3, p3, -, f⟩ := sp
                refine ⟨i3, p12.trans p3, h0, hd, e0, e0', h1, fun P hP => ?_⟩
                have f := f P hP
                dsimp only at f
                rw [f3 P (hP.of_prefix p3), hs, f]
                rfl
              | err e =>
                obtain ⟨P, q1, q2, f⟩ := sp
                dsimp only at f
                exact ⟨1, .input e, P, q1.of_prefix p12, q2, by dsimp only; rw [f3 P q1, hs, f]; rfl⟩
              | panic =>
                obtain ⟨P, q1, q2, f⟩ := sp
                dsimp only at f
                exact ⟨1, P, q1.of_prefix p12, q2, by dsimp only; rw [f3 P q1, hs, f]; rfl⟩

/-- If the states do not change, only the two requests for a header are left. -/
theorem preflight_two_headers (P : Nat → Res ProviderError HostState) (g : Root) (hP : ∀ k, r.outside.state k = P)
    (hg : ∀ slot st, P slot = .ok st → st.beacon.genesisValidatorsRoot = g)
    {s : Session} (hk : Kept r P true s) (hl : s.log = .empty) (hn : s.headerRequests = 0) :
    (preflight X order cfg r trusted s >>= fun p => .ok p.1) =
      (Signal.verifyLoop X cfg (preflightReader trusted.epoch (still r g (r.outside.header 1) P).toReader) r.consensusState.finalized
        r.consensusState (chunkBy attLink r.attestations)).mapErr .verify >>= fun post =>
      (ensure (decide (post.finalized ≠ r.consensusState.finalized)) (VerifyError.invalidFinalization post.finalized)).mapErr .verify
        >>= fun _ =>
      slotStep (r.outside.header 0 post.finalized.root) >>= fun slot =>
      (Signal.toInput X order (still r g (r.outside.header 1) P) trusted
        (finalLog X r.spec r.attestations post.finalized.root)).mapErr .input >>= fun input =>
      .ok (input, input.consensusState, post, slot) := by
  rw [timed_preflight_eq]
  have h1 := (loop_rule (X := X) (cfg := cfg) (trusted := trusted) (stillLogic r P hP g hg (r.outside.header 1)) 0) s hk (by rw [hl, hn])
  have h1 : Outcomes r P true (groupLog X r.spec r.attestations, 0)
    (verifyLoop X cfg (r.recording trusted.epoch) r.consensusState.finalized r.consensusState (chunkBy attLink r.attestations) s)
    (Signal.verifyLoop X cfg (preflightReader trusted.epoch (still r g (r.outside.header 1) P).toReader) r.consensusState.finalized
      r.consensusState (chunkBy attLink r.attestations)) := h1
  generalize Signal.verifyLoop X cfg (preflightReader trusted.epoch (still r g (r.outside.header 1) P).toReader)
    r.consensusState.finalized r.consensusState (chunkBy attLink r.attestations) = q at h1 ⊢
  cases q with
  | err e => rw [show verifyLoop X cfg (r.recording trusted.epoch) r.consensusState.finalized r.consensusState
      (chunkBy attLink r.attestations) s = .err e from h1]; rfl
  | panic => rw [show verifyLoop X cfg (r.recording trusted.epoch) r.consensusState.finalized r.consensusState
      (chunkBy attLink r.attestations) s = .panic from h1]; rfl
  | ok post =>
    obtain ⟨s1, e1, k1, a1⟩ := h1
    have hn1 : s1.headerRequests = 0 := congrArg Prod.snd a1
    have hl1 : s1.log = groupLog X r.spec r.attestations := congrArg Prod.fst a1
    rw [e1]
    simp only [Res.mapErr, Res.ok_bind, hn1]
    cases (ensure (decide (post.finalized ≠ r.consensusState.finalized)) (VerifyError.invalidFinalization post.finalized) :
        Res VerifyError Unit) with
    | err e => rfl
    | panic => rfl
    | ok u =>
      simp only [Res.ok_bind]
      cases slotStep (r.outside.header 0 post.finalized.root) with
      | err e => rfl
      | panic => rfl
      | ok slot =>
        simp only [Res.ok_bind]
        have h4 := HostLogic.toInput (still_header r P hP g hg) X order trusted (finalLog X r.spec r.attestations post.finalized.root) _
          (finalLog_blockReads X r.spec r.attestations post.finalized.root) { s1 with
            headerRequests := 0 + 1, log := record s1.log (.slotForBlock post.finalized.root) }
          ⟨k1.states, k1.validators, k1.some⟩ (by dsimp only; rw [hl1]; rfl)
        have h4 : Outcomes r P true (⟨[], [], [post.finalized.root]⟩, 2) (toInput X order r trusted { s1 with
            headerRequests := 0 + 1, log := record s1.log (.slotForBlock post.finalized.root) })
            (Signal.toInput X order (still r g (r.outside.header 1) P) trusted (finalLog X r.spec r.attestations
              post.finalized.root)) := h4
        generalize Signal.toInput X order (still r g (r.outside.header 1) P) trusted (finalLog X r.spec r.attestations
              post.finalized.root) = q at h4 ⊢
        cases q with
        | err e => rw [show toInput X order r trusted _ = .err e from h4]; rfl
        | panic => rw [show toInput X order r trusted _ = .panic from h4]; rfl
        | ok input =>
          obtain ⟨s2, e2, -, -⟩ := h4
          rw [e2]
          rfl

theorem preflight_still (P : Nat → Res ProviderError HostState) (H : Root → Res HostError (Option Header)) (g : Root)
    (hP : ∀ k, r.outside.state k = P) (hH : ∀ k, r.outside.header k = H)
    (hg : ∀ slot st, P slot = .ok st → st.beacon.genesisValidatorsRoot = g) (ht : trusted.epoch ≤ r.consensusState.finalized.epoch)
    {s : Session} (hk : Kept r P true s) (hl : s.log = .empty) (hn : s.headerRequests = 0) :
    (preflight X order cfg r trusted s >>= fun p => .ok p.1) = Signal.preflight X order cfg (still r g H P) trusted := by
  rw [preflight_two_headers P g hP hg hk hl hn, signal_preflight_eq (r := still r g H P) ht, hH 0, hH 1]
  rfl

end

/-! ## `prepare_input` -/

/-- The outside with the answers `P` and `H` at every request. -/
def worldOf (o : Outside) (g : Root) (H : Root → Res HostError (Option Header)) (P : Nat → Res ProviderError HostState) : World :=
  ⟨P, .ok g, o.boundaryBlock, o.find, o.walk, o.getBlock, H, o.decompress⟩

theorem stateAtSlot_some {o : Outside} {slot : Nat} {s s' : Session} {st : HostState} (h : stateAtSlot o slot s = .ok (st, s')) :
    s'.cache ≠ [] := by
  unfold stateAtSlot cacheStateAtSlot at h
  split at h
  · rename_i hl
    split at hl
    · rename_i hc
      cases hl
      cases h
      rintro he
      rw [he] at hc
      cases hc
    · split at hl
      · cases hl
        cases h
        simp
      · cases hl
      · cases hl
  · cases h
  · cases h

theorem trusted_some {X : Ext} {spec : ChainSpec} {o : Outside} {e : Nat} {s s' : Session} {c : Checkpoint}
    (h : trustedCheckpoint X spec o e s = .ok (c, s')) : s'.cache ≠ [] ∧ c.epoch = e := by
  have h' : (stateAtEpochBoundary spec.slotsPerEpoch o e s).mapErr PrepareError.provider >>= (fun p =>
      (o.boundaryBlock p.1.latestBlockHeader.slot).mapErr PrepareError.host >>= fun b => okOr PrepareError.blockNotFound b >>= fun b =>
      assert (decide (b.stateRoot = p.1.beacon.tree.root X)) >>= fun _ => .ok ((⟨e, b.tree.root X⟩ : Checkpoint), p.2)) = .ok (c, s') := by
    rw [← h]
    show _ = (stateAtEpochBoundary spec.slotsPerEpoch o e s).mapErr PrepareError.provider >>= (fun p =>
      ((o.boundaryBlock p.1.latestBlockHeader.slot).mapErr PrepareError.host >>= fun b => Res.ok (b, p.2)) >>= fun q =>
      (okOr PrepareError.blockNotFound q.1 >>= fun b => Res.ok (b, q.2)) >>= fun q =>
      (assert (decide (q.1.stateRoot = p.1.beacon.tree.root X)) >>= fun b => Res.ok (b, q.2)) >>= fun u =>
        .ok ((⟨e, q.1.tree.root X⟩ : Checkpoint), u.2))
    simp only [Res.bind_assoc', Res.ok_bind]
  simp only [Res.bind_eq_ok, Res.mapErr_eq_ok] at h'
  obtain ⟨⟨st, s1⟩, h1, _, _, _, _, _, _, h2⟩ := h'
  cases h2
  refine ⟨?_, rfl⟩
  have h1 : (stateAtSlot o (satMul e spec.slotsPerEpoch) s >>= fun p => (if p.1.latestBlockHeader.slot = p.1.beacon.slot then lift (.ok p.1)
    else stateAtSlot o p.1.latestBlockHeader.slot) p.2) = .ok (st, s1) := h1
  rw [Res.bind_eq_ok] at h1
  obtain ⟨⟨st0, s0⟩, h3, h4⟩ := h1
  dsimp only at h4
  split at h4
  · cases h4
    exact stateAtSlot_some h3
  · exact stateAtSlot_some h4

section
variable {X : Ext} {spec : ChainSpec} {o : Outside}

theorem trusted_sound (g : Root) (H : Root → Res HostError (Option Header)) (state : ConsensusState) (atts : List Attestation) (e : Nat) :
    SoundJ (o.reader spec state atts) false (trustedCheckpoint X spec o e) (fun P => Program.trustedCheckpoint X spec (worldOf o g H P) e)
      (.empty, 0) (.empty, 0) := by
  have hb : SoundJ (o.reader spec state atts) false (stateAtEpochBoundary spec.slotsPerEpoch o e)
      (fun P => Signal.stateAtEpochBoundary (hostStateOps X) spec.slotsPerEpoch P e) (.empty, 0) (.empty, 0) := by
    refine sound_bind (g := fun st P => if st.latestBlockHeader.slot = st.beacon.slot then .ok st else P st.latestBlockHeader.slot)
      (sound_state (r := o.reader spec state atts) _ _) fun st => ?_
    by_cases h : st.latestBlockHeader.slot = st.beacon.slot
    · simp only [if_pos h]
      exact sound_lift _ _
    · simp only [if_neg h]
      exact sound_state (r := o.reader spec state atts) _ _
  exact sound_bind (sound_mapErr _ hb) fun st => sound_liftBind _ fun b _ => sound_liftBind _ fun b _ => sound_liftBind _ fun u _ =>
    sound_lift _ _

theorem trusted_still (P : Nat → Res ProviderError HostState) (hP : ∀ k, o.state k = P) (g : Root)
    (H : Root → Res HostError (Option Header)) (state : ConsensusState) (atts : List Attestation) (e : Nat) :
    Outcomes (o.reader spec state atts) P false (.empty, 0) (trustedCheckpoint X spec o e .empty)
      (Program.trustedCheckpoint X spec (worldOf o g H P) e) := by
  have hb : StillJ (o.reader spec state atts) P false (stateAtEpochBoundary spec.slotsPerEpoch o e)
      (fun _ => Signal.stateAtEpochBoundary (hostStateOps X) spec.slotsPerEpoch P e) (.empty, 0) (.empty, 0) := by
    refine still_bind (g := fun st _ => if st.latestBlockHeader.slot = st.beacon.slot then .ok st else P st.latestBlockHeader.slot)
      (still_state (r := o.reader spec state atts) hP _ _) fun st => ?_
    by_cases h : st.latestBlockHeader.slot = st.beacon.slot
    · simp only [if_pos h]
      exact still_lift _ _
    · simp only [if_neg h]
      exact still_state (r := o.reader spec state atts) hP _ _
  have h : StillJ (o.reader spec state atts) P false (trustedCheckpoint X spec o e)
      (fun _ => Program.trustedCheckpoint X spec (worldOf o g H P) e) (.empty, 0) (.empty, 0) :=
    still_bind (still_mapErr _ hb) fun st => still_bind (still_lift _ _) fun b => still_bind (still_lift _ _) fun b =>
      still_bind (still_lift _ _) fun u => still_lift (.ok _) _
  exact h .empty ⟨by simp [Session.empty], by simp [Session.empty], by simp⟩ rfl

end

end Signal.Timed
