import Verif.Proofs.TimedRun
import Verif.Props.Program

/-!
# C78: answers that change from request to request

Specification: `Verif/Spec/Timed.lean`.
-/

namespace Signal
open Spec Wire Program Timed

section
variable (W : WireExt) (X : Ext) (order : List Nat → List Nat) (spec : ChainSpec) (cfg : Config) (bound : Nat)

theorem worldOf_snapshot {o : Outside} {g : Root} {P : Nat → Res ProviderError HostState} (h : WasGiven o P) (k : Nat) :
    Snapshot o g (worldOf o g (o.header k) P) := ⟨h, ⟨k, rfl⟩, rfl, rfl, rfl, rfl, rfl, rfl⟩

/-- **C78.** Whatever the state provider and the node answer, and however the answers change while one input is prepared, there are fixed
answers among those that were given with which `prepare_input` has the same outcome: the same bytes, the same pre and post state, or no
input in both cases. Only the slot that goes into the journal file can be another one: it is that of the first answer to the request for
the header of the finalized block, and the guest reads that of the second. -/
theorem C78_explained (o : Outside) (g : Root) (hg : OneNetwork o g) (epoch : Nat) :
    ∃ w, Snapshot o g w ∧
      SameUpToSlot (Timed.prepare W X order spec cfg bound o epoch) (Program.prepare W X order spec cfg bound w epoch) ∧
      ∀ p q, Timed.prepare W X order spec cfg bound o epoch = some (.ok p) →
        Program.prepare W X order spec cfg bound w epoch = some (.ok q) →
        ∃ h0 h1 : Header, o.header 0 p.post.finalized.root = .ok (some h0) ∧ p.finalizedSlot = h0.slot ∧
          o.header 1 p.post.finalized.root = .ok (some h1) ∧ q.finalizedSlot = h1.slot := by
  have ht := fun k state atts => trusted_sound (X := X) (spec := spec) (o := o) g (o.header k) state atts epoch Session.empty
    ⟨by simp [Session.empty], by simp [Session.empty], by simp⟩ rfl
  unfold Timed.prepare
  cases h : Timed.trustedCheckpoint X spec o epoch .empty with
  | err e =>
    obtain ⟨P, -, h2, h3⟩ := (h ▸ ht 0 ⟨⟨0, zeroRoot⟩, ⟨0, zeroRoot⟩⟩ [] : Explained _ _ _ _ _ (.err e))
    refine ⟨_, worldOf_snapshot (o := o) h2 0, ?_, by simp⟩
    unfold Program.prepare
    rw [show Program.trustedCheckpoint X spec _ epoch = .err e from h3]
    trivial
  | panic =>
    obtain ⟨P, -, h2, h3⟩ := (h ▸ ht 0 ⟨⟨0, zeroRoot⟩, ⟨0, zeroRoot⟩⟩ [] : Explained _ _ _ _ _ .panic)
    refine ⟨_, worldOf_snapshot (o := o) h2 0, ?_, by simp⟩
    unfold Program.prepare
    rw [show Program.trustedCheckpoint X spec _ epoch = .panic from h3]
    trivial
  | ok x =>
    obtain ⟨trusted, s⟩ := x
    have ht : ∀ k state atts, Explained (o.reader spec state atts) false Session.empty.cache
      (fun P => Program.trustedCheckpoint X spec (worldOf o g (o.header k) P) epoch) (.empty, 0) (.ok (trusted, s)) :=
      fun k state atts => h ▸ ht k state atts
    have tr : ∀ k P, Gives s.cache P → Program.trustedCheckpoint X spec (worldOf o g (o.header k) P) epoch = .ok trusted :=
      fun k => (ht k ⟨⟨0, zeroRoot⟩, ⟨0, zeroRoot⟩⟩ []).2.2.2
    obtain ⟨hne, hep⟩ := trusted_some h
    have hgiven : WasGiven o (fromCache s.cache) := (ht 0 ⟨⟨0, zeroRoot⟩, ⟨0, zeroRoot⟩⟩ []).1.given
    have found : ∀ k P, Gives s.cache P → Program.prepare W X order spec cfg bound (worldOf o g (o.header k) P) epoch =
        match hostSearch spec.slotsPerEpoch o.find o.walk o.getBlock trusted bound with
        | none => none
        | some .panic => some .panic
        | some (.err e) => some (.err (.host e))
        | some (.ok (state, _, _, attestations)) => some (do
          let (input, pre, post, slot) ← (preflight X order cfg (still (o.reader spec state attestations) g (o.header k) P)
            trusted).mapErr .preflight
          return ⟨encodeInput W input, pre, post, slot⟩) := by
      intro k P hP
      unfold Program.prepare
      rw [tr k P hP]
      rfl
    cases hs : hostSearch spec.slotsPerEpoch o.find o.walk o.getBlock trusted bound with
    | none =>
      refine ⟨_, worldOf_snapshot hgiven 0, ?_, by simp [hs]⟩
      rw [found 0 _ (fromCache_gives _)]
      simp only [hs]
      trivial
    | some q =>
      cases q with
      | err e =>
        refine ⟨_, worldOf_snapshot hgiven 0, ?_, by simp [hs]⟩
        rw [found 0 _ (fromCache_gives _)]
        simp only [hs]
        trivial
      | panic =>
        refine ⟨_, worldOf_snapshot hgiven 0, ?_, by simp [hs]⟩
        rw [found 0 _ (fromCache_gives _)]
        simp only [hs]
        trivial
      | ok x =>
        obtain ⟨state, next, links, atts⟩ := x
        obtain ⟨-, -, -, hfin, -⟩ := hostSearch_ok hs
        obtain ⟨i, -, k, -⟩ := ht 0 state atts
        have hp := preflight_sound (X := X) (order := order) (cfg := cfg) (r := o.reader spec state atts) (trusted := trusted) g hg
          (by show _ ≤ state.finalized.epoch; rw [hfin]) ⟨i.states, i.validators, fun _ => hne⟩ (congrArg Prod.fst k) (congrArg Prod.snd k)
        simp only [hs]
        generalize Timed.preflight X order cfg (o.reader spec state atts) trusted s = q at hp ⊢
        cases q with
        | err e =>
          obtain ⟨k, e', P, h1, h2, h3⟩ := hp
          refine ⟨_, worldOf_snapshot (o := o) h2 k, ?_, by simp [Res.mapErr]⟩
          rw [found k P h1]
          simp only [hs]
          dsimp only at h3 ⊢
          rw [show preflight X order cfg (still (o.reader spec state atts) g (o.header k) P) trusted = .err e' from h3]
          trivial
        | panic =>
          obtain ⟨k, P, h1, h2, h3⟩ := hp
          refine ⟨_, worldOf_snapshot (o := o) h2 k, ?_, by simp [Res.mapErr]⟩
          rw [found k P h1]
          simp only [hs]
          dsimp only at h3 ⊢
          rw [show preflight X order cfg (still (o.reader spec state atts) g (o.header k) P) trusted = .panic from h3]
          trivial
        | ok y =>
          obtain ⟨⟨input, pre, post, slot⟩, s'⟩ := y
          obtain ⟨i', p', h0, h1, e0, e1, e2, f⟩ := hp
          have hq : Program.prepare W X order spec cfg bound (worldOf o g (o.header 1) (fromCache s'.cache)) epoch =
              some (.ok ⟨encodeInput W input, pre, post, h1.slot⟩) := by
            rw [found 1 _ ((fromCache_gives _).of_prefix p')]
            simp only [hs]
            rw [show preflight X order cfg (still (o.reader spec state atts) g (o.header 1) (fromCache s'.cache)) trusted = _ from
              f _ (fromCache_gives _)]
            rfl
          refine ⟨_, worldOf_snapshot (o := o) i'.given 1, ?_, ?_⟩
          · rw [hq]
            exact ⟨rfl, rfl, rfl⟩
          · intro p q h3 h4
            rw [hq] at h4
            cases h4
            cases h3
            exact ⟨h0, h1, e0, e1, e2, rfl⟩

/-- **C78.** If the node gives the same header both times, then the whole outcome of a success is that of fixed answers. -/
theorem C78_steady_headers (o : Outside) (g : Root) (hg : OneNetwork o g) (hs : SteadyHeaders o) (epoch : Nat) :
    ∃ w, Snapshot o g w ∧ ∀ p, Timed.prepare W X order spec cfg bound o epoch = some (.ok p) ↔
      Program.prepare W X order spec cfg bound w epoch = some (.ok p) := by
  obtain ⟨w, h1, h2, h3⟩ := C78_explained W X order spec cfg bound o g hg epoch
  refine ⟨w, h1, fun p => ?_⟩
  generalize Timed.prepare W X order spec cfg bound o epoch = a at h2 h3
  generalize Program.prepare W X order spec cfg bound w epoch = b at h2 h3
  rcases a with _ | (a | a | _) <;> rcases b with _ | (b | b | _) <;> try (exact h2.elim)
  · simp
  · obtain ⟨e1, e2, e3⟩ := h2
    obtain ⟨x0, x1, f0, f1, f2, f3⟩ := h3 a b rfl rfl
    rw [hs 1, f0] at f2
    cases f2
    have : b = a := by
      cases a; cases b
      simp_all
    rw [this]
  · simp
  · simp

/-- **C78.** If no answer changes, preparing an input is what `C40`, `C61` and `C66` speak about, with the same outcome and the same
error; the order in which the cache lists its states does not matter. -/
theorem C78_unchanging (w : World) (pick : Nat → Nat) (g : Root) (hw : w.genesisRoot = .ok g) (hg : OneNetwork (unchanging w pick) g)
    (epoch : Nat) :
    Timed.prepare W X order spec cfg bound (unchanging w pick) epoch = Program.prepare W X order spec cfg bound w epoch := by
  have hwo : worldOf (unchanging w pick) g w.headers w.provider = w := by
    cases w
    cases hw
    rfl
  have hr : ∀ state atts, still ((unchanging w pick).reader spec state atts) g w.headers w.provider = w.reader spec state atts := by
    intro state atts
    unfold still World.reader Outside.reader unchanging
    rw [hw]
  have ht := fun state atts => trusted_still (X := X) (spec := spec) (o := unchanging w pick) w.provider (fun _ => rfl) g w.headers
    state atts epoch
  rw [hwo] at ht
  unfold Timed.prepare Program.prepare
  generalize Program.trustedCheckpoint X spec w epoch = q at ht ⊢
  cases q with
  | err e => rw [show Timed.trustedCheckpoint X spec _ epoch _ = .err e from ht ⟨⟨0, zeroRoot⟩, ⟨0, zeroRoot⟩⟩ []]
  | panic => rw [show Timed.trustedCheckpoint X spec _ epoch _ = .panic from ht ⟨⟨0, zeroRoot⟩, ⟨0, zeroRoot⟩⟩ []]
  | ok trusted =>
    obtain ⟨s, h, -⟩ := ht ⟨⟨0, zeroRoot⟩, ⟨0, zeroRoot⟩⟩ []
    rw [h]
    obtain ⟨hne, hep⟩ := trusted_some h
    dsimp only
    have hsearch : hostSearch spec.slotsPerEpoch (unchanging w pick).find (unchanging w pick).walk (unchanging w pick).getBlock trusted
      bound = hostSearch spec.slotsPerEpoch w.find w.walk w.getBlock trusted bound := rfl
    rw [hsearch]
    cases hs : hostSearch spec.slotsPerEpoch w.find w.walk w.getBlock trusted bound with
    | none => rfl
    | some q =>
      cases q with
      | err e => rfl
      | panic => rfl
      | ok x =>
        obtain ⟨state, next, links, atts⟩ := x
        dsimp only
        obtain ⟨-, -, -, hfin, -⟩ := hostSearch_ok hs
        obtain ⟨s', h', kp, kn⟩ := ht state atts
        rw [h] at h'
        cases h'
        have := preflight_still (X := X) (order := order) (cfg := cfg) (r := (unchanging w pick).reader spec state atts)
          (trusted := trusted) w.provider w.headers g (fun _ => rfl) (fun _ => rfl) (fun slot st h => hg 0 slot st h)
          (by show _ ≤ state.finalized.epoch; rw [hfin]) ⟨kp.states, kp.validators, fun _ => hne⟩ (congrArg Prod.fst kn)
          (congrArg Prod.snd kn)
        rw [hr] at this
        rw [← this]
        cases Timed.preflight X order cfg ((unchanging w pick).reader spec state atts) trusted s <;> rfl

/-- **C78.** The files of `build-input` with answers that change are, apart from the slots in the journals, those it writes with fixed
answers, each among those given in its pass, and the loop ends in the same way. With steady headers the journals are the same too. -/
theorem C78_build (continuous : Bool) (g : Root) (passes : List Timed.Pass) (hg : ∀ pass ∈ passes, OneNetwork pass.outside g) (epoch : Nat) :
    ∃ passes' : List Program.Pass, List.Forall₂ (fun a b => b.head = a.head ∧ Snapshot a.outside g b.world) passes passes' ∧
      exceptJournals (Timed.buildLoop W X order spec cfg bound continuous epoch passes).1 =
        exceptJournals (Program.buildLoop W X order spec cfg bound continuous epoch passes').1 ∧
      (Timed.buildLoop W X order spec cfg bound continuous epoch passes).2 =
        (Program.buildLoop W X order spec cfg bound continuous epoch passes').2 ∧
      ((∀ pass ∈ passes, SteadyHeaders pass.outside) → Timed.buildLoop W X order spec cfg bound continuous epoch passes =
        Program.buildLoop W X order spec cfg bound continuous epoch passes') := by
  induction passes generalizing epoch with
  | nil => exact ⟨[], .nil, rfl, rfl, fun _ => rfl⟩
  | cons pass passes ih =>
    have ih := ih (fun p hp => hg p (List.mem_cons_of_mem _ hp))
    obtain ⟨w, s1, s2, s3⟩ := C78_explained W X order spec cfg bound pass.outside g (hg pass (List.mem_cons_self ..)) epoch
    -- the passes behind a loop that ends here
    obtain ⟨rest, r1, -⟩ := ih epoch
    have stop : ∀ q : List FileOp × Outcome, Timed.buildLoop W X order spec cfg bound continuous epoch (pass :: passes) = q →
        Program.buildLoop W X order spec cfg bound continuous epoch (⟨pass.head, w⟩ :: rest) = q →
        ∃ passes' : List Program.Pass, List.Forall₂ (fun a b => b.head = a.head ∧ Snapshot a.outside g b.world) (pass :: passes) passes' ∧
      exceptJournals (Timed.buildLoop W X order spec cfg bound continuous epoch (pass :: passes)).1 =
        exceptJournals (Program.buildLoop W X order spec cfg bound continuous epoch passes').1 ∧
      (Timed.buildLoop W X order spec cfg bound continuous epoch (pass :: passes)).2 =
        (Program.buildLoop W X order spec cfg bound continuous epoch passes').2 ∧
      ((∀ p ∈ pass :: passes, SteadyHeaders p.outside) → Timed.buildLoop W X order spec cfg bound continuous epoch (pass :: passes) =
        Program.buildLoop W X order spec cfg bound continuous epoch passes') := fun q h1 h2 =>
      ⟨⟨pass.head, w⟩ :: rest, .cons ⟨rfl, s1⟩ r1, by rw [h1, h2], by rw [h1, h2], fun _ => by rw [h1, h2]⟩
    cases hh : pass.head with
    | panic => exact stop ([], .aborted) (by unfold Timed.buildLoop; rw [hh]) (by unfold Program.buildLoop; rw [hh])
    | err e => exact stop ([], .failed) (by unfold Timed.buildLoop; rw [hh]) (by unfold Program.buildLoop; rw [hh])
    | ok head =>
      by_cases hlt : head < (epoch + 1) % U64
      · obtain ⟨passes', h1, h2, h3, h4⟩ := ih epoch
        refine ⟨⟨pass.head, w⟩ :: passes', .cons ⟨rfl, s1⟩ h1, ?_⟩
        have e1 : Timed.buildLoop W X order spec cfg bound continuous epoch (pass :: passes) =
            Timed.buildLoop W X order spec cfg bound continuous epoch passes := by
          rw [Timed.buildLoop, hh]
          simp only [if_pos hlt]
        have e2 : Program.buildLoop W X order spec cfg bound continuous epoch (⟨pass.head, w⟩ :: passes') =
            Program.buildLoop W X order spec cfg bound continuous epoch passes' := by
          rw [Program.buildLoop]
          simp only [hh, if_pos hlt]
        rw [e1, e2]
        exact ⟨h2, h3, fun h => h4 (fun p hp => h p (List.mem_cons_of_mem _ hp))⟩
      · have e1 : ∀ q, Timed.prepare W X order spec cfg bound pass.outside epoch = q →
            Timed.buildLoop W X order spec cfg bound continuous epoch (pass :: passes) = match q with
            | none => ([], .running)
            | some .panic => ([], .aborted)
            | some (.err _) => ([], .failed)
            | some (.ok p) =>
              if continuous then
                let r := Timed.buildLoop W X order spec cfg bound continuous p.post.finalized.epoch passes
                (roundOps epoch p ++ r.1, r.2)
              else (roundOps epoch p, .done) := by
          rintro q rfl
          rw [Timed.buildLoop, hh]
          simp only [if_neg hlt]
          rcases Timed.prepare W X order spec cfg bound pass.outside epoch with _ | (a | a | _) <;> rfl
        have e2 : ∀ q rest, Program.prepare W X order spec cfg bound w epoch = q →
            Program.buildLoop W X order spec cfg bound continuous epoch (⟨pass.head, w⟩ :: rest) = match q with
            | none => ([], .running)
            | some .panic => ([], .aborted)
            | some (.err _) => ([], .failed)
            | some (.ok p) =>
              if continuous then
                let r := Program.buildLoop W X order spec cfg bound continuous p.post.finalized.epoch rest
                (roundOps epoch p ++ r.1, r.2)
              else (roundOps epoch p, .done) := by
          rintro q rest rfl
          rw [Program.buildLoop]
          simp only [hh, if_neg hlt]
          rcases Program.prepare W X order spec cfg bound w epoch with _ | (a | a | _) <;> rfl
        generalize ha : Timed.prepare W X order spec cfg bound pass.outside epoch = a at s2 s3 e1
        generalize hb : Program.prepare W X order spec cfg bound w epoch = b at s2 s3 e2
        have e1 := e1 _ rfl
        have e2 := fun rest => e2 _ rest rfl
        rcases a with _ | (a | a | _) <;> rcases b with _ | (b | b | _) <;> try (exact s2.elim)
        · exact stop _ e1 (e2 _)
        · obtain ⟨x1, x2, x3⟩ := s2
          obtain ⟨y0, y1, f0, f1, f2, f3⟩ := s3 a b rfl rfl
          have hj : exceptJournals (roundOps epoch b) = exceptJournals (roundOps epoch a) := by
            simp [exceptJournals, roundOps, x1]
          have hst : SteadyHeaders pass.outside → b = a := by
            intro hs
            rw [hs 1, f0] at f2
            cases f2
            cases a; cases b
            simp_all
          cases continuous with
          | true =>
            obtain ⟨passes', h1, h2, h3, h4⟩ := ih a.post.finalized.epoch
            refine ⟨⟨pass.head, w⟩ :: passes', .cons ⟨rfl, s1⟩ h1, ?_⟩
            have e2 := e2 passes'
            simp only [if_true] at e1 e2
            rw [e1, e2]
            dsimp only
            rw [x3]
            refine ⟨?_, h3, fun h => ?_⟩
            · unfold exceptJournals at h2 hj ⊢
              rw [List.filter_append, List.filter_append, h2, hj]
            · rw [hst (h pass (List.mem_cons_self ..)), h4 (fun p hp => h p (List.mem_cons_of_mem _ hp))]
          | false =>
            refine ⟨⟨pass.head, w⟩ :: rest, .cons ⟨rfl, s1⟩ r1, ?_⟩
            have e2 := e2 rest
            simp only [Bool.false_eq_true, if_false] at e1 e2
            rw [e1, e2]
            exact ⟨hj.symm, rfl, fun h => by rw [hst (h pass (List.mem_cons_self ..))]⟩
        · exact stop _ e1 (e2 _)
        · exact stop _ e1 (e2 _)

/-- **C78.** The log of `sync` with answers that change is the log with fixed answers, each among those given in its round: the slot
plays no role. -/
theorem C78_sync (Xg : Ext) (r0vm : Bool) (g : Root) (os : List Outside) (hg : ∀ o ∈ os, OneNetwork o g) (state : ConsensusState) :
    ∃ ws, List.Forall₂ (fun o w => Snapshot o g w) os ws ∧
      Timed.syncLoop W X Xg order spec cfg bound r0vm state os = Program.syncLoop W X Xg order spec cfg bound r0vm state ws := by
  induction os generalizing state with
  | nil => exact ⟨[], .nil, rfl⟩
  | cons o os ih =>
    have ih := ih (fun p hp => hg p (List.mem_cons_of_mem _ hp))
    obtain ⟨w, s1, s2, -⟩ := C78_explained W X order spec cfg bound o g (hg o (List.mem_cons_self ..)) state.finalized.epoch
    obtain ⟨rest, r1, -⟩ := ih state
    generalize ha : Timed.prepare W X order spec cfg bound o state.finalized.epoch = a at s2
    generalize hb : Program.prepare W X order spec cfg bound w state.finalized.epoch = b at s2
    rcases a with _ | (a | a | _) <;> rcases b with _ | (b | b | _) <;> try (exact s2.elim)
    · exact ⟨w :: rest, .cons s1 r1, by rw [Timed.syncLoop, Program.syncLoop, ha, hb]⟩
    · obtain ⟨x1, x2, x3⟩ := s2
      obtain ⟨ws, h1, h2⟩ := ih a.post
      refine ⟨w :: ws, .cons s1 h1, ?_⟩
      rw [Timed.syncLoop, Program.syncLoop, ha, hb]
      dsimp only
      rw [x1, x2, x3, h2]
      cases runVerify W X Xg spec cfg a.pre a.inputBytes r0vm <;> rfl
    · exact ⟨w :: rest, .cons s1 r1, by rw [Timed.syncLoop, Program.syncLoop, ha, hb]⟩
    · exact ⟨w :: rest, .cons s1 r1, by rw [Timed.syncLoop, Program.syncLoop, ha, hb]⟩

/-- **C78.** What `verify` reports with answers that change is what it reports with fixed answers among those given. -/
theorem C78_verify_command (Xg : Ext) (r0vm : Bool) (g : Root) (o : Outside) (hg : OneNetwork o g) (epoch : Nat) :
    ∃ w, Snapshot o g w ∧ ∀ post, Timed.verifyCommand W X Xg order spec cfg bound r0vm o epoch = some (.ok post) ↔
      Program.verifyCommand W X Xg order spec cfg bound r0vm w epoch = some (.ok post) := by
  obtain ⟨w, s1, s2, -⟩ := C78_explained W X order spec cfg bound o g hg epoch
  refine ⟨w, s1, fun post => ?_⟩
  unfold Timed.verifyCommand Program.verifyCommand
  generalize Timed.prepare W X order spec cfg bound o epoch = a at s2
  generalize Program.prepare W X order spec cfg bound w epoch = b at s2
  rcases a with _ | (a | a | _) <;> rcases b with _ | (b | b | _) <;> try (exact s2.elim)
  · rfl
  · obtain ⟨x1, x2, -⟩ := s2
    simp only [Option.map_some, Res.mapErr, Res.ok_bind, x1, x2]
  · simp [Res.mapErr]
  · rfl

/-- **C78.** Requests that fail for a time do no harm: if no two different states are given for a slot, then whatever is prepared is what
is prepared from the full answers `w`, apart from the slot. -/
theorem C78_failing_requests (o : Outside) (g : Root) (hg : OneNetwork o g) (w : World) (hw : w.genesisRoot = .ok g) (ha : Agrees o w)
    (epoch : Nat) (p : Prepared) (hp : Timed.prepare W X order spec cfg bound o epoch = some (.ok p)) :
    ∃ h0 h1 : Header, o.header 0 p.post.finalized.root = .ok (some h0) ∧ p.finalizedSlot = h0.slot ∧
      o.header 1 p.post.finalized.root = .ok (some h1) ∧
      Program.prepare W X order spec cfg bound w epoch = some (.ok { p with finalizedSlot := h1.slot }) := by
  have hwo : worldOf o g (o.header 1) w.provider = w := by
    cases w
    cases ha
    cases hw
    subst_vars
    rfl
  have ht := fun k state atts => trusted_sound (X := X) (spec := spec) (o := o) g (o.header k) state atts epoch Session.empty
    ⟨by simp [Session.empty], by simp [Session.empty], by simp⟩ rfl
  unfold Timed.prepare at hp
  cases h : Timed.trustedCheckpoint X spec o epoch .empty with
  | err e => rw [h] at hp; cases hp
  | panic => rw [h] at hp; cases hp
  | ok x =>
    obtain ⟨trusted, s⟩ := x
    rw [h] at hp
    dsimp only at hp
    have ht : ∀ k state atts, Explained (o.reader spec state atts) false Session.empty.cache
      (fun P => Program.trustedCheckpoint X spec (worldOf o g (o.header k) P) epoch) (.empty, 0) (.ok (trusted, s)) :=
      fun k state atts => h ▸ ht k state atts
    obtain ⟨hne, hep⟩ := trusted_some h
    cases hs : hostSearch spec.slotsPerEpoch o.find o.walk o.getBlock trusted bound with
    | none => rw [hs] at hp; cases hp
    | some q =>
      cases q with
      | err e => rw [hs] at hp; cases hp
      | panic => rw [hs] at hp; cases hp
      | ok x =>
        obtain ⟨state, next, links, atts⟩ := x
        rw [hs] at hp
        obtain ⟨-, -, -, hfin, -⟩ := hostSearch_ok hs
        obtain ⟨i, -, k, -⟩ := ht 0 state atts
        have hsound := preflight_sound (X := X) (order := order) (cfg := cfg) (r := o.reader spec state atts) (trusted := trusted) g hg
          (by show _ ≤ state.finalized.epoch; rw [hfin]) ⟨i.states, i.validators, fun _ => hne⟩ (congrArg Prod.fst k) (congrArg Prod.snd k)
        simp only [Option.some.injEq, Res.bind_eq_ok, Res.mapErr_eq_ok] at hp
        obtain ⟨⟨⟨input, pre, post, slot⟩, s'⟩, h1, h2⟩ := hp
        cases h2
        rw [h1] at hsound
        obtain ⟨i', p', h0, h1, e0, e1, e2, f⟩ := hsound
        have hgives : Timed.Gives s'.cache w.provider := by
          intro sl st hl
          obtain ⟨k, hk⟩ := i'.states sl st (mem_of_lookup hl)
          exact ha.states k sl st hk
        refine ⟨h0, h1, e0, e1, e2, ?_⟩
        have tr : Program.trustedCheckpoint X spec w epoch = .ok trusted := by
          have := (ht 1 state atts).2.2.2 w.provider (hgives.of_prefix p')
          dsimp only at this
          rw [hwo] at this
          exact this
        have f : preflight X order cfg (w.reader spec state atts) trusted = .ok (input, pre, post, h1.slot) := by
          have := f w.provider hgives
          have he : still (o.reader spec state atts) g ((o.reader spec state atts).outside.header 1) w.provider = w.reader spec state atts := by
            unfold still World.reader Outside.reader
            rw [hw, ha.headers, ha.decompress]
          rw [he] at this
          exact this
        unfold Program.prepare
        rw [tr]
        dsimp only
        rw [ha.find, ha.walk, ha.getBlock, hs]
        dsimp only
        rw [f]
        rfl

/-- **C78.** The other way round: with states that do not change, an input that is prepared from the second header is prepared from any
pair of headers, with the slot of the first. -/
theorem C78_first_header (w : World) (pick : Nat → Nat) (g : Root) (hw : w.genesisRoot = .ok g) (hg : OneNetwork (unchanging w pick) g)
    (header : Nat → Root → Res HostError (Option Header)) (h1 : header 1 = w.headers) (epoch : Nat) (q : Prepared)
    (hq : Program.prepare W X order spec cfg bound w epoch = some (.ok q)) (h0 : Header)
    (hh : header 0 q.post.finalized.root = .ok (some h0)) :
    Timed.prepare W X order spec cfg bound { unchanging w pick with header := header } epoch =
      some (.ok { q with finalizedSlot := h0.slot }) := by
  have hwo : worldOf { unchanging w pick with header := header } g w.headers w.provider = w := by
    cases w
    cases hw
    rfl
  have hr : ∀ state atts, still (Outside.reader { unchanging w pick with header := header } spec state atts) g w.headers w.provider =
      w.reader spec state atts := by
    intro state atts
    unfold still World.reader Outside.reader unchanging
    rw [hw]
  have ht := fun state atts => trusted_still (X := X) (spec := spec) (o := { unchanging w pick with header := header }) w.provider
    (fun _ => rfl) g w.headers state atts epoch
  rw [hwo] at ht
  unfold Program.prepare at hq
  unfold Timed.prepare
  cases hc : Program.trustedCheckpoint X spec w epoch with
  | err e => rw [hc] at hq; cases hq
  | panic => rw [hc] at hq; cases hq
  | ok trusted =>
    rw [hc] at ht hq
    dsimp only at hq
    obtain ⟨s, h, -⟩ := ht ⟨⟨0, zeroRoot⟩, ⟨0, zeroRoot⟩⟩ []
    rw [h]
    obtain ⟨hne, hep⟩ := trusted_some h
    dsimp only
    cases hs : hostSearch spec.slotsPerEpoch w.find w.walk w.getBlock trusted bound with
    | none => rw [hs] at hq; cases hq
    | some x =>
      have hs' : hostSearch spec.slotsPerEpoch (unchanging w pick).find (unchanging w pick).walk (unchanging w pick).getBlock trusted
        bound = some x := hs
      cases x with
      | err e => rw [hs] at hq; cases hq
      | panic => rw [hs] at hq; cases hq
      | ok x =>
        obtain ⟨state, next, links, atts⟩ := x
        rw [hs] at hq
        rw [hs']
        dsimp only at hq ⊢
        obtain ⟨-, -, -, hfin, -⟩ := hostSearch_ok hs
        obtain ⟨s', h', kp, kn⟩ := ht state atts
        rw [h] at h'
        cases h'
        have two := preflight_two_headers (X := X) (order := order) (cfg := cfg)
          (r := Outside.reader { unchanging w pick with header := header } spec state atts)
          (trusted := trusted) w.provider g (fun _ => rfl) (fun slot st h => hg 0 slot st h)
          ⟨kp.states, kp.validators, fun _ => hne⟩ (congrArg Prod.fst kn) (congrArg Prod.snd kn)
        rw [show (Outside.reader { unchanging w pick with header := header } spec state atts).outside.header 1 = w.headers from h1, hr]
          at two
        have one := signal_preflight_eq (X := X) (order := order) (cfg := cfg) (r := w.reader spec state atts) (trusted := trusted)
          (by show _ ≤ state.finalized.epoch; rw [hfin])
        rw [one] at hq
        simp only [Option.some.injEq, Res.bind_eq_ok, Res.mapErr_eq_ok, Res.pure_eq, Res.ok.injEq] at hq
        obtain ⟨⟨input, pre, post, slot⟩, ⟨post', a1, u, a2, slot', a3, input', a4, a5⟩, rfl⟩ := hq
        cases a5
        have two' : (Timed.preflight X order cfg (Outside.reader { unchanging w pick with header := header } spec state atts) trusted s >>=
            fun p => Res.ok p.1) = .ok (input, input.consensusState, post, h0.slot) := by
          rw [two]
          have a1 : verifyLoop X cfg (preflightReader trusted.epoch (w.reader spec state atts).toReader)
            (Outside.reader { unchanging w pick with header := header } spec state atts).consensusState.finalized
            (Outside.reader { unchanging w pick with header := header } spec state atts).consensusState
            (chunkBy attLink (Outside.reader { unchanging w pick with header := header } spec state atts).attestations) = .ok post := a1
          rw [a1]
          have a2 : (ensure (decide (post.finalized ≠
            (Outside.reader { unchanging w pick with header := header } spec state atts).consensusState.finalized))
            (VerifyError.invalidFinalization post.finalized) : Res VerifyError Unit) = .ok u := a2
          have a3 : slotStep ((Outside.reader { unchanging w pick with header := header } spec state atts).outside.header 0
            post.finalized.root) = .ok h0.slot := by
            show slotStep (header 0 post.finalized.root) = _
            rw [hh]
            rfl
          have a4 : toInput X order (w.reader spec state atts) trusted
            (finalLog X (Outside.reader { unchanging w pick with header := header } spec state atts).spec
              (Outside.reader { unchanging w pick with header := header } spec state atts).attestations post.finalized.root) =
              .ok input := a4
          simp only [Res.mapErr, Res.ok_bind, a2, a3, a4]
        rw [Res.bind_eq_ok] at two'
        obtain ⟨⟨y, s''⟩, b1, b2⟩ := two'
        cases b2
        rw [b1]
        rfl

end

section accepted
variable (W : WireExt) (hW : WireLaws W) (X : Ext) (order : List Nat → List Nat) (ho : ∀ l, (order l).Perm l)
  (hcap : 126 ≤ X.stackCapacity) (capacity : Nat) (hhi : X.usizeMod ≤ 2 ^ 64) (hle : 2 ^ 32 ≤ X.usizeMod)
  (hroom : 126 ≤ capacity) (hk : KeepsLength X) (hbits : ∀ l, (W.encodeBits l).length ≤ l.length + 64)
  (spec : ChainSpec) (cfg : Config) (hcfg : cfg.epochLookaheadLimit ≤ 4) (bound : Nat)

include hW ho hcap hhi hle hroom hk hbits hcfg

/-- **C78.** If the full answers are quiet in the sense of `C66`, the guest accepts what was prepared and commits to the pre and post state
that were reported and to the slot of the second header. -/
theorem C78_quiet_accepted (o : Outside) (g : Root) (hg : OneNetwork o g) (w : World) (hw : w.genesisRoot = .ok g)
    (ha : Agrees o w) (epoch : Nat) (hq : QuietWorld W X order spec cfg bound w epoch) (p : Prepared)
    (h : Timed.prepare W X order spec cfg bound o epoch = some (.ok p)) :
    ∃ h0 h1 : Header, o.header 0 p.post.finalized.root = .ok (some h0) ∧ p.finalizedSlot = h0.slot ∧
      o.header 1 p.post.finalized.root = .ok (some h1) ∧
      Program.prepare W X order spec cfg bound w epoch = some (.ok { p with finalizedSlot := h1.slot }) ∧
      ∀ ε : Type, (guestMain W (onMachine X (2 ^ 32) capacity) spec cfg (Frame.encodeInputStdin p.inputBytes) : Res ε Bytes) =
        .ok (Abi.encodeJournal p.pre p.post h1.slot) := by
  obtain ⟨h0, h1, f0, f1, f2, hp⟩ := C78_failing_requests W X order spec cfg bound o g hg w hw ha epoch p h
  have := (quiet_accepted W hW X order ho hcap capacity hhi hle hroom hk hbits spec cfg hcfg bound hq hp).2
  exact ⟨h0, h1, f0, f1, f2, hp, this⟩

end accepted

/-! ## Examples -/

section example_timed

/-- A node that first answers with another slot. -/
def fpHeaders (k : Nat) (root : Root) : Res HostError (Option Header) :=
  if k = 0 then .ok (some { gxHdr6 with slot := 25 }) else fpWorld1.headers root

theorem fp_network1 (pick : Nat → Nat) : OneNetwork (unchanging fpWorld1 pick) (exRoot32 77) := by
  intro k slot st h
  have h : fxProvider slot = .ok st := h
  unfold fxProvider at h
  split_ifs at h <;> cases h <;> rfl

theorem fp_network2 (pick : Nat → Nat) : OneNetwork (unchanging fpWorld2 pick) (exRoot32 77) := by
  intro k slot st h
  have h : fpProvider slot = .ok st := h
  rcases fp_provided h with rfl | rfl | rfl <;> rfl

set_option maxRecDepth 100000 in
/-- **C78.** The slot in the journal file can be wrong: here the node gives another header for the finalized block when it is asked
first, nothing is noticed, and the journal file does not say what the guest commits to for the input file. -/
theorem C78_journal_can_differ : ∃ (o : Outside) (p : Prepared), OneNetwork o (exRoot32 77) ∧
    Timed.prepare fpWire exExt id exSpec Config.default 9 o 3 = some (.ok p) ∧
    ∃ journal, (guestMain fpWire (onMachine exExt (2 ^ 32) 126) exSpec Config.default (Frame.encodeInputStdin p.inputBytes) :
        Res Unit Bytes) = .ok journal ∧ journal ≠ Abi.encodeJournal p.pre p.post p.finalizedSlot := by
  obtain ⟨input, -, h⟩ := fp_prepared1
  have hword : exExt.usizeMod = 2 ^ 32 := rfl
  have hp := C78_first_header fpWire exExt id exSpec Config.default 9 fpWorld1 (fun _ => 0) (exRoot32 77) rfl (fp_network1 _) fpHeaders rfl 3 _
    h { gxHdr6 with slot := 25 } rfl
  have hg := (quiet_accepted fpWire fpWire_laws exExt id (fun l => List.Perm.refl l) (by decide) 126 (by rw [hword]; norm_num)
    (by rw [hword]) (by decide) exExt_keepsLength fpWire_bits exSpec Config.default (by decide) 9 (fp_quiet1 3) h).2 Unit
  refine ⟨{ unchanging fpWorld1 (fun _ => 0) with header := fpHeaders }, _, fun k slot st h => fp_network1 (fun _ => 0) k slot st h, hp, _,
    hg, ?_⟩
  show Abi.encodeJournal ⟨exC4, gxC3⟩ ⟨exC7, gxC6⟩ 24 ≠ Abi.encodeJournal ⟨exC4, gxC3⟩ ⟨exC7, gxC6⟩ 25
  decide +kernel

/-- An outside whose headers change. -/
def fpOutside : Outside := { unchanging fpWorld1 (fun n => n) with header := fpHeaders }

theorem fp_timed : ∃ input, Timed.prepare fpWire exExt id exSpec Config.default 9 fpOutside 3 =
    some (.ok ⟨encodeInput fpWire input, ⟨exC4, gxC3⟩, ⟨exC7, gxC6⟩, 25⟩) := by
  obtain ⟨input, -, h⟩ := fp_prepared1
  exact ⟨input, C78_first_header fpWire exExt id exSpec Config.default 9 fpWorld1 (fun n => n) (exRoot32 77) rfl (fp_network1 _) fpHeaders
    rfl 3 _ h { gxHdr6 with slot := 25 } rfl⟩

theorem fp_timed_network : OneNetwork fpOutside (exRoot32 77) := fun k slot st h => fp_network1 (fun n => n) k slot st h

theorem fp_header1 : fpHeaders 1 gxC6.root = .ok (some gxHdr6) := by
  show Res.ok (if gxC6.root = gxHdr6.tree.root exExt then some gxHdr6 else none) = _
  have e : gxC6.root = gxHdr6.tree.root exExt := by unfold gxC6; rfl
  rw [if_pos e]

/-- C78_unchanging: the first round. -/
example : ∃ input, Timed.prepare fpWire exExt id exSpec Config.default 9 (unchanging fpWorld1 (fun n => 7 * n)) 3 =
    some (.ok ⟨encodeInput fpWire input, ⟨exC4, gxC3⟩, ⟨exC7, gxC6⟩, 24⟩) := by
  obtain ⟨input, -, h⟩ := fp_prepared1
  exact ⟨input, (C78_unchanging fpWire exExt id exSpec Config.default 9 fpWorld1 _ (exRoot32 77) rfl (fp_network1 _) 3).trans h⟩

set_option linter.constructorNameAsVariable false in
/-- C78_explained: the two slots of a header that changes. -/
example : ∃ w input, Snapshot fpOutside (exRoot32 77) w ∧
    Timed.prepare fpWire exExt id exSpec Config.default 9 fpOutside 3 =
      some (.ok ⟨encodeInput fpWire input, ⟨exC4, gxC3⟩, ⟨exC7, gxC6⟩, 25⟩) ∧
    Program.prepare fpWire exExt id exSpec Config.default 9 w 3 =
      some (.ok ⟨encodeInput fpWire input, ⟨exC4, gxC3⟩, ⟨exC7, gxC6⟩, 24⟩) := by
  obtain ⟨input, hp⟩ := fp_timed
  obtain ⟨w, s1, s2, s3⟩ := C78_explained fpWire exExt id exSpec Config.default 9 fpOutside _ fp_timed_network 3
  refine ⟨w, input, s1, hp, ?_⟩
  rw [hp] at s2 s3
  generalize Program.prepare fpWire exExt id exSpec Config.default 9 w 3 = q at s2 s3 ⊢
  rcases q with _ | (q | q | _)
  · exact s2.elim
  · obtain ⟨bytes, pre, post, slot⟩ := q
    obtain ⟨h0, h1, -, -, f2, f3⟩ := s3 _ _ rfl rfl
    obtain ⟨x1, x2, x3⟩ := s2
    dsimp only at x1 x2 x3 f2 f3
    have f2 : fpHeaders 1 gxC6.root = .ok (some h1) := f2
    rw [fp_header1] at f2
    cases f2
    subst x1 x2 x3 f3
    rfl
  · exact s2.elim
  · exact s2.elim

/-- C78_explained: states that change, of which some are wrong. -/
def fpMoving : Outside := { fpOutside with
  state := fun k slot => if k % 3 = 2 then fpProvider slot else if k % 3 = 1 then fxProvider slot else .ok (fxState (slot + 1) gxVs) }

example : ∃ w, Snapshot fpMoving (exRoot32 77) w ∧
    SameUpToSlot (Timed.prepare fpWire exExt id exSpec Config.default 9 fpMoving 3)
      (Program.prepare fpWire exExt id exSpec Config.default 9 w 3) := by
  obtain ⟨w, s1, s2, -⟩ := C78_explained fpWire exExt id exSpec Config.default 9 fpMoving (exRoot32 77) (by
    intro k slot st h
    have h : (if k % 3 = 2 then fpProvider slot else if k % 3 = 1 then fxProvider slot else .ok (fxState (slot + 1) gxVs)) = .ok st := h
    split_ifs at h
    · exact fp_network2 (fun _ => 0) 0 slot st h
    · exact fp_network1 (fun _ => 0) 0 slot st h
    · cases h
      rfl) 3
  exact ⟨w, s1, s2⟩

/-- C78_steady_headers. -/
example : ∃ w, Snapshot (unchanging fpWorld2 (fun n => n)) (exRoot32 77) w ∧ ∃ p,
    Program.prepare fpWire exExt id exSpec Config.default 9 w 6 = some (.ok p) ∧ p.finalizedSlot = 36 := by
  obtain ⟨w, s1, s2⟩ := C78_steady_headers fpWire exExt id exSpec Config.default 9 (unchanging fpWorld2 (fun n => n)) _ (fp_network2 _)
    (fun _ => rfl) 6
  obtain ⟨input, h⟩ := fp_prepared2
  exact ⟨w, s1, _, (s2 _).1 ((C78_unchanging fpWire exExt id exSpec Config.default 9 fpWorld2 _ (exRoot32 77) rfl (fp_network2 _) 6).trans h),
    rfl⟩

/-- C78_build and C78_sync: two rounds, in the first of which a header changes. -/
def fpTimedPasses : List Timed.Pass := [⟨.ok 3, fpOutside⟩, ⟨.ok 6, fpOutside⟩, ⟨.ok 9, unchanging fpWorld2 (fun n => n)⟩]

theorem fp_timed_passes : ∀ pass ∈ fpTimedPasses, OneNetwork pass.outside (exRoot32 77) := by
  intro pass hp
  simp only [fpTimedPasses, List.mem_cons, List.not_mem_nil, or_false] at hp
  rcases hp with rfl | rfl | rfl
  · exact fp_timed_network
  · exact fp_timed_network
  · exact fp_network2 _

example : ∃ passes' : List Program.Pass,
    List.Forall₂ (fun a b => b.head = a.head ∧ Snapshot a.outside (exRoot32 77) b.world) fpTimedPasses passes' ∧
    exceptJournals (Timed.buildLoop fpWire exExt id exSpec Config.default 9 true 3 fpTimedPasses).1 =
      exceptJournals (Program.buildLoop fpWire exExt id exSpec Config.default 9 true 3 passes').1 := by
  obtain ⟨p, h1, h2, -⟩ := C78_build fpWire exExt id exSpec Config.default 9 true (exRoot32 77) fpTimedPasses fp_timed_passes 3
  exact ⟨p, h1, h2⟩

example : ∃ ws, List.Forall₂ (fun o w => Snapshot o (exRoot32 77) w) (fpTimedPasses.map (·.outside)) ws ∧
    Timed.syncLoop fpWire exExt (onMachine exExt (2 ^ 32) 126) id exSpec Config.default 9 true ⟨exC4, gxC3⟩ (fpTimedPasses.map (·.outside)) =
    Program.syncLoop fpWire exExt (onMachine exExt (2 ^ 32) 126) id exSpec Config.default 9 true ⟨exC4, gxC3⟩ ws :=
  C78_sync fpWire exExt id exSpec Config.default 9 _ true (exRoot32 77) _ (by
    intro o ho
    obtain ⟨pass, hp, rfl⟩ := List.mem_map.1 ho
    exact fp_timed_passes pass hp) _

/-- C78_verify_command. -/
example : ∃ w, Snapshot fpOutside (exRoot32 77) w ∧ ∀ post,
    Timed.verifyCommand fpWire exExt (onMachine exExt (2 ^ 32) 126) id exSpec Config.default 9 true fpOutside 3 = some (.ok post) ↔
      Program.verifyCommand fpWire exExt (onMachine exExt (2 ^ 32) 126) id exSpec Config.default 9 true w 3 = some (.ok post) :=
  C78_verify_command fpWire exExt id exSpec Config.default 9 _ true (exRoot32 77) fpOutside fp_timed_network 3

/-- C78_quiet_accepted: the states of the first world, until the node falls silent. -/
example : ∃ input, Timed.prepare fpWire exExt id exSpec Config.default 9 fpOutside 3 =
      some (.ok ⟨encodeInput fpWire input, ⟨exC4, gxC3⟩, ⟨exC7, gxC6⟩, 25⟩) ∧
    (guestMain fpWire (onMachine exExt (2 ^ 32) 126) exSpec Config.default (Frame.encodeInputStdin (encodeInput fpWire input)) :
      Res Unit Bytes) = .ok (Abi.encodeJournal ⟨exC4, gxC3⟩ ⟨exC7, gxC6⟩ 24) := by
  obtain ⟨input, hp⟩ := fp_timed
  have hword : exExt.usizeMod = 2 ^ 32 := rfl
  obtain ⟨h0, h1, -, -, f2, -, hg⟩ := C78_quiet_accepted fpWire fpWire_laws exExt id (fun l => List.Perm.refl l) (by decide) 126
    (by rw [hword]; norm_num) (by rw [hword]) (by decide) exExt_keepsLength fpWire_bits exSpec Config.default (by decide) 9 fpOutside
    (exRoot32 77) fp_timed_network fpWorld1 rfl ⟨fun k slot st h => h, rfl, rfl, rfl, rfl, rfl, rfl⟩ 3 (fp_quiet1 3) _ hp
  have f2 : fpHeaders 1 gxC6.root = .ok (some h1) := f2
  rw [fp_header1] at f2
  cases f2
  exact ⟨input, hp, hg Unit⟩

end example_timed

end Signal
