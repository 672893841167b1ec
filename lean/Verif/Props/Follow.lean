import Verif.Proofs.Follow
import Verif.Props.Program

/-!
# C89: a chain that finalizes in the usual way can be proved
-/

namespace Signal
open Spec Wire Program

section
variable (W : WireExt) (X : Ext) (order : List Nat → List Nat) (ho : ∀ l, (order l).Perm l) (hcap : 126 ≤ X.stackCapacity)
  (word : Nat) (spec : ChainSpec) (cfg : Config) (bound : Nat)

/-- Whatever `prepare_input` has prepared was provable. -/
theorem prepared_provable (hs : SensibleChain X spec) (w : World) (epoch : Nat)
    (hw : HonestWorld W X word spec cfg bound w epoch) (hu : ∀ slot s, w.walk slot = .ok s → s.currentJustified.epoch < 2 ^ 64)
    (p : Prepared) (h : prepare W X order spec cfg bound w epoch = some (.ok p)) :
    Provable X spec cfg bound w epoch p.pre p.post p.finalizedSlot := by
  obtain ⟨r, trusted, st, input, next, links, hr, he, hspec, h1, h2, h3, h4, h5, -, h6⟩ := prepare_ok h
  obtain ⟨start, k1, k2, -, k4⟩ := hostSearch_ok h1
  rw [C56_finalization_search] at k1
  obtain ⟨f1, f2, f3, f4⟩ := k1
  obtain ⟨stop, w1, w2, w3, w4⟩ := (walk_ok_iff _ _ _ _ _ _ _).1 k2
  obtain ⟨fin1, fin2⟩ := w3.finalizes rfl w2
  obtain ⟨hnd, hne⟩ := fin2.nodup
  obtain ⟨-, hpost, hbl, -⟩ := C58_reaches_next X cfg r.toReader _ _ _ _ _ _ _ _ _ _ _ _ hu h1 rfl rfl h4
  obtain ⟨c1, c2⟩ := collect_ok_iff (spe := spec.slotsPerEpoch) (getBlock := w.getBlock) hne hnd
  obtain ⟨all, c3, c4⟩ := c2 _ k4
  obtain ⟨pre, atts, links', a1, a2, a3, a4, a5, a6⟩ :=
    (C68_accepts_iff_at X cfg r.toReader (settingAt_of hs hw hr) r.attestations rfl _ _).1 h4
  cases a1; cases a2
  obtain ⟨e1, state, _, _, atts, -, rfl⟩ := hr
  subst he
  have h2 : state.finalized = trusted := h2
  have h6 : p.pre = state := h6
  refine ⟨trusted, start, stop, links, ?_, f1, f4, f3, ?_, ?_, ?_, ?_, ⟨f2, w4⟩, c1.1 ⟨_, k4⟩, ?_, ?_, ?_⟩
  · exact trusted_ok_iff.1 ⟨st, e1, h3⟩
  · rw [h6]; exact w1
  · rw [h6]; exact h2
  · rw [h6]; exact w2
  · rw [h6, hpost, ← h2]; exact w3
  · intro l hl
    obtain ⟨a, ha, hal⟩ := hbl.nonempty l hl
    have hl' : l ∈ links' := by
      have ha' := ha
      rw [a3.concat, List.mem_flatMap] at ha'
      obtain ⟨l', hl', ha'⟩ := ha'
      rw [List.mem_filter, decide_eq_true_eq] at ha'
      rw [← hal, ha'.2]
      exact hl'
    have hcar := a5 l hl'
    have hmem : ∀ a, a ∈ votesFor l all ↔ a ∈ atts.filter (fun a => decide (linkOf a = l)) := by
      intro a
      have c3 : atts = _ := c3
      rw [List.mem_filter, decide_eq_true_eq, mem_votesFor, c3, List.mem_flatMap]
      constructor
      · rintro ⟨i1, i2⟩
        exact ⟨⟨l, hl, mem_votesFor.2 ⟨i1, i2⟩⟩, i2⟩
      · rintro ⟨⟨l', -, i1⟩, i2⟩
        exact ⟨(mem_votesFor.1 i1).1, i2⟩
    refine ⟨votesFor l all, ?_, ?_, ?_⟩
    · have : a ∈ votesFor l all := (hmem a).2 (List.mem_filter.2 ⟨ha, by simpa using hal⟩)
      exact List.ne_nil_of_mem this
    · intro b
      rw [mem_votesFor, c4 b, and_comm]
    · rw [← h2, h6]
      exact carries_congr (R := (w.reader spec state atts).toReader) (R' := (w.reader spec state []).toReader) rfl rfl rfl rfl rfl hmem hcar
  · have a6 : HostReader.slotForBlock _ p.post.finalized.root = _ := Res.mapErr_eq_ok.1 a6
    unfold HostReader.slotForBlock at a6
    simp only [Res.bind_eq_ok, okOr_eq_ok, Res.pure_eq, Res.ok.injEq] at a6
    obtain ⟨_, b1, hd, rfl, b2⟩ := a6
    exact ⟨hd, b1, b2⟩
  · refine (activeValidators_ok_iff (w.reader spec state atts) trusted.epoch).1 ?_
    unfold preflight at h5
    simp only [Res.bind_eq_ok, Res.mapErr_eq_ok] at h5
    obtain ⟨_, -, log, -, input', h5, -⟩ := h5
    unfold toInput at h5
    simp only [Res.bind_eq_ok, Res.mapErr_eq_ok] at h5
    obtain ⟨_, -, _, -, _, -, _, -, _, -, a, h5, -⟩ := h5
    exact ⟨a, h5⟩

include ho hcap in
/-- What is provable is prepared. -/
theorem provable_prepared (hs : SensibleChain X spec) (w : World) (epoch : Nat)
    (hw : HonestWorld W X word spec cfg bound w epoch) (state next : ConsensusState) (slot : Nat)
    (h : Provable X spec cfg bound w epoch state next slot) :
    ∃ bytes, prepare W X order spec cfg bound w epoch = some (.ok ⟨bytes, state, next, slot⟩) := by
  obtain ⟨trusted, start, stop, links, h⟩ := h
  obtain ⟨st, t1, t2⟩ := trusted_ok_iff.2 h.checkpoint
  have he : trusted.epoch = epoch := by
    obtain ⟨_, _, -, -, -, -, rfl⟩ := h.checkpoint
    rfl
  subst he
  have hfind := (C56_finalization_search spec.slotsPerEpoch w.find trusted bound start).2 ⟨h.later, h.steps.1, h.final, h.before⟩
  have hwalk := (walk_ok_iff spec.slotsPerEpoch w.walk start bound state next links).2
    ⟨stop, h.initial, h.initial_valid, by rw [h.initial_final]; exact h.way, h.steps.2⟩
  obtain ⟨fin1, fin2⟩ := h.way.finalizes h.initial_final h.initial_valid
  obtain ⟨hnd, hne⟩ := fin2.nodup
  obtain ⟨c1, c2⟩ := collect_ok_iff (spe := spec.slotsPerEpoch) (getBlock := w.getBlock) hne hnd
  obtain ⟨atts, hatts⟩ := c1.2 h.blocks
  obtain ⟨all, c3, c4⟩ := c2 _ hatts
  have hsearch : hostSearch spec.slotsPerEpoch w.find w.walk w.getBlock trusted bound = some (.ok (state, next, links, atts)) := by
    unfold hostSearch
    rw [hfind]
    dsimp only
    rw [hwalk]
    dsimp only
    rw [hatts, h.initial_final]
    simp [assert]
  have hr : ReaderFor X spec bound w trusted.epoch (w.reader spec state atts) trusted := ⟨t1, state, next, links, atts, hsearch, rfl⟩
  have hall : ∀ l ∈ links, ∃ a ∈ all, linkOf a = l := by
    intro l hl
    obtain ⟨votes, v1, v2, -⟩ := h.carried l hl
    obtain ⟨a, ha⟩ := List.exists_mem_of_ne_nil _ v1
    obtain ⟨v3, v4⟩ := (v2 a).1 ha
    exact ⟨a, (c4 a).2 v4, v3⟩
  obtain ⟨hbl, -⟩ := C44_regroup links all hnd hall
  have hv : verify X cfg (w.reader spec state atts).toReader = .ok (next, slot) := by
    rw [C68_accepts_iff_at X cfg _ (settingAt_of hs hw hr) atts rfl]
    refine ⟨state, atts, links, rfl, rfl, by rw [c3]; exact hbl, ⟨h.initial_valid, by rw [h.initial_final]; exact fin1, .inl fin2⟩, ?_, ?_⟩
    · intro l hl
      obtain ⟨votes, v1, v2, v3⟩ := h.carried l hl
      rw [h.initial_final]
      refine carries_congr (R := (w.reader spec state []).toReader) (R' := (w.reader spec state atts).toReader) rfl rfl rfl rfl rfl ?_ v3
      intro a
      rw [v2 a, List.mem_filter, decide_eq_true_eq, c3, List.mem_flatMap]
      constructor
      · rintro ⟨⟨l', -, i1⟩, i2⟩
        exact ⟨i2, (c4 a).1 (mem_votesFor.1 i1).1⟩
      · rintro ⟨i1, i2⟩
        exact ⟨⟨l, hl, mem_votesFor.2 ⟨(c4 a).2 i2, i1⟩⟩, i1⟩
    · obtain ⟨hd, b1, b2⟩ := h.header
      refine Res.mapErr_eq_ok.2 ?_
      unfold HostReader.slotForBlock
      have b1 : (w.reader spec state atts).headers next.finalized.root = .ok (some hd) := b1
      rw [b1]
      simp only [Res.ok_bind, okOr, Res.pure_eq, b2]
  obtain ⟨input, hp⟩ := C61_preflight_succeeds X order ho hcap (hw.trusted _ _ _ hr t2) hv (hw.consistent _ _ _ _ _ hr t2 hv)
    ((activeValidators_ok_iff _ _).2 h.keys)
  refine ⟨encodeInput W input, ?_⟩
  unfold prepare
  rw [t1]
  dsimp only
  rw [hsearch]
  dsimp only
  rw [hp]
  rfl

include ho hcap in
/-- **C89.** Exactly when an input is prepared for an epoch, and with which states and slot. -/
theorem C89_prepares_iff (hs : SensibleChain X spec) (w : World) (epoch : Nat) (hw : HonestWorld W X word spec cfg bound w epoch)
    (hu : ∀ slot s, w.walk slot = .ok s → s.currentJustified.epoch < 2 ^ 64) (state next : ConsensusState) (slot : Nat) :
    (∃ bytes, prepare W X order spec cfg bound w epoch = some (.ok ⟨bytes, state, next, slot⟩)) ↔
      Provable X spec cfg bound w epoch state next slot :=
  ⟨fun ⟨_, h⟩ => prepared_provable W X order word spec cfg bound hs w epoch hw hu _ h,
    provable_prepared W X order ho hcap word spec cfg bound hs w epoch hw state next slot⟩

theorem buildRounds_skip {epoch : Nat} {pass : Pass} {passes : List Pass} {rounds : List (Pass × Nat × Prepared)}
    (h : BuildRounds W X order spec cfg bound epoch passes rounds) : BuildRounds W X order spec cfg bound epoch (pass :: passes) rounds :=
  ⟨h.passes.cons _, h.ready, h.prepared, h.first, h.next, h.later⟩

theorem buildRounds_cons {epoch head : Nat} {pass : Pass} {passes : List Pass} {rounds : List (Pass × Nat × Prepared)} {p : Prepared}
    (hh : pass.head = .ok head) (hr : (epoch + 1) % 2 ^ 64 ≤ head) (hp : prepare W X order spec cfg bound pass.world epoch = some (.ok p))
    (h : BuildRounds W X order spec cfg bound p.post.finalized.epoch passes rounds) :
    BuildRounds W X order spec cfg bound epoch (pass :: passes) ((pass, epoch, p) :: rounds) := by
  have hprep : ∀ x ∈ (pass, epoch, p) :: rounds, prepare W X order spec cfg bound x.1.world x.2.1 = some (.ok x.2.2) := by
    intro x hx
    rcases List.mem_cons.1 hx with rfl | hx
    · exact hp
    · exact h.prepared x hx
  have hnext : ((pass, epoch, p) :: rounds).IsChain (fun x y => y.2.1 = x.2.2.post.finalized.epoch) := by
    cases rounds with
    | nil => simp
    | cons y ys => exact List.isChain_cons_cons.2 ⟨h.first y rfl, h.next⟩
  refine ⟨h.passes.cons_cons _, ?_, hprep, ?_, hnext, pairwise_of_next hprep hnext⟩
  · intro x hx
    rcases List.mem_cons.1 hx with rfl | hx
    · exact ⟨head, hh, hr⟩
    · exact h.ready x hx
  · intro x hx
    cases hx
    rfl

/-- A node that keeps everything serves the program. -/
theorem served_of_serves (F : Nat → Prop) (epoch : Nat) (hstart : F epoch) (passes : List Pass)
    (h : ∀ pass ∈ passes, ∃ head, Serves W X word spec cfg bound F pass head) : Served W X word spec cfg bound epoch passes := by
  induction passes generalizing epoch with
  | nil => exact .nil _
  | cons pass passes ih =>
    obtain ⟨head, hh⟩ := h pass (List.mem_cons_self ..)
    have hrest := fun q hq => h q (List.mem_cons_of_mem _ hq)
    by_cases hlt : epoch < head
    · obtain ⟨state, next, slot, h1, h2⟩ := hh.provable epoch hstart hlt
      exact .proves hh.reports hlt (hh.honest epoch hstart hlt) h1 (ih _ h2 hrest)
    · exact .waits hh.reports (by omega) (ih _ hstart hrest)

include ho hcap in
/-- **C89.** `build-input --continuous` keeps up with the chain: as long as what the node serves can be proved, the program goes on, and
its rounds reach every epoch `target` that the node reports as final (or a later one) in sufficiently many passes. -/
theorem C89_keeps_up (hs : SensibleChain X spec) (epoch : Nat) (passes : List Pass) (hserved : Served W X word spec cfg bound epoch passes)
    (hepoch : epoch + 1 < 2 ^ 64)
    (hu : ∀ pass ∈ passes, ∀ slot s, pass.world.walk slot = .ok s → s.finalized.epoch + 1 < 2 ^ 64) :
    (buildLoop W X order spec cfg bound true epoch passes).2 = .running ∧
    ∃ rounds, BuildRounds W X order spec cfg bound epoch passes rounds ∧
      (buildLoop W X order spec cfg bound true epoch passes).1 = rounds.flatMap (fun x => roundOps x.2.1 x.2.2) ∧
      ∀ (target : Nat) (late : List Pass), late.Sublist passes → (∀ pass ∈ late, ∃ head, pass.head = .ok head ∧ target ≤ head) →
        target - epoch ≤ late.length → target ≤ reached epoch rounds := by
  induction hserved with
  | nil epoch =>
    refine ⟨rfl, [], ⟨by simp, by simp, by simp, by simp, by simp, by simp⟩, rfl, ?_⟩
    intro target late h1 _ h3
    rw [List.sublist_nil.1 h1] at h3
    simp only [List.length_nil, reached, List.getLast?_nil] at h3 ⊢
    omega
  | @waits epoch pass passes head hhead hlate rest ih =>
    have hwrap : (epoch + 1) % U64 = epoch + 1 := Nat.mod_eq_of_lt (by simpa using hepoch)
    unfold buildLoop
    rw [hhead]
    dsimp only
    rw [hwrap, if_pos (by omega)]
    obtain ⟨h1, rounds, h2, h3, h4⟩ := ih hepoch (fun q hq => hu q (List.mem_cons_of_mem _ hq))
    refine ⟨h1, rounds, buildRounds_skip W X order spec cfg bound h2, h3, ?_⟩
    intro target late g1 g2 g3
    by_cases ht : target ≤ epoch
    · exact h4 target [] (List.nil_sublist _) (by simp) (by simp only [List.length_nil]; omega)
    · rcases List.sublist_cons_iff.1 g1 with g1 | ⟨late', rfl, g1⟩
      · exact h4 target late g1 g2 g3
      · obtain ⟨head', g4, g5⟩ := g2 pass (List.mem_cons_self ..)
        rw [hhead] at g4
        cases g4
        omega
  | @proves epoch pass passes head state next slot hhead hlater honest h1 rest ih =>
    have hwrap : (epoch + 1) % U64 = epoch + 1 := Nat.mod_eq_of_lt (by simpa using hepoch)
    unfold buildLoop
    rw [hhead]
    dsimp only
    rw [hwrap, if_neg (by omega)]
    obtain ⟨bytes, h3⟩ := provable_prepared W X order ho hcap word spec cfg bound hs pass.world epoch honest state next slot h1
    rw [h3]
    dsimp only
    rw [if_pos rfl]
    have hnext : next.finalized.epoch + 1 < 2 ^ 64 := by
      obtain ⟨_, _, _, _, h1⟩ := h1
      obtain ⟨e, he⟩ := h1.way.last
      exact hu pass (List.mem_cons_self ..) _ _ he
    obtain ⟨k1, rounds, k2, k3, k4⟩ := ih hnext (fun q hq => hu q (List.mem_cons_of_mem _ hq))
    refine ⟨k1, _, buildRounds_cons W X order spec cfg bound hhead (by omega) h3 k2, ?_, ?_⟩
    · rw [k3]; rfl
    · intro target late g1 g2 g3
      have hadv : epoch < next.finalized.epoch := prepare_advances h3
      have hreach : reached epoch ((pass, epoch, ⟨bytes, state, next, slot⟩) :: rounds) = reached next.finalized.epoch rounds := by
        unfold reached
        cases rounds with
        | nil => rfl
        | cons x xs =>
          rw [List.getLast?_cons_cons]
          cases hl : (x :: xs).getLast? with
          | none => simp at hl
          | some y => rfl
      rw [hreach]
      rcases List.sublist_cons_iff.1 g1 with g4 | ⟨late', rfl, g4⟩
      · exact k4 target late g4 g2 (by omega)
      · refine k4 target late' g4 (fun q hq => g2 q (List.mem_cons_of_mem _ hq)) ?_
        simp only [List.length_cons] at g3
        omega

/-- **C89.** The other case: when the chain leaves the way, nothing can be prepared, now or later. If, in the first change of finality after
the trusted epoch, the chain does otherwise than finalize the justified checkpoint by justifying the next epoch (the rules of Ethereum also
allow to finalize a checkpoint two epochs behind, when epochs were justified late), then `build-input` writes no file for the epoch,
whatever the bound and however often it is started. -/
theorem C89_stuck (continuous : Bool) (epoch : Nat) (passes : List Pass)
    (hodd : ∀ pass ∈ passes, pass.world.find = pass.world.walk ∧ ∃ first e s t, epoch < first ∧ first ≤ e ∧
      (∀ e', epoch < e' → e' < first → ∃ s', ChainAt spec.slotsPerEpoch pass.world.walk e' s' ∧ s'.finalized.epoch < epoch) ∧
      (∀ e', first ≤ e' → e' ≤ e → ∃ s', ChainAt spec.slotsPerEpoch pass.world.walk e' s' ∧ s'.finalized = s.finalized) ∧
      ChainAt spec.slotsPerEpoch pass.world.walk e s ∧ s.finalized.epoch = epoch ∧
      ChainAt spec.slotsPerEpoch pass.world.walk (e + 1) t ∧ t.finalized ≠ s.finalized ∧
      ¬ (t.finalized = s.currentJustified ∧ t.currentJustified.epoch = s.currentJustified.epoch + 1)) :
    (buildLoop W X order spec cfg bound continuous epoch passes).1 = [] := by
  have hway : ∀ {ask : StateAnswers} {f : Checkpoint} {start s0 links s1 stop e s t},
      WayToFinality spec.slotsPerEpoch ask f start s0 links s1 stop → ChainAt spec.slotsPerEpoch ask start s0 → start ≤ e →
      (∀ e', start < e' → e' ≤ e → ∀ s', ChainAt spec.slotsPerEpoch ask e' s' → s'.finalized = f) →
      ChainAt spec.slotsPerEpoch ask e s → ChainAt spec.slotsPerEpoch ask (e + 1) t →
      t.finalized = s.finalized ∨ t.finalized = s.currentJustified ∧ t.currentJustified.epoch = s.currentJustified.epoch + 1 := by
    have hmoves : ∀ {s o t}, Moves s o t → t.finalized = s.finalized ∨
        t.finalized = s.currentJustified ∧ t.currentJustified.epoch = s.currentJustified.epoch + 1 := by
      intro s o t h
      cases h with
      | stays => exact .inl rfl
      | link h hz =>
        cases h with
        | finalize c f b h => exact .inr ⟨rfl, h⟩
        | justify c f b h => exact .inl rfl
    have hdet : ∀ {ask : StateAnswers} {e s s'}, ChainAt spec.slotsPerEpoch ask e s → ChainAt spec.slotsPerEpoch ask e s' → s' = s := by
      intro ask e s s' h h'
      unfold ChainAt at h h'
      rw [h] at h'
      cases h'
      rfl
    intro ask f start s0 links s1 stop e s t h
    induction h with
    | @arrives e0 s0 o s1 hs hm hne =>
      intro h0 hle hf h1 h2
      rcases Nat.eq_or_lt_of_le hle with rfl | hlt
      · have := hdet h0 h1; have := hdet hs h2; subst s t
        exact hmoves hm
      · exact absurd (hf _ (Nat.lt_succ_self _) hlt _ hs) hne
    | @goesOn e0 s0 o u links s1 stop hs hm hfu rest ih =>
      intro h0 hle hf h1 h2
      rcases Nat.eq_or_lt_of_le hle with rfl | hlt
      · have := hdet h0 h1; have := hdet hs h2; subst s t
        exact hmoves hm
      · exact ih hs hlt (fun e' g1 g2 => hf e' (by omega) g2) h1 h2
  have hprep : ∀ pass ∈ passes, ∀ p, prepare W X order spec cfg bound pass.world epoch ≠ some (.ok p) := by
    intro pass hpass p h
    obtain ⟨hsame, first, e, s, t, h0, h1, h2, h2', h3, h4, h5, h6, h7⟩ := hodd pass hpass
    obtain ⟨r, trusted, st, input, next, links, hr, he, hspec, g1, g2, -⟩ := prepare_ok h
    obtain ⟨start, k1, k2, -, -⟩ := hostSearch_ok g1
    rw [C56_finalization_search, hsame] at k1
    obtain ⟨f1, f2, ⟨sf, f3, f3'⟩, f4⟩ := k1
    obtain ⟨stop, w1, -, w3, -⟩ := (walk_ok_iff _ _ _ _ _ _ _).1 k2
    have hdet : ∀ {ask : StateAnswers} {e s s'}, ChainAt spec.slotsPerEpoch ask e s → ChainAt spec.slotsPerEpoch ask e s' → s' = s := by
      intro ask e s s' h h'
      unfold ChainAt at h h'
      rw [h] at h'
      cases h'
      rfl
    have hstart : start = first := by
      rcases Nat.lt_trichotomy start first with hlt | heq | hgt
      · obtain ⟨s', i1, i2⟩ := h2 start (by omega) hlt
        rw [hdet f3 i1, f3', he] at i2
        omega
      · exact heq
      · obtain ⟨s', i1, i2⟩ := f4 first (by omega) hgt
        obtain ⟨s'', i3, i4⟩ := h2' first (Nat.le_refl _) h1
        rw [hdet i3 i1, i4] at i2
        omega
    subst hstart
    have htr : s.finalized = r.consensusState.finalized := by
      obtain ⟨s', i1, i2⟩ := h2' start (Nat.le_refl _) h1
      rw [hdet i1 f3] at f3'
      rw [g2, ← f3', i2]
    refine (hway w3 w1 h1 ?_ h3 h5).elim h6 h7
    intro e' j1 j2 s' j3
    obtain ⟨s'', j4, j5⟩ := h2' e' (by omega) j2
    rw [hdet j4 j3, j5, htr]
  clear hodd hway
  induction passes with
  | nil => rfl
  | cons pass passes ih =>
    have hih := ih (fun q hq => hprep q (List.mem_cons_of_mem _ hq))
    unfold buildLoop
    cases pass.head with
    | panic => rfl
    | err e => rfl
    | ok head =>
      dsimp only
      split
      · exact hih
      · cases hp : prepare W X order spec cfg bound pass.world epoch with
        | none => rfl
        | some x =>
          cases x with
          | panic => rfl
          | err e => rfl
          | ok p => exact absurd hp (hprep pass (List.mem_cons_self ..) p)

end

section shipped
variable (W : WireExt) (hW : WireLaws W) (X : Ext) (order : List Nat → List Nat) (ho : ∀ l, (order l).Perm l)
  (hcap : 126 ≤ X.stackCapacity) (capacity : Nat) (hhi : X.usizeMod ≤ 2 ^ 64) (hle : 2 ^ 32 ≤ X.usizeMod)
  (hroom : 126 ≤ capacity) (hk : KeepsLength X) (hbits : ∀ l, (W.encodeBits l).length ≤ l.length + 64)
  (spec : ChainSpec) (cfg : Config) (hcfg : cfg.epochLookaheadLimit ≤ 4) (bound : Nat)

include hW ho hcap hhi hle hroom hk hbits hcfg

/-- **C89.** After sufficiently many passes the files prove an unbroken chain of finalizations from the requested epoch to `target` or
beyond: for each of its epochs the guest, started with the input file, commits to the journal file, which leads from a state that
finalizes this epoch to one that finalizes the next. -/
theorem C89_proves_all {ε : Type} (hs : SensibleChain X spec) (epoch : Nat) (passes : List Pass)
    (hserved : Served W X (2 ^ 32) spec cfg bound epoch passes) (hepoch : epoch + 1 < 2 ^ 64)
    (hu : ∀ pass ∈ passes, ∀ slot s, pass.world.walk slot = .ok s → s.finalized.epoch + 1 < 2 ^ 64)
    (hquiet : ∀ pass ∈ passes, ∀ e, QuietWorld W X order spec cfg bound pass.world e) (target : Nat) (late : List Pass)
    (hlate : late.Sublist passes) (hhead : ∀ pass ∈ late, ∃ head, pass.head = .ok head ∧ target ≤ head)
    (hlong : target - epoch ≤ late.length) (fs fs' : Files)
    (hfs : fs' = applyOps fs (buildLoop W X order spec cfg bound true epoch passes).1) :
    ∃ rounds : List (ConsensusState × ConsensusState × Nat),
      (∀ x ∈ rounds.head?, x.1.finalized.epoch = epoch) ∧
      rounds.IsChain (fun x y => y.1.finalized.epoch = x.2.1.finalized.epoch) ∧
      (∀ x ∈ rounds, x.1.finalized.epoch < x.2.1.finalized.epoch) ∧
      (target ≤ epoch ∨ ∃ x ∈ rounds.getLast?, target ≤ x.2.1.finalized.epoch) ∧
      ∀ x ∈ rounds, ∃ stdin journal, fs' (.input x.1.finalized.epoch) = some stdin ∧ fs' (.journal x.1.finalized.epoch) = some journal ∧
        journal = Abi.encodeJournal x.1 x.2.1 x.2.2 ∧
        (guestMain W (onMachine X (2 ^ 32) capacity) spec cfg stdin : Res ε Bytes) = .ok journal := by
  obtain ⟨-, R, h1, h2, h3⟩ := C89_keeps_up W X order ho hcap (2 ^ 32) spec cfg bound hs epoch passes hserved hepoch hu
  have hpre : ∀ x ∈ R, x.2.2.pre.finalized.epoch = x.2.1 := by
    intro x hx
    obtain ⟨r, trusted, st, input, next, links, -, g1, -, -, g2, -, -, -, -, g3⟩ := prepare_ok (h1.prepared x hx)
    rw [g3, g2, g1]
  have hget : ∀ x ∈ R, fs' (.input x.2.1) = some (Frame.encodeInputStdin x.2.2.inputBytes) ∧
      fs' (.journal x.2.1) = some (Abi.encodeJournal x.2.2.pre x.2.2.post x.2.2.finalizedSlot) := by
    intro x hx
    obtain ⟨a, b, rfl⟩ := List.append_of_mem hx
    rw [hfs, h2, List.flatMap_append, List.flatMap_cons, applyOps_append, applyOps_append]
    have later : ∀ g : FileName, g.epoch = x.2.1 → ∀ fs, applyOps fs (b.flatMap (fun x => roundOps x.2.1 x.2.2)) g = fs g := by
      intro g hge fs
      refine applyOps_other ?_ fs
      rintro op ho rfl
      obtain ⟨y, hy, h3⟩ := List.mem_flatMap.1 ho
      have h4 := roundOps_epoch h3
      have h5 := (List.pairwise_cons.1 (List.pairwise_append.1 h1.later).2.1).1 y hy
      omega
    rw [later _ rfl, later _ rfl]
    exact roundOps_complete _ _ _
  refine ⟨R.map (fun x => (x.2.2.pre, x.2.2.post, x.2.2.finalizedSlot)), ?_, ?_, ?_, ?_, ?_⟩
  · intro x hx
    rw [List.head?_map, Option.mem_map] at hx
    obtain ⟨y, hy, rfl⟩ := hx
    rw [← h1.first y hy]
    exact hpre y (List.mem_of_mem_head? hy)
  · rw [List.isChain_map]
    refine List.IsChain.imp_of_mem_imp (fun x y _ hy hxy => ?_) h1.next
    rw [← hxy]
    exact hpre y hy
  · intro x hx
    obtain ⟨y, hy, rfl⟩ := List.mem_map.1 hx
    have := prepare_advances (h1.prepared y hy)
    rw [← hpre y hy] at this
    exact this
  · have := h3 target late hlate hhead hlong
    unfold reached at this
    rw [List.getLast?_map]
    cases hl : R.getLast? with
    | none => rw [hl] at this; exact .inl this
    | some y => rw [hl] at this; exact .inr ⟨_, rfl, this⟩
  · intro x hx
    obtain ⟨y, hy, rfl⟩ := List.mem_map.1 hx
    obtain ⟨g1, g2⟩ := hget y hy
    have hpass := h1.passes.subset (List.mem_map_of_mem hy)
    obtain ⟨-, hg⟩ := quiet_accepted W hW X order ho hcap capacity hhi hle hroom hk hbits spec cfg hcfg bound
      (hquiet y.1 hpass y.2.1) (h1.prepared y hy)
    rw [hpre y hy]
    exact ⟨_, _, g1, g2, rfl, hg ε⟩

end shipped
/-! ## The concrete chain -/

theorem fp_sensible : SensibleChain exExt exSpec := by
  have h := exReader_setting
  exact ⟨h.committee_size, h.lookahead, h.mixes, h.mixes_word, by decide, by decide, by decide, h.shuffle⟩

theorem fp_small {slot : Nat} {s : ConsensusState} (h : fpAsk slot = .ok s) :
    s.currentJustified.epoch < 2 ^ 64 ∧ s.finalized.epoch + 1 < 2 ^ 64 := by
  unfold fpAsk at h
  repeat' split at h
  all_goals first | cases h; decide | cases h

theorem fp_provable1 : Provable exExt exSpec Config.default 9 fpWorld1 3 ⟨exC4, gxC3⟩ ⟨exC7, gxC6⟩ 24 := by
  obtain ⟨input, -, h⟩ := fp_prepared1
  exact prepared_provable fpWire exExt id (2 ^ 32) exSpec Config.default 9 fp_sensible fpWorld1 3 (fp_quiet1 3).toHonestWorld
    (fun slot s h => (fp_small h).1) _ h

theorem fp_provable2 : Provable exExt exSpec Config.default 9 fpWorld2 6 ⟨exC7, gxC6⟩ ⟨fpC10, fpC9⟩ 36 := by
  obtain ⟨input, h⟩ := fp_prepared2
  exact prepared_provable fpWire exExt id (2 ^ 32) exSpec Config.default 9 fp_sensible fpWorld2 6 (fp_quiet2 6).toHonestWorld
    (fun slot s h => (fp_small h).1) _ h

theorem fp_served : Served fpWire exExt (2 ^ 32) exSpec Config.default 9 3 fpPasses :=
  .waits (head := 3) rfl (by decide) <| .proves (head := 6) rfl (by decide) (fp_quiet1 3).toHonestWorld fp_provable1 <|
    .proves (head := 9) rfl (by decide) (fp_quiet2 6).toHonestWorld fp_provable2 <| .nil _

/-- C89: the two rounds reach epoch 5 (in fact 9). -/
example : ∃ rounds, BuildRounds fpWire exExt id exSpec Config.default 9 3 fpPasses rounds ∧ 5 ≤ reached 3 rounds := by
  obtain ⟨-, rounds, h1, -, h2⟩ := C89_keeps_up fpWire exExt id (fun l => List.Perm.refl l) (by decide) (2 ^ 32) exSpec Config.default 9
    fp_sensible 3 fpPasses fp_served (by decide) (by
      intro pass hp slot s hs
      simp only [fpPasses, List.mem_cons, List.not_mem_nil, or_false] at hp
      rcases hp with rfl | rfl | rfl <;> exact (fp_small hs).2)
  refine ⟨rounds, h1, h2 5 (fpPasses.drop 1) (List.drop_sublist _ _) ?_ (by decide)⟩
  intro pass hp
  simp only [fpPasses, List.drop_succ_cons, List.drop_zero, List.mem_cons, List.not_mem_nil, or_false] at hp
  rcases hp with rfl | rfl
  · exact ⟨6, rfl, by decide⟩
  · exact ⟨9, rfl, by decide⟩

/-- C89: what the conditions of the equivalence give for the first round. -/
example : ∃ bytes, prepare fpWire exExt id exSpec Config.default 9 fpWorld1 3 = some (.ok ⟨bytes, ⟨exC4, gxC3⟩, ⟨exC7, gxC6⟩, 24⟩) :=
  (C89_prepares_iff fpWire exExt id (fun l => List.Perm.refl l) (by decide) (2 ^ 32) exSpec Config.default 9 fp_sensible fpWorld1 3
    (fp_quiet1 3).toHonestWorld (fun slot s h => (fp_small h).1) _ _ _).2 fp_provable1

/-- C89: the files after the three passes. -/
example (fs : Files) : ∃ rounds : List (ConsensusState × ConsensusState × Nat),
    (∃ x ∈ rounds.getLast?, 5 ≤ x.2.1.finalized.epoch) ∧
    ∀ x ∈ rounds, ∃ stdin, applyOps fs (buildLoop fpWire exExt id exSpec Config.default 9 true 3 fpPasses).1
        (.input x.1.finalized.epoch) = some stdin ∧
      (guestMain fpWire (onMachine exExt (2 ^ 32) 126) exSpec Config.default stdin : Res Unit Bytes) =
        .ok (Abi.encodeJournal x.1 x.2.1 x.2.2) := by
  have hword : exExt.usizeMod = 2 ^ 32 := rfl
  obtain ⟨rounds, -, -, -, h1, h2⟩ := C89_proves_all (ε := Unit) fpWire fpWire_laws exExt id (fun l => List.Perm.refl l) (by decide) 126
    (by rw [hword]; norm_num) (by rw [hword]) (by decide) exExt_keepsLength fpWire_bits exSpec Config.default (by decide) 9
    fp_sensible 3 fpPasses fp_served (by decide) (by
      intro pass hp slot s hs
      simp only [fpPasses, List.mem_cons, List.not_mem_nil, or_false] at hp
      rcases hp with rfl | rfl | rfl <;> exact (fp_small hs).2) (by
      intro pass hp e
      simp only [fpPasses, List.mem_cons, List.not_mem_nil, or_false] at hp
      rcases hp with rfl | rfl | rfl
      · exact fp_quiet1 e
      · exact fp_quiet1 e
      · exact fp_quiet2 e) 5 (fpPasses.drop 1) (List.drop_sublist _ _) (by
      intro pass hp
      simp only [fpPasses, List.drop_succ_cons, List.drop_zero, List.mem_cons, List.not_mem_nil, or_false] at hp
      rcases hp with rfl | rfl
      · exact ⟨6, rfl, by decide⟩
      · exact ⟨9, rfl, by decide⟩) (by decide) fs _ rfl
  refine ⟨rounds, h1.resolve_left (by decide), fun x hx => ?_⟩
  obtain ⟨stdin, journal, h3, -, rfl, h4⟩ := h2 x hx
  exact ⟨stdin, h3, h4⟩

/-- A chain in which epoch 4 is finalized two epochs behind. -/
def fpLateAsk : StateAnswers := fun slot =>
  if slot < 16 then .err .node
  else if slot < 20 then .ok ⟨gxC3, ⟨2, exRoot32 20⟩⟩
  else if slot < 28 then .ok ⟨exC4, gxC3⟩
  else .ok ⟨gxC6, exC4⟩

/-- C89: on this chain no file is written for epoch 3. -/
example (continuous : Bool) (bound n : Nat) : (buildLoop fpWire exExt id exSpec Config.default bound continuous 3
    (List.replicate n ⟨.ok 6, { fpWorld1 with find := fpLateAsk, walk := fpLateAsk }⟩)).1 = [] := by
  refine C89_stuck fpWire exExt id exSpec Config.default bound continuous 3 _ ?_
  intro pass hp
  rw [(List.mem_replicate.1 hp).2]
  refine ⟨rfl, 5, 6, ⟨exC4, gxC3⟩, ⟨gxC6, exC4⟩, by decide, by decide, ?_, ?_, rfl, rfl, rfl, by decide, by decide⟩
  · intro e' h1 h2
    have : e' = 4 := by omega
    subst this
    exact ⟨⟨gxC3, ⟨2, exRoot32 20⟩⟩, rfl, by decide⟩
  · intro e' h1 h2
    have : e' = 5 ∨ e' = 6 := by omega
    rcases this with rfl | rfl <;> exact ⟨⟨exC4, gxC3⟩, rfl, rfl⟩

end Signal
