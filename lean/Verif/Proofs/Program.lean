import Verif.Spec.Program
import Verif.Props.Size
import Verif.Props.Host

/-! Helper lemmas on the commands. -/

namespace Signal
open Spec Wire

namespace Program

/-- The input starts from the state of the reader. -/
theorem toInput_state {X : Ext} {order : List Nat → List Nat} {r : HostReader} {trusted : Checkpoint} {log : PreflightLog}
    {input : GuestInput} (h : toInput X order r trusted log = .ok input) : input.consensusState = r.consensusState := by
  unfold toInput at h
  simp only [Res.bind_eq_ok, Res.mapErr_eq_ok, Res.pure_eq, Res.ok.injEq] at h
  obtain ⟨_, _, _, _, _, _, _, _, _, _, _, _, _, _, _, _, _, _, _, _, _, _, _, _, rfl⟩ := h
  rfl

/-- The parts of a successful `prepare_input`. -/
theorem prepare_ok {W : WireExt} {X : Ext} {order : List Nat → List Nat} {spec : ChainSpec} {cfg : Config} {bound : Nat}
    {w : World} {epoch : Nat} {p : Prepared} (h : prepare W X order spec cfg bound w epoch = some (.ok p)) :
    ∃ r trusted st input next links, ReaderFor X spec bound w epoch r trusted ∧ trusted.epoch = epoch ∧ r.spec = spec ∧
      hostSearch spec.slotsPerEpoch w.find w.walk w.getBlock trusted bound =
        some (.ok (r.consensusState, next, links, r.attestations)) ∧
      r.consensusState.finalized = trusted ∧
      stateAtCheckpoint X (hostStateOps X) spec.slotsPerEpoch w.provider trusted = .ok st ∧
      verify X cfg r.toReader = .ok (p.post, p.finalizedSlot) ∧
      preflight X order cfg r trusted = .ok (input, p.pre, p.post, p.finalizedSlot) ∧
      p.inputBytes = encodeInput W input ∧ p.pre = r.consensusState := by
  unfold prepare at h
  cases h0 : trustedCheckpoint X spec w epoch with
  | panic => rw [h0] at h; cases h
  | err e => rw [h0] at h; cases h
  | ok trusted =>
    rw [h0] at h
    dsimp only at h
    have he : trusted.epoch = epoch := by
      unfold trustedCheckpoint at h0
      simp only [Res.bind_eq_ok, Res.pure_eq, Res.ok.injEq] at h0
      obtain ⟨_, _, _, _, _, _, _, _, rfl⟩ := h0
      rfl
    cases h1 : hostSearch spec.slotsPerEpoch w.find w.walk w.getBlock trusted bound with
    | none => rw [h1] at h; cases h
    | some x =>
      cases x with
      | panic => rw [h1] at h; cases h
      | err e => rw [h1] at h; cases h
      | ok q =>
        obtain ⟨state, next, links, atts⟩ := q
        rw [h1] at h
        simp only [Option.some.injEq, Res.bind_eq_ok, Res.mapErr_eq_ok, Res.pure_eq, Res.ok.injEq] at h
        obtain ⟨⟨input, pre, post, slot⟩, h2, rfl⟩ := h
        obtain ⟨-, -, -, hfin, -⟩ := hostSearch_ok h1
        have h2' := h2
        unfold preflight at h2'
        simp only [Res.bind_eq_ok, Res.mapErr_eq_ok, Res.pure_eq, Res.ok.injEq] at h2'
        obtain ⟨⟨post', slot'⟩, k1, log, k2, input', k3, k4⟩ := h2'
        cases k4
        have hv := (C61_recording_transparent X cfg (w.reader spec state atts).toReader state trusted.epoch rfl
          (by rw [hfin]) _).1 k1
        have hstate := toInput_state k3
        unfold toInput at k3
        simp only [Res.bind_eq_ok, Res.mapErr_eq_ok] at k3
        obtain ⟨st, k5, -⟩ := k3
        exact ⟨w.reader spec state atts, trusted, st, input, next, links, ⟨h0, state, next, links, atts, h1, rfl⟩, he, rfl, h1, hfin,
          k5, hv, h2, rfl, hstate⟩

/-- A round finalizes a later epoch than the one it starts from. -/
theorem prepare_advances {W : WireExt} {X : Ext} {order : List Nat → List Nat} {spec : ChainSpec} {cfg : Config} {bound : Nat}
    {w : World} {epoch : Nat} {p : Prepared} (h : prepare W X order spec cfg bound w epoch = some (.ok p)) :
    epoch < p.post.finalized.epoch := by
  obtain ⟨r, trusted, st, input, next, links, -, h1, -, -, h2, -, h3, -⟩ := prepare_ok h
  obtain ⟨pre, k1, -, -, k2, -⟩ := C10_strictly_advances X cfg r.toReader _ _ h3
  cases k1
  rw [h2, h1] at k2
  exact k2

/-! ## Files -/

theorem applyOps_append (fs : Files) (a b : List FileOp) : applyOps fs (a ++ b) = applyOps (applyOps fs a) b :=
  List.foldl_append

theorem interrupted_append_lt {a b : List FileOp} {k : Nat} (n : Nat) (h : k < a.length) :
    interrupted (a ++ b) k n = interrupted a k n := by
  unfold interrupted
  rw [List.take_append_of_le_length (by omega), List.getElem?_append_left h]

theorem interrupted_append_ge {a b : List FileOp} {k : Nat} (n : Nat) (h : a.length ≤ k) :
    interrupted (a ++ b) k n = a ++ interrupted b (k - a.length) n := by
  unfold interrupted
  rw [List.take_append, List.take_of_length_le h, List.getElem?_append_right h, List.append_assoc]

/-- The file an operation is about. -/
def FileOp.file : FileOp → FileName
  | .create f => f
  | .write f _ => f

theorem applyOps_other {g : FileName} {ops : List FileOp} (h : ∀ op ∈ ops, op.file ≠ g) (fs : Files) : applyOps fs ops g = fs g := by
  induction ops generalizing fs with
  | nil => rfl
  | cons op ops ih =>
    have h1 : applyOps fs (op :: ops) = applyOps (op.apply fs) ops := rfl
    rw [h1, ih (fun o ho => h o (List.mem_cons_of_mem _ ho))]
    have h2 := h op (List.mem_cons_self ..)
    cases op with
    | create f => exact if_neg (Ne.symm h2)
    | write f d => exact if_neg (Ne.symm h2)

theorem interrupted_file {ops : List FileOp} {k n : Nat} {op : FileOp} (h : op ∈ interrupted ops k n) :
    ∃ o ∈ ops, o.file = op.file := by
  unfold interrupted at h
  rcases List.mem_append.1 h with h | h
  · exact ⟨op, List.mem_of_mem_take h, rfl⟩
  · cases hk : ops[k]? with
    | none => rw [hk] at h; cases h
    | some o =>
      rw [hk] at h
      cases o with
      | create f => cases h
      | write f d =>
        rw [List.mem_singleton.1 h]
        exact ⟨_, List.mem_of_getElem? hk, rfl⟩

/-- The two files of an epoch. -/
def FileName.epoch : FileName → Nat
  | .input e => e
  | .journal e => e

theorem roundOps_epoch {e : Nat} {p : Prepared} {op : FileOp} (h : op ∈ roundOps e p) : op.file.epoch = e := by
  unfold roundOps at h
  simp only [List.mem_cons, List.not_mem_nil, or_false] at h
  rcases h with rfl | rfl | rfl | rfl <;> rfl

theorem roundOps_complete (fs : Files) (e : Nat) (p : Prepared) :
    applyOps fs (roundOps e p) (.input e) = some (Frame.encodeInputStdin p.inputBytes) ∧
    applyOps fs (roundOps e p) (.journal e) = some (Abi.encodeJournal p.pre p.post p.finalizedSlot) := by
  simp [applyOps, roundOps, FileOp.apply]

theorem roundOps_interrupted (fs : Files) (e : Nat) (p : Prepared) {k : Nat} (n : Nat) (hk : k < 4) :
    (k = 0 ∧ applyOps fs (interrupted (roundOps e p) k n) = fs) ∨
    Written p (fs (.journal e)) (applyOps fs (interrupted (roundOps e p) k n) (.input e))
      (applyOps fs (interrupted (roundOps e p) k n) (.journal e)) := by
  have : k = 0 ∨ k = 1 ∨ k = 2 ∨ k = 3 := by omega
  rcases this with rfl | rfl | rfl | rfl
  · exact .inl ⟨rfl, rfl⟩
  · refine .inr (.inl ⟨?_, ?_⟩) <;> simp [applyOps, interrupted, roundOps, FileOp.apply]
  · refine .inr (.inr (.inl ⟨n, ?_, ?_⟩)) <;> simp [applyOps, interrupted, roundOps, FileOp.apply]
  · refine .inr (.inr (.inr ⟨n, ?_, ?_⟩)) <;> simp [applyOps, interrupted, roundOps, FileOp.apply]

/-! ## One round after the other -/

/-- A search for the epoch that the search before has ended with starts from the state in which that one has ended, if the node still
gives the answers it gave before. -/
theorem next_search {spe : Nat} {ask ask' : StateAnswers} {getBlock getBlock' : Nat → Res HostError (Option Block)}
    {trusted trusted' : Checkpoint} {bound bound' : Nat} {pre post pre' post' : ConsensusState} {links links' : List Link}
    {atts atts' : List Attestation} (hext : Extends ask ask')
    (hu : ∀ slot t, ask slot = .ok t → t.currentJustified.epoch < 2 ^ 64)
    (hu' : ∀ slot t, ask' slot = .ok t → t.currentJustified.epoch < 2 ^ 64)
    (hpast : ∀ e s, 0 < e → ChainAt spe ask e s → s.finalized.epoch < e)
    (h1 : hostSearch spe ask ask getBlock trusted bound = some (.ok (pre, post, links, atts)))
    (h1' : hostSearch spe ask' ask' getBlock' trusted' bound' = some (.ok (pre', post', links', atts')))
    (ht : trusted'.epoch = post.finalized.epoch) : pre' = post := by
  obtain ⟨e0, f1, f2, hfin, -⟩ := hostSearch_ok h1
  obtain ⟨e0', f1', f2', -, -⟩ := hostSearch_ok h1'
  obtain ⟨j1, j2, j3, ⟨before, l, t, j4, j5, j6, j7⟩, e1, j8, j9, j10, j11⟩ := C43_links_replay _ _ _ _ _ _ _ hu f2
  obtain ⟨j1', -⟩ := C43_links_replay _ _ _ _ _ _ _ hu' f2'
  rw [C56_finalization_search] at f1 f1'
  obtain ⟨g1, g2, ⟨s0, g3, g4⟩, g5⟩ := f1
  obtain ⟨g1', g2', ⟨s0', g3', g4'⟩, g5'⟩ := f1'
  have hvs : ValidState pre := by
    cases hb : before with
    | nil =>
      rw [hb] at j5
      cases j5
      exact ((stateTransition_ok_iff _ _ _).1 j7).1
    | cons x xs =>
      rw [hb] at j5
      simp only [applyLinks, Res.bind_eq_ok] at j5
      obtain ⟨_, j5, -⟩ := j5
      exact ((stateTransition_ok_iff _ _ _).1 j5).1
  have hlt := ((applyLinks_run j2).finalized hvs).2.2 j3
  have hpe : pre.finalized.epoch = trusted.epoch := by rw [hfin]
  have same : ∀ e u v, ChainAt spe ask e u → ChainAt spe ask' e v → v = u := by
    intro e u v h h'
    have := hext _ _ h
    unfold ChainAt at h'
    rw [this] at h'
    exact (Res.ok.inj h').symm
  have hpost := hpast e1 post (by omega) j10
  have hle : e0' ≤ e1 := by
    by_contra hcon
    obtain ⟨u, hu1, hu2⟩ := g5' e1 (by omega) (by omega)
    rw [same e1 _ _ j10 hu1] at hu2
    omega
  have hge : e1 ≤ e0' := by
    by_contra hcon
    rcases Nat.lt_or_ge e0' e0 with hlt0 | hge0
    · obtain ⟨u, hu1, hu2⟩ := g5 e0' (by omega) hlt0
      rw [same e0' _ _ hu1 g3'] at g4'
      rw [g4'] at hu2
      omega
    · obtain ⟨u, hu1, hu2⟩ := j11 e0' hge0 (by omega)
      rw [same e0' _ _ hu1 g3', hu2] at g4'
      have := congrArg Checkpoint.epoch g4'
      omega
  have he : e0' = e1 := by omega
  subst he
  exact same e0' _ _ j10 j1'

/-- So a round starts from the state in which the round before has ended. -/
theorem next_prepare {W : WireExt} {X : Ext} {order : List Nat → List Nat} {spec : ChainSpec} {cfg : Config} {bound bound' : Nat}
    {w w' : World} {epoch : Nat} {p p' : Prepared} (hs : SteadyView spec w) (hs' : SteadyView spec w') (hext : Extends w.walk w'.walk)
    (h : prepare W X order spec cfg bound w epoch = some (.ok p))
    (h' : prepare W X order spec cfg bound' w' p.post.finalized.epoch = some (.ok p')) :
    p'.pre = p.post := by
  obtain ⟨r, trusted, st, input, next, links, h1, h2, h3, h4, h5, h6, h7, h8, h9, h10⟩ := prepare_ok h
  obtain ⟨r', trusted', st', input', next', links', h1', h2', h3', h4', h5', h6', h7', h8', h9', h10'⟩ := prepare_ok h'
  rw [hs.same] at h4
  rw [hs'.same] at h4'
  obtain ⟨-, hpost, -, -⟩ := C58_reaches_next X cfg _ _ _ _ _ _ _ _ _ _ _ _ _ hs.small h4 rfl rfl h7
  have := next_search hext hs.small hs'.small hs.past h4 h4' (by rw [h2', hpost])
  rw [h10', hpost, ← this]

end Program
end Signal
