import Verif.Proofs.Program
import Verif.Proofs.ExampleProgram

/-!
# C66, C67: the files of `build-input` and the log of `sync`

Specification: `Verif/Spec/Program.lean`.
-/

namespace Signal
open Spec Wire Program

section errors
variable (W : WireExt) (X : Ext) (order : List Nat → List Nat) (spec : ChainSpec) (cfg : Config) (bound : Nat)

/-- **C66.** A block that does not belong to the state of the epoch boundary (another fork, or a provider with other data) aborts the
program: no input is prepared from it. -/
theorem C66_foreign_block (w : World) (epoch : Nat) (st : HostState) (b : Header)
    (hst : stateAtEpochBoundary (hostStateOps X) spec.slotsPerEpoch w.provider epoch = .ok st)
    (hb : w.boundaryBlock st.latestBlockHeader.slot = .ok (some b)) (hne : b.stateRoot ≠ st.beacon.tree.root X) :
    prepare W X order spec cfg bound w epoch = some .panic := by
  have : trustedCheckpoint X spec w epoch = .panic := by
    unfold trustedCheckpoint
    rw [hst]
    simp only [Res.mapErr, Res.ok_bind, hb, okOr, hne, decide_false]
    rfl
  unfold prepare
  rw [this]

/-- **C66.** No error is swallowed: an input is prepared, or the program aborts, or it fails with an error, or the search of the chain
has not ended within `bound` requests. The error is that of the state provider or the node, or the block is missing, or the preflight has
failed on what was read. -/
theorem C66_errors_reported (w : World) (epoch : Nat) :
    (prepare W X order spec cfg bound w epoch = none ↔ ∃ trusted, trustedCheckpoint X spec w epoch = .ok trusted ∧
      hostSearch spec.slotsPerEpoch w.find w.walk w.getBlock trusted bound = none) ∧
    ∀ e, prepare W X order spec cfg bound w epoch = some (.err e) ↔
      trustedCheckpoint X spec w epoch = .err e ∨
      (∃ trusted e', trustedCheckpoint X spec w epoch = .ok trusted ∧
        hostSearch spec.slotsPerEpoch w.find w.walk w.getBlock trusted bound = some (.err e') ∧ e = .host e') ∨
      (∃ r trusted e', ReaderFor X spec bound w epoch r trusted ∧ preflight X order cfg r trusted = .err e' ∧ e = .preflight e') := by
  unfold prepare ReaderFor
  cases ht : trustedCheckpoint X spec w epoch with
  | panic => simp
  | err e => simp
  | ok t =>
    dsimp only
    cases hs : hostSearch spec.slotsPerEpoch w.find w.walk w.getBlock t bound with
    | none => simp [hs]
    | some r =>
      cases r with
      | panic => simp [hs]
      | err e => simp [hs, eq_comm]
      | ok x =>
        obtain ⟨state, next, links, atts⟩ := x
        dsimp only
        cases hp : preflight X order cfg (w.reader spec state atts) t with
        | panic => simp [hs, hp, Res.mapErr]
        | err e => simp [hs, hp, Res.mapErr, eq_comm]
        | ok y => simp [hs, hp, Res.mapErr]

end errors

section rounds
variable (W : WireExt) (X : Ext) (order : List Nat → List Nat) (spec : ChainSpec) (cfg : Config) (bound : Nat) (continuous : Bool)

theorem pairwise_of_next {W : WireExt} {X : Ext} {order : List Nat → List Nat} {spec : ChainSpec} {cfg : Config} {bound : Nat}
    {R : List (Pass × Nat × Prepared)}
    (hp : ∀ x ∈ R, prepare W X order spec cfg bound x.1.world x.2.1 = some (.ok x.2.2))
    (h : R.IsChain (fun x y => y.2.1 = x.2.2.post.finalized.epoch)) : R.Pairwise (fun x y => x.2.1 < y.2.1) := by
  induction R with
  | nil => exact .nil
  | cons x xs ih =>
    have ih := ih (fun y hy => hp y (List.mem_cons_of_mem _ hy)) h.tail
    refine List.pairwise_cons.2 ⟨?_, ih⟩
    cases xs with
    | nil => simp
    | cons y ys =>
      have hxy : x.2.1 < y.2.1 := by
        rw [(List.isChain_cons_cons.1 h).1]
        exact prepare_advances (hp x (List.mem_cons_self ..))
      intro z hz
      rcases List.mem_cons.1 hz with rfl | hz
      · exact hxy
      · exact hxy.trans ((List.pairwise_cons.1 ih).1 z hz)

/-- **C66.** What `build-input` does to the files: it writes the two files of one epoch after the other, for the epochs that
`BuildRounds` describes. Without `--continuous` there is at most one round. -/
theorem C66_rounds (epoch : Nat) (passes : List Pass) : ∃ rounds, BuildRounds W X order spec cfg bound epoch passes rounds ∧
    (buildLoop W X order spec cfg bound continuous epoch passes).1 = rounds.flatMap (fun x => roundOps x.2.1 x.2.2) ∧
    (continuous = false → rounds.length ≤ 1) := by
  induction passes generalizing epoch with
  | nil => exact ⟨[], ⟨by simp, by simp, by simp, by simp, by simp, by simp⟩, rfl, by simp⟩
  | cons pass passes ih =>
    have stop : ∃ rounds, BuildRounds W X order spec cfg bound epoch (pass :: passes) rounds ∧
        ([] : List FileOp) = rounds.flatMap (fun x => roundOps x.2.1 x.2.2) ∧ (continuous = false → rounds.length ≤ 1) :=
      ⟨[], ⟨by simp, by simp, by simp, by simp, by simp, by simp⟩, rfl, by simp⟩
    unfold buildLoop
    cases hh : pass.head with
    | panic => exact stop
    | err e => exact stop
    | ok head =>
      dsimp only
      split
      · obtain ⟨rounds, h1, h2⟩ := ih epoch
        exact ⟨rounds, ⟨h1.passes.cons _, h1.ready, h1.prepared, h1.first, h1.next, h1.later⟩, h2⟩
      · rename_i hlt
        cases hp : prepare W X order spec cfg bound pass.world epoch with
        | none => exact stop
        | some r =>
          cases r with
          | panic => exact stop
          | err e => exact stop
          | ok p =>
            have ready : ∃ head, pass.head = .ok head ∧ (epoch + 1) % 2 ^ 64 ≤ head := ⟨head, hh, by simpa using hlt⟩
            dsimp only
            split
            · rename_i hcont
              obtain ⟨rounds, h1, h2, h3⟩ := ih p.post.finalized.epoch
              have hprep : ∀ x ∈ (pass, epoch, p) :: rounds, prepare W X order spec cfg bound x.1.world x.2.1 = some (.ok x.2.2) := by
                intro x hx
                rcases List.mem_cons.1 hx with rfl | hx
                · exact hp
                · exact h1.prepared x hx
              have hnext : ((pass, epoch, p) :: rounds).IsChain (fun x y => y.2.1 = x.2.2.post.finalized.epoch) := by
                cases rounds with
                | nil => simp
                | cons y ys => exact List.isChain_cons_cons.2 ⟨h1.first y rfl, h1.next⟩
              refine ⟨(pass, epoch, p) :: rounds, ⟨h1.passes.cons_cons _, ?_, hprep, ?_, hnext, pairwise_of_next hprep hnext⟩, ?_, ?_⟩
              · intro x hx
                rcases List.mem_cons.1 hx with rfl | hx
                · exact ready
                · exact h1.ready x hx
              · intro x hx
                cases hx
                rfl
              · rw [h2]; rfl
              · intro hc
                rw [hc] at hcont
                cases hcont
            · refine ⟨[(pass, epoch, p)], ⟨?_, ?_, ?_, ?_, ?_, ?_⟩, ?_, ?_⟩
              · simp
              · intro x hx
                rw [List.mem_singleton.1 hx]
                exact ready
              · intro x hx
                rw [List.mem_singleton.1 hx]
                exact hp
              · intro x hx
                cases hx
                rfl
              · simp
              · simp
              · simp
              · simp

/-- The files after an interrupted sequence of rounds. -/
theorem rounds_interrupted (R : List (Pass × Nat × Prepared)) (hR : R.Pairwise (fun x y => x.2.1 < y.2.1)) (fs : Files) (k n e : Nat) :
    (applyOps fs (interrupted (R.flatMap (fun x => roundOps x.2.1 x.2.2)) k n) (.input e) = fs (.input e) ∧
      applyOps fs (interrupted (R.flatMap (fun x => roundOps x.2.1 x.2.2)) k n) (.journal e) = fs (.journal e)) ∨
    ∃ x ∈ R, x.2.1 = e ∧ Written x.2.2 (fs (.journal e))
      (applyOps fs (interrupted (R.flatMap (fun x => roundOps x.2.1 x.2.2)) k n) (.input e))
      (applyOps fs (interrupted (R.flatMap (fun x => roundOps x.2.1 x.2.2)) k n) (.journal e)) := by
  induction R generalizing fs k with
  | nil => exact .inl (by simp [interrupted, applyOps])
  | cons x R ih =>
    have hlen : (roundOps x.2.1 x.2.2).length = 4 := rfl
    rw [List.flatMap_cons]
    have hother : ∀ (g : FileName) (l : List FileOp), g.epoch ≠ x.2.1 → (∀ op ∈ l, ∃ o ∈ roundOps x.2.1 x.2.2, o.file = op.file) →
        ∀ fs, applyOps fs l g = fs g := by
      intro g l hg hl fs
      refine applyOps_other ?_ fs
      rintro op ho rfl
      obtain ⟨o, h1, h2⟩ := hl op ho
      exact hg (by rw [← h2]; exact roundOps_epoch h1)
    by_cases hk : k < 4
    · rw [interrupted_append_lt n (by rw [hlen]; exact hk)]
      by_cases he : x.2.1 = e
      · subst he
        rcases roundOps_interrupted fs x.2.1 x.2.2 n hk with ⟨-, h⟩ | h
        · rw [h]; exact .inl ⟨rfl, rfl⟩
        · exact .inr ⟨x, List.mem_cons_self .., rfl, h⟩
      · exact .inl ⟨hother (.input e) _ (Ne.symm he) (fun op ho => interrupted_file ho) fs,
          hother (.journal e) _ (Ne.symm he) (fun op ho => interrupted_file ho) fs⟩
    · rw [interrupted_append_ge n (by rw [hlen]; omega), applyOps_append]
      by_cases he : x.2.1 = e
      · subst he
        obtain ⟨c1, c2⟩ := roundOps_complete fs x.2.1 x.2.2
        have later : ∀ g : FileName, g.epoch = x.2.1 → ∀ fs, applyOps fs (interrupted (R.flatMap (fun x => roundOps x.2.1 x.2.2))
            (k - (roundOps x.2.1 x.2.2).length) n) g = fs g := by
          intro g hg fs
          refine applyOps_other ?_ fs
          rintro op ho rfl
          obtain ⟨o, h1, h2⟩ := interrupted_file ho
          obtain ⟨y, hy, h3⟩ := List.mem_flatMap.1 h1
          have h4 := roundOps_epoch h3
          have h5 := (List.pairwise_cons.1 hR).1 y hy
          rw [h2, hg] at h4
          omega
        rw [later _ rfl, later _ rfl, c1, c2]
        refine .inr ⟨x, List.mem_cons_self .., rfl, .inr (.inr ⟨(Abi.encodeJournal x.2.2.pre x.2.2.post x.2.2.finalizedSlot).length, rfl, ?_⟩)⟩
        rw [List.take_length]
      · have keep : ∀ g : FileName, g.epoch = e → applyOps fs (roundOps x.2.1 x.2.2) g = fs g := by
          intro g hg
          exact hother g _ (by rw [hg]; exact Ne.symm he) (fun op ho => ⟨op, ho, rfl⟩) fs
        rcases ih (List.pairwise_cons.1 hR).2 (applyOps fs (roundOps x.2.1 x.2.2)) (k - (roundOps x.2.1 x.2.2).length) with h | ⟨y, h1, h2, h3⟩
        · rw [keep _ rfl, keep _ rfl] at h
          exact .inl h
        · rw [keep _ rfl] at h3
          exact .inr ⟨y, List.mem_cons_of_mem _ h1, h2, h3⟩

/-- **C66.** At whatever point `build-input` is interrupted, the files of each epoch are as they were, or they hold what one pass has
prepared for this epoch, as far as it was written. -/
theorem C66_interrupted (epoch : Nat) (passes : List Pass) (fs fs' : Files) (k n e : Nat)
    (hfs : fs' = applyOps fs (interrupted (buildLoop W X order spec cfg bound continuous epoch passes).1 k n)) :
    (fs' (.input e) = fs (.input e) ∧ fs' (.journal e) = fs (.journal e)) ∨
    ∃ pass ∈ passes, ∃ p, prepare W X order spec cfg bound pass.world e = some (.ok p) ∧
      Written p (fs (.journal e)) (fs' (.input e)) (fs' (.journal e)) := by
  subst hfs
  obtain ⟨R, h1, h2, -⟩ := C66_rounds W X order spec cfg bound continuous epoch passes
  rw [h2]
  rcases rounds_interrupted R h1.later fs k n e with h | ⟨x, h3, rfl, h4⟩
  · exact .inl h
  · exact .inr ⟨x.1, h1.passes.subset (List.mem_map_of_mem h3), x.2.2, h1.prepared x h3, h4⟩

/-- **C66.** Once the node reports that a later epoch is final and the input can be prepared, the files of the epoch are written, and
they are complete. -/
theorem C66_progress (epoch : Nat) (waiting rest : List Pass) (pass : Pass) (head : Nat) (p : Prepared)
    (hwait : ∀ q ∈ waiting, ∃ h, q.head = .ok h ∧ h ≤ epoch) (hsmall : epoch + 1 < 2 ^ 64) (hhead : pass.head = .ok head)
    (hready : epoch < head) (hp : prepare W X order spec cfg bound pass.world epoch = some (.ok p)) (fs fs' : Files)
    (hfs : fs' = applyOps fs (buildLoop W X order spec cfg bound continuous epoch (waiting ++ pass :: rest)).1) :
    fs' (.input epoch) = some (Frame.encodeInputStdin p.inputBytes) ∧
      fs' (.journal epoch) = some (Abi.encodeJournal p.pre p.post p.finalizedSlot) := by
  have hwrap : (epoch + 1) % U64 = epoch + 1 := Nat.mod_eq_of_lt (by simpa using hsmall)
  have hops : ∃ ops, (buildLoop W X order spec cfg bound continuous epoch (waiting ++ pass :: rest)).1 = roundOps epoch p ++ ops ∧
      ∀ op ∈ ops, op.file.epoch ≠ epoch := by
    clear hfs
    induction waiting with
    | nil =>
      rw [List.nil_append]
      unfold buildLoop
      rw [hhead]
      dsimp only
      rw [if_neg (by rw [hwrap]; omega), hp]
      dsimp only
      cases continuous with
      | false => exact ⟨[], by simp, by simp⟩
      | true =>
        refine ⟨_, rfl, ?_⟩
        obtain ⟨R, h1, h2, -⟩ := C66_rounds W X order spec cfg bound true p.post.finalized.epoch rest
        have hadv := prepare_advances hp
        rw [h2]
        intro op hop
        obtain ⟨y, hy, h3⟩ := List.mem_flatMap.1 hop
        rw [roundOps_epoch h3]
        cases R with
        | nil => cases hy
        | cons x R =>
          have hx := h1.first x rfl
          rcases List.mem_cons.1 hy with rfl | hy
          · omega
          · have := (List.pairwise_cons.1 h1.later).1 y hy
            omega
    | cons q waiting ih =>
      obtain ⟨h, h1, h2⟩ := hwait q (List.mem_cons_self ..)
      rw [List.cons_append]
      unfold buildLoop
      rw [h1]
      dsimp only
      rw [if_pos (by rw [hwrap]; omega)]
      exact ih (fun q hq => hwait q (List.mem_cons_of_mem _ hq))
  obtain ⟨ops, h1, h2⟩ := hops
  rw [hfs, h1, applyOps_append, applyOps_other (g := .input epoch) (fun op hop h => h2 op hop (by rw [h]; rfl)),
    applyOps_other (g := .journal epoch) (fun op hop h => h2 op hop (by rw [h]; rfl))]
  exact roundOps_complete fs epoch p

/-- **C66.** The journals chain: each round starts from the state in which the round before has ended, if the node goes on to give the
answers it has given. -/
theorem C66_chained_partial (epoch : Nat) (passes : List Pass) (rounds : List (Pass × Nat × Prepared))
    (h : BuildRounds W X order spec cfg bound epoch passes rounds) (hs : ∀ pass ∈ passes, SteadyView spec pass.world)
    (hext : passes.Pairwise (fun a b => Extends a.world.walk b.world.walk)) :
    rounds.IsChain (fun x y => y.2.2.pre = x.2.2.post) := by
  have hsub : ∀ x ∈ rounds, SteadyView spec x.1.world := fun x hx => hs _ (h.passes.subset (List.mem_map_of_mem hx))
  have hpw := List.pairwise_map.1 (hext.sublist h.passes)
  have hprep := h.prepared
  have hnext := h.next
  clear h hext
  induction rounds with
  | nil => simp
  | cons x xs ih =>
    cases xs with
    | nil => simp
    | cons y ys =>
      refine List.isChain_cons_cons.2 ⟨?_, ih (fun z hz => hsub z (List.mem_cons_of_mem _ hz)) (List.pairwise_cons.1 hpw).2
        (fun z hz => hprep z (List.mem_cons_of_mem _ hz)) hnext.tail⟩
      have hxy := (List.isChain_cons_cons.1 hnext).1
      have h2 := hprep y (by simp)
      rw [hxy] at h2
      exact next_prepare (hsub x (by simp)) (hsub y (by simp)) ((List.pairwise_cons.1 hpw).1 y (by simp)) (hprep x (by simp)) h2

end rounds

section sync
variable (W : WireExt) (Xh Xg : Ext) (order : List Nat → List Nat) (spec : ChainSpec) (cfg : Config) (bound : Nat) (r0vm : Bool)

/-- **C67.** The log of `sync`: the first line starts from the state at the start slot, each further one from the state the line before
ends with, whatever its message; and the line of a pass reports what the check of the input prepared in it has given. -/
theorem C67_lines (initial : ConsensusState) (ws : List World) :
    (∀ line ∈ (syncLoop W Xh Xg order spec cfg bound r0vm initial ws).1.head?, line.before = initial) ∧
    (syncLoop W Xh Xg order spec cfg bound r0vm initial ws).1.IsChain (fun a b => b.before = a.after) ∧
    ∀ (i : Nat) (line : LogLine), (syncLoop W Xh Xg order spec cfg bound r0vm initial ws).1[i]? = some line →
      ∃ w p, ws[i]? = some w ∧ LineFor W Xh Xg order spec cfg bound r0vm line w p := by
  induction ws generalizing initial with
  | nil => exact ⟨by simp [syncLoop], by simp [syncLoop], by simp [syncLoop]⟩
  | cons w ws ih =>
    have build : ∀ (p : Prepared) (line : LogLine), line.before = initial → line.after = p.post →
        LineFor W Xh Xg order spec cfg bound r0vm line w p →
        let lines := line :: (syncLoop W Xh Xg order spec cfg bound r0vm p.post ws).1
        (∀ line ∈ lines.head?, line.before = initial) ∧ lines.IsChain (fun a b => b.before = a.after) ∧
        ∀ (i : Nat) (line : LogLine), lines[i]? = some line →
          ∃ w' p, (w :: ws)[i]? = some w' ∧ LineFor W Xh Xg order spec cfg bound r0vm line w' p := by
      intro p line h1 h2 h3
      obtain ⟨i1, i2, i3⟩ := ih p.post
      refine ⟨?_, ?_, ?_⟩
      · intro l hl
        cases hl
        exact h1
      · cases hls : (syncLoop W Xh Xg order spec cfg bound r0vm p.post ws).1 with
        | nil => simp
        | cons y ys =>
          rw [hls] at i1 i2
          exact List.isChain_cons_cons.2 ⟨by rw [i1 y rfl, h2], i2⟩
      · intro i l hl
        cases i with
        | zero =>
          cases hl
          exact ⟨w, p, rfl, h3⟩
        | succ i => exact i3 i l hl
    have stop : (∀ line ∈ ([] : List LogLine).head?, line.before = initial) ∧
        ([] : List LogLine).IsChain (fun a b => b.before = a.after) ∧
        ∀ (i : Nat) (line : LogLine), ([] : List LogLine)[i]? = some line →
          ∃ w' p, (w :: ws)[i]? = some w' ∧ LineFor W Xh Xg order spec cfg bound r0vm line w' p := ⟨by simp, by simp, by simp⟩
    unfold syncLoop
    cases hp : prepare W Xh order spec cfg bound w initial.finalized.epoch with
    | none => exact stop
    | some r =>
      cases r with
      | panic => exact stop
      | err e => exact stop
      | ok p =>
        dsimp only
        cases hr : runVerify W Xh Xg spec cfg p.pre p.inputBytes r0vm with
        | panic => exact stop
        | ok new =>
          refine build p _ rfl rfl ⟨hp, rfl, ?_, ?_, ?_⟩
          · rw [hr]
            by_cases h : new = p.post <;> simp [h]
          · intro e
            rw [hr]
            by_cases h : new = p.post <;> simp [h]
          · intro a b
            rw [hr]
            by_cases h : new = p.post
            · simp only [ne_eq, h, not_true_eq_false, if_false, reduceCtorEq, Res.ok.injEq, false_iff]
              rintro ⟨-, h1, h2⟩
              exact h1 h2.symm
            · simp only [ne_eq, h, not_false_eq_true, if_true, Message.mismatch.injEq, Res.ok.injEq]
              constructor
              · rintro ⟨rfl, rfl⟩
                exact ⟨rfl, h, rfl⟩
              · rintro ⟨rfl, -, rfl⟩
                exact ⟨rfl, rfl⟩
        | err e =>
          refine build p _ rfl rfl ⟨hp, rfl, ?_, ?_, ?_⟩
          · simp [hr]
          · simp [hr]
          · simp [hr]

/-- **C67.** In the mode that runs the virtual machine a line `Ok` means that the guest program has accepted the input of the pass and
committed to a transition to the state of the line, from a state that finalizes the epoch that the line starts from. -/
theorem C67_ok_proved (hW : WireLaws W) (initial : ConsensusState) (ws : List World) (line : LogLine)
    (h : line ∈ (syncLoop W Xh Xg order spec cfg bound true initial ws).1) (hok : line.message = .ok) :
    ∃ stdin pre slot, (guestMain W Xg spec cfg stdin : Res Empty Bytes) = .ok (Abi.encodeJournal pre line.after slot) ∧
      pre.finalized.epoch = line.before.finalized.epoch ∧ ValidState pre ∧ ValidState line.after ∧ Ahead pre line.after := by
  obtain ⟨i, hi⟩ := List.mem_iff_getElem?.1 h
  obtain ⟨w, p, -, hl⟩ := (C67_lines W Xh Xg order spec cfg bound true initial ws).2.2 i line hi
  obtain ⟨slot, h1, -, -, h2, -, h3, h4⟩ := C64_checked W hW Xh Xg spec cfg p.pre p.post p.inputBytes (hl.ok.1 hok)
  obtain ⟨r, trusted, st, input, next, links, -, k1, -, -, k2, -, -, -, -, k3⟩ := prepare_ok hl.prepared
  rw [hl.after]
  exact ⟨_, p.pre, slot, h1, by rw [k3, k2, k1], h2, h3, h4⟩

/-- **C67.** If moreover the node goes on to give the answers it has given, the guest's transition of every line but the first starts
from the state the line names, so that the transitions of consecutive lines `Ok` can be chained. -/
theorem C67_chained_partial (hW : WireLaws W) (initial : ConsensusState) (ws : List World) (hs : ∀ w ∈ ws, SteadyView spec w)
    (hext : ws.Pairwise (fun a b => Extends a.walk b.walk)) (i : Nat) (line : LogLine)
    (h : (syncLoop W Xh Xg order spec cfg bound true initial ws).1[i + 1]? = some line) (hok : line.message = .ok) :
    ∃ stdin slot, (guestMain W Xg spec cfg stdin : Res Empty Bytes) = .ok (Abi.encodeJournal line.before line.after slot) := by
  obtain ⟨-, hchain, hlines⟩ := C67_lines W Xh Xg order spec cfg bound true initial ws
  obtain ⟨w, p, hw, hl⟩ := hlines (i + 1) line h
  obtain ⟨slot, h1, -⟩ := C64_checked W hW Xh Xg spec cfg p.pre p.post p.inputBytes (hl.ok.1 hok)
  have hlt := (List.getElem?_eq_some_iff.1 h).1
  obtain ⟨line', h'⟩ : ∃ l, (syncLoop W Xh Xg order spec cfg bound true initial ws).1[i]? = some l :=
    ⟨_, List.getElem?_eq_getElem (by omega)⟩
  obtain ⟨w', p', hw', hl'⟩ := hlines i line' h'
  have hb : line.before = line'.after := by
    have := List.isChain_iff_getElem.1 hchain i hlt
    rw [(List.getElem?_eq_some_iff.1 h).2, (List.getElem?_eq_some_iff.1 h').2] at this
    exact this
  have hp := hl.prepared
  rw [hb, hl'.after] at hp
  have hx : Extends w'.walk w.walk := by
    obtain ⟨q1, rfl⟩ := List.getElem?_eq_some_iff.1 hw
    obtain ⟨q2, rfl⟩ := List.getElem?_eq_some_iff.1 hw'
    exact List.pairwise_iff_getElem.1 hext i (i + 1) q2 q1 (by omega)
  have hpre := next_prepare (hs w' (List.mem_of_getElem? hw')) (hs w (List.mem_of_getElem? hw)) hx hl'.prepared hp
  refine ⟨Frame.encodeInputStdin p.inputBytes, slot, ?_⟩
  rw [hb, hl'.after, hl.after, ← hpre]
  exact h1

end sync

section guest
variable (W : WireExt) (hW : WireLaws W) (X : Ext) (order : List Nat → List Nat) (ho : ∀ l, (order l).Perm l)
  (hcap : 126 ≤ X.stackCapacity) (word capacity : Nat) (hlo : 32 < X.usizeMod) (hhi : X.usizeMod ≤ 2 ^ 64) (hle : word ≤ X.usizeMod)
  (hroom : 126 ≤ capacity) (hk : KeepsLength X) (spec : ChainSpec) (cfg : Config) (bound : Nat)

include hW ho hcap hlo hhi hle hroom hk

omit hlo hhi hle hroom hk in
/-- The parts of `prepare_input` in an honest world. -/
theorem honest_parts {w : World} {epoch : Nat} {p : Prepared} (hw : HonestWorld W X word spec cfg bound w epoch)
    (h : prepare W X order spec cfg bound w epoch = some (.ok p)) :
    ∃ r trusted st input, ReaderFor X spec bound w epoch r trusted ∧ trusted.epoch = epoch ∧ r.spec = spec ∧
      stateAtCheckpoint X (hostStateOps X) spec.slotsPerEpoch w.provider trusted = .ok st ∧ TrustedState X r trusted st ∧
      Consistent X r trusted st (verifyQueries X r.spec r.attestations p.post.finalized.root) ∧
      (∀ a ∈ r.attestations, ∀ l, r.activeValidators a.data.target.epoch = .ok l →
        FitsWord X.usizeMod r.spec l ∧ FitsWord word r.spec l) ∧
      preflight X order cfg r trusted = .ok (input, p.pre, p.post, p.finalizedSlot) ∧ InputFits W X.usizeMod input ∧
      p.inputBytes = encodeInput W input := by
  obtain ⟨r, trusted, st, input, next, links, h1, he, rfl, -, -, h3, h4, h5, h6, -⟩ := prepare_ok h
  have ht := hw.trusted r trusted st h1 h3
  have hc := hw.consistent r trusted st _ _ h1 h3 h4
  obtain ⟨s1, s2, s3⟩ := hw.size r trusted st h1 h3
  exact ⟨r, trusted, st, input, h1, he, rfl, h3, ht, hc, hw.committees r trusted h1, h5,
    C65_preflight_fits W hW X order ho hcap _ ht hc h5 (hw.types r trusted h1) s1 s2 s3, h6⟩

end guest

section shipped
variable (W : WireExt) (hW : WireLaws W) (X : Ext) (order : List Nat → List Nat) (ho : ∀ l, (order l).Perm l)
  (hcap : 126 ≤ X.stackCapacity) (capacity : Nat) (hhi : X.usizeMod ≤ 2 ^ 64) (hle : 2 ^ 32 ≤ X.usizeMod)
  (hroom : 126 ≤ capacity) (hk : KeepsLength X) (hbits : ∀ l, (W.encodeBits l).length ≤ l.length + 64)
  (spec : ChainSpec) (cfg : Config) (hcfg : cfg.epochLookaheadLimit ≤ 4) (bound : Nat)

include hW ho hcap hhi hle hroom hk hbits hcfg

/-- What is prepared in a quiet world passes the host's check and is accepted by the guest. -/
theorem quiet_accepted {w : World} {epoch : Nat} {p : Prepared} (hw : QuietWorld W X order spec cfg bound w epoch)
    (h : prepare W X order spec cfg bound w epoch = some (.ok p)) :
    (∀ r0vm, runVerify W X (onMachine X (2 ^ 32) capacity) spec cfg p.pre p.inputBytes r0vm = .ok p.post) ∧
    ∀ ε : Type, (guestMain W (onMachine X (2 ^ 32) capacity) spec cfg (Frame.encodeInputStdin p.inputBytes) : Res ε Bytes) =
      .ok (Abi.encodeJournal p.pre p.post p.finalizedSlot) := by
  have hlo : 32 < X.usizeMod := by
    have : (32 : Nat) < 2 ^ 32 := by norm_num
    omega
  obtain ⟨r, trusted, st, input, g1, g2, rfl, g3, ht, hc, hf, g5, hfits, g6⟩ :=
    honest_parts W hW X order ho hcap (2 ^ 32) spec cfg bound hw.toHonestWorld h
  obtain ⟨size, hatt, htotal⟩ := hw.votes r trusted g1
  have hacc := hw.accepted r trusted input _ _ _ g1 g5
  have hbal := hw.balances r trusted st g1 g3
  have hV := hw.validators r trusted st g1 g3
  rw [g6]
  exact ⟨C65_shipped_check W hW X order ho hcap capacity hhi hle hroom hk ht hc hf g5 hbal hacc (hw.types r trusted g1) hbits hcfg hV size
      hatt htotal,
    fun ε => C65_shipped_guest W hW X order ho hcap capacity hle hroom hk ht hc hf g5 hbal hacc (hw.types r trusted g1) hbits hcfg hV
      size hatt htotal⟩

/-- **C66.** When `build-input` is not interrupted within a round, then for every epoch whose files it has touched the guest program,
started with the input file, commits to exactly the content of the journal file. -/
theorem C66_complete_partial {ε : Type} (continuous : Bool) (epoch : Nat) (passes : List Pass)
    (hw : ∀ pass ∈ passes, ∀ e, QuietWorld W X order spec cfg bound pass.world e) (fs fs' : Files) (e : Nat)
    (hfs : fs' = applyOps fs (buildLoop W X order spec cfg bound continuous epoch passes).1) :
    (fs' (.input e) = fs (.input e) ∧ fs' (.journal e) = fs (.journal e)) ∨
    ∃ stdin journal, fs' (.input e) = some stdin ∧ fs' (.journal e) = some journal ∧
      (guestMain W (onMachine X (2 ^ 32) capacity) spec cfg stdin : Res ε Bytes) = .ok journal := by
  subst hfs
  obtain ⟨R, h1, h2, -⟩ := C66_rounds W X order spec cfg bound continuous epoch passes
  rw [h2]
  by_cases he : ∃ x ∈ R, x.2.1 = e
  · obtain ⟨x, hx, rfl⟩ := he
    obtain ⟨a, b, rfl⟩ := List.append_of_mem hx
    have hp := h1.prepared x hx
    have hpass := h1.passes.subset (List.mem_map_of_mem hx)
    obtain ⟨-, hg⟩ := quiet_accepted W hW X order ho hcap capacity hhi hle hroom hk hbits spec cfg hcfg bound (hw x.1 hpass x.2.1) hp
    rw [List.flatMap_append, List.flatMap_cons, applyOps_append, applyOps_append]
    have later : ∀ g : FileName, g.epoch = x.2.1 → ∀ fs, applyOps fs (b.flatMap (fun x => roundOps x.2.1 x.2.2)) g = fs g := by
      intro g hge fs
      refine applyOps_other ?_ fs
      rintro op ho rfl
      obtain ⟨y, hy, h3⟩ := List.mem_flatMap.1 ho
      have h4 := roundOps_epoch h3
      have h5 := (List.pairwise_cons.1 (List.pairwise_append.1 h1.later).2.1).1 y hy
      omega
    rw [later _ rfl, later _ rfl, (roundOps_complete _ _ _).1, (roundOps_complete _ _ _).2]
    exact .inr ⟨_, _, rfl, rfl, hg ε⟩
  · have keep : ∀ g : FileName, g.epoch = e → applyOps fs (R.flatMap (fun x => roundOps x.2.1 x.2.2)) g = fs g := by
      rintro g rfl
      refine applyOps_other ?_ fs
      rintro op ho rfl
      obtain ⟨y, hy, h3⟩ := List.mem_flatMap.1 ho
      exact he ⟨y, hy, (roundOps_epoch h3).symm⟩
    exact .inl ⟨keep _ rfl, keep _ rfl⟩

/-- **C67.** Every line of the log is `Ok` while the validators' balances do not change within a pass and the guest accepts the exits. -/
theorem C67_all_ok_partial (r0vm : Bool) (initial : ConsensusState) (ws : List World)
    (hw : ∀ w ∈ ws, ∀ e, QuietWorld W X order spec cfg bound w e) (line : LogLine)
    (h : line ∈ (syncLoop W X (onMachine X (2 ^ 32) capacity) order spec cfg bound r0vm initial ws).1) :
    line.message = .ok := by
  obtain ⟨i, hi⟩ := List.mem_iff_getElem?.1 h
  obtain ⟨w, p, hwi, hl⟩ := (C67_lines W X (onMachine X (2 ^ 32) capacity) order spec cfg bound r0vm initial ws).2.2 i line hi
  exact hl.ok.2 ((quiet_accepted W hW X order ho hcap capacity hhi hle hroom hk hbits spec cfg hcfg bound
    (hw w (List.mem_of_getElem? hwi) _) hl.prepared).1 r0vm)

/-- **C67.** And under the same conditions the command `verify` reports the state the preflight announced. -/
theorem C67_verify_command_partial (r0vm : Bool) (w : World) (epoch : Nat) (hw : QuietWorld W X order spec cfg bound w epoch) (p : Prepared)
    (h : prepare W X order spec cfg bound w epoch = some (.ok p)) :
    verifyCommand W X (onMachine X (2 ^ 32) capacity) order spec cfg bound r0vm w epoch = some (.ok p.post) := by
  have := (quiet_accepted W hW X order ho hcap capacity hhi hle hroom hk hbits spec cfg hcfg bound hw h).1 r0vm
  unfold verifyCommand
  rw [h]
  simp only [Option.map_some, Res.mapErr, Res.ok_bind, this]

end shipped

/-! ## The concrete chain -/

section example_chain

/-- Wait once, then two rounds. -/
def fpPasses : List Pass := [⟨.ok 3, fpWorld1⟩, ⟨.ok 6, fpWorld1⟩, ⟨.ok 9, fpWorld2⟩]

theorem two_passes {W : WireExt} {X : Ext} {order : List Nat → List Nat} {spec : ChainSpec} {cfg : Config} {bound : Nat}
    {w0 w1 w2 : World} {a b c e : Nat} {p1 p2 : Prepared} (ha : a < (e + 1) % U64) (hb : ¬b < (e + 1) % U64)
    (hc : ¬c < (p1.post.finalized.epoch + 1) % U64) (h1 : prepare W X order spec cfg bound w1 e = some (.ok p1))
    (h2 : prepare W X order spec cfg bound w2 p1.post.finalized.epoch = some (.ok p2)) :
    (buildLoop W X order spec cfg bound true e [⟨.ok a, w0⟩, ⟨.ok b, w1⟩, ⟨.ok c, w2⟩]).1 =
      roundOps e p1 ++ roundOps p1.post.finalized.epoch p2 := by
  simp only [buildLoop, if_pos ha, if_neg hb, h1, if_neg hc, h2, if_true, List.append_nil]

theorem fp_build : ∃ input1 input2, (buildLoop fpWire exExt id exSpec Config.default 9 true 3 fpPasses).1 =
    roundOps 3 ⟨encodeInput fpWire input1, ⟨exC4, gxC3⟩, ⟨exC7, gxC6⟩, 24⟩ ++
      roundOps 6 ⟨encodeInput fpWire input2, ⟨exC7, gxC6⟩, ⟨fpC10, fpC9⟩, 36⟩ := by
  obtain ⟨input1, -, h1⟩ := fp_prepared1
  obtain ⟨input2, h2⟩ := fp_prepared2
  exact ⟨input1, input2, two_passes (by decide) (by decide) (show ¬9 < (gxC6.epoch + 1) % U64 by decide) h1 h2⟩

/-- C66: the rounds, and the states between them. -/
example : ∃ rounds, BuildRounds fpWire exExt id exSpec Config.default 9 3 fpPasses rounds ∧ rounds.length = 2 ∧
    rounds.IsChain (fun x y => y.2.2.pre = x.2.2.post) := by
  obtain ⟨rounds, h1, h2, -⟩ := C66_rounds fpWire exExt id exSpec Config.default 9 true 3 fpPasses
  refine ⟨rounds, h1, ?_, C66_chained_partial fpWire exExt id exSpec Config.default 9 3 fpPasses rounds h1 ?_ ?_⟩
  · obtain ⟨input1, input2, hb⟩ := fp_build
    have hl := congrArg List.length (h2.symm.trans hb)
    have hr : ∀ R : List (Pass × Nat × Prepared), (R.flatMap (fun x => roundOps x.2.1 x.2.2)).length = 4 * R.length := by
      intro R
      induction R with
      | nil => rfl
      | cons x R ih =>
        rw [List.flatMap_cons, List.length_append, ih, List.length_cons, show (roundOps x.2.1 x.2.2).length = 4 from rfl]
        omega
    rw [hr, List.length_append, show ∀ e p, (roundOps e p).length = 4 from fun _ _ => rfl,
      show ∀ e p, (roundOps e p).length = 4 from fun _ _ => rfl] at hl
    omega
  · intro pass hp
    simp only [fpPasses, List.mem_cons, List.not_mem_nil, or_false] at hp
    rcases hp with rfl | rfl | rfl <;> exact fp_steady rfl rfl
  · have : ∀ a ∈ fpPasses, ∀ b ∈ fpPasses, Extends a.world.walk b.world.walk := by
      intro a ha b hb
      simp only [fpPasses, List.mem_cons, List.not_mem_nil, or_false] at ha hb
      have h1 : a.world.walk = fpAsk := by rcases ha with rfl | rfl | rfl <;> rfl
      have h2 : b.world.walk = fpAsk := by rcases hb with rfl | rfl | rfl <;> rfl
      rw [h1, h2]
      exact fun _ _ h => h
    exact List.pairwise_of_forall_mem_list this

theorem fp_quiet : ∀ pass ∈ fpPasses, ∀ e, QuietWorld fpWire exExt id exSpec Config.default 9 pass.world e := by
  intro pass hp
  simp only [fpPasses, List.mem_cons, List.not_mem_nil, or_false] at hp
  rcases hp with rfl | rfl | rfl
  · exact fp_quiet1
  · exact fp_quiet1
  · exact fp_quiet2

theorem two_rounds {e1 e2 : Nat} (h : e1 ≠ e2) (fs : Files) (p1 p2 : Prepared) (n : Nat) :
    applyOps fs (roundOps e1 p1 ++ roundOps e2 p2) (.journal e1) = some (Abi.encodeJournal p1.pre p1.post p1.finalizedSlot) ∧
    applyOps fs (roundOps e1 p1 ++ roundOps e2 p2) (.journal e2) = some (Abi.encodeJournal p2.pre p2.post p2.finalizedSlot) ∧
    applyOps fs (interrupted (roundOps e1 p1 ++ roundOps e2 p2) 6 n) (.journal e2) = some [] := by
  simp [applyOps, interrupted, roundOps, FileOp.apply, h]

/-- C66: the files of both epochs, in an empty directory, and what the guest makes of them. -/
example : ∃ fs' : Files, fs' = applyOps (fun _ => none) (buildLoop fpWire exExt id exSpec Config.default 9 true 3 fpPasses).1 ∧
    (∀ e ∈ [3, 6], ∃ stdin journal, fs' (.input e) = some stdin ∧ fs' (.journal e) = some journal ∧
      (guestMain fpWire (onMachine exExt (2 ^ 32) 126) exSpec Config.default stdin : Res Unit Bytes) = .ok journal) ∧
    fs' (.journal 3) = some (Abi.encodeJournal ⟨exC4, gxC3⟩ ⟨exC7, gxC6⟩ 24) ∧
    fs' (.journal 6) = some (Abi.encodeJournal ⟨exC7, gxC6⟩ ⟨fpC10, fpC9⟩ 36) := by
  obtain ⟨input1, input2, hb⟩ := fp_build
  have hword : exExt.usizeMod = 2 ^ 32 := rfl
  have h3 : applyOps (fun _ => none) (buildLoop fpWire exExt id exSpec Config.default 9 true 3 fpPasses).1 (.journal 3) =
      some (Abi.encodeJournal ⟨exC4, gxC3⟩ ⟨exC7, gxC6⟩ 24) := by rw [hb]; exact (two_rounds (by decide) _ _ _ 0).1
  have h6 : applyOps (fun _ => none) (buildLoop fpWire exExt id exSpec Config.default 9 true 3 fpPasses).1 (.journal 6) =
      some (Abi.encodeJournal ⟨exC7, gxC6⟩ ⟨fpC10, fpC9⟩ 36) := by rw [hb]; exact (two_rounds (by decide) _ _ _ 0).2.1
  refine ⟨_, rfl, ?_, h3, h6⟩
  intro e he
  have hne : applyOps (fun _ => none) (buildLoop fpWire exExt id exSpec Config.default 9 true 3 fpPasses).1 (.journal e) ≠ none := by
    simp only [List.mem_cons, List.not_mem_nil, or_false] at he
    rcases he with rfl | rfl
    · rw [h3]; simp
    · rw [h6]; simp
  rcases C66_complete_partial (ε := Unit) fpWire fpWire_laws exExt id (fun l => List.Perm.refl l) (by decide) 126 (by rw [hword]; norm_num)
    (by rw [hword]) (by decide) exExt_keepsLength fpWire_bits exSpec Config.default (by decide) 9 true 3 fpPasses fp_quiet
    (fun _ => none) _ e rfl with h | h
  · exact absurd h.2 hne
  · exact h

/-- C67: the log of two passes, with the virtual machine. -/
theorem fp_sync : ∃ lines : List LogLine,
    lines = (syncLoop fpWire exExt (onMachine exExt (2 ^ 32) 126) id exSpec Config.default 9 true ⟨exC4, gxC3⟩ [fpWorld1, fpWorld2]).1 ∧
    lines = [⟨⟨exC4, gxC3⟩, ⟨exC7, gxC6⟩, .ok⟩, ⟨⟨exC7, gxC6⟩, ⟨fpC10, fpC9⟩, .ok⟩] := by
  obtain ⟨input1, -, h1⟩ := fp_prepared1
  obtain ⟨input2, h2⟩ := fp_prepared2
  have hword : exExt.usizeMod = 2 ^ 32 := rfl
  have k1 := (quiet_accepted fpWire fpWire_laws exExt id (fun l => List.Perm.refl l) (by decide) 126 (by rw [hword]; norm_num)
    (by rw [hword]) (by decide) exExt_keepsLength fpWire_bits exSpec Config.default (by decide) 9 (fp_quiet1 3) h1).1 true
  have k2 := (quiet_accepted fpWire fpWire_laws exExt id (fun l => List.Perm.refl l) (by decide) 126 (by rw [hword]; norm_num)
    (by rw [hword]) (by decide) exExt_keepsLength fpWire_bits exSpec Config.default (by decide) 9 (fp_quiet2 6) h2).1 true
  refine ⟨_, rfl, ?_⟩
  have e3 : (⟨exC4, gxC3⟩ : ConsensusState).finalized.epoch = 3 := rfl
  have e6 : (⟨exC7, gxC6⟩ : ConsensusState).finalized.epoch = 6 := rfl
  rw [syncLoop, e3, h1]
  dsimp only at k1 k2 ⊢
  rw [k1]
  dsimp only
  rw [syncLoop, e6, h2]
  dsimp only
  rw [k2]
  simp only [ne_eq, not_true_eq_false, if_false, syncLoop]

/-- C66: a node that returns the block of another fork. -/
example : prepare fpWire exExt id exSpec Config.default 9 { fpWorld1 with boundaryBlock := fun _ => .ok (some fpHdr9) } 3 = some .panic := by
  refine C66_foreign_block fpWire exExt id exSpec Config.default 9 _ 3 (fxState 12 gxVs) fpHdr9 rfl rfl ?_
  rw [fxState_beacon, gxState_root]
  decide +kernel

/-- **C67.** The first line is different: it names the state at the start slot, of which only the finalized epoch is used. Here the log
says `Ok` for a start from a state that is on no chain. -/
theorem C67_first_line_unchecked : ∃ (W : WireExt) (X Xg : Ext) (order : List Nat → List Nat) (spec : ChainSpec) (cfg : Config)
    (bound : Nat) (initial : ConsensusState) (w : World) (line : LogLine) (p : Prepared),
    (∀ e, QuietWorld W X order spec cfg bound w e) ∧
    (syncLoop W X Xg order spec cfg bound true initial [w]).1 = [line] ∧ line.message = .ok ∧ line.before = initial ∧
    prepare W X order spec cfg bound w initial.finalized.epoch = some (.ok p) ∧
    p.pre ≠ initial ∧ p.pre.finalized.root ≠ initial.finalized.root := by
  obtain ⟨input1, -, h1⟩ := fp_prepared1
  have hword : exExt.usizeMod = 2 ^ 32 := rfl
  have k1 := (quiet_accepted fpWire fpWire_laws exExt id (fun l => List.Perm.refl l) (by decide) 126 (by rw [hword]; norm_num)
    (by rw [hword]) (by decide) exExt_keepsLength fpWire_bits exSpec Config.default (by decide) 9 (fp_quiet1 3) h1).1 true
  have hne : gxC3.root ≠ exRoot32 99 := by decide +kernel
  refine ⟨fpWire, exExt, onMachine exExt (2 ^ 32) 126, id, exSpec, Config.default, 9, ⟨⟨5, exRoot32 98⟩, ⟨3, exRoot32 99⟩⟩, fpWorld1,
    ⟨⟨⟨5, exRoot32 98⟩, ⟨3, exRoot32 99⟩⟩, ⟨exC7, gxC6⟩, .ok⟩, _, fp_quiet1, ?_, rfl, rfl, h1, ?_, hne⟩
  · have e3 : (⟨⟨5, exRoot32 98⟩, ⟨3, exRoot32 99⟩⟩ : ConsensusState).finalized.epoch = 3 := rfl
    rw [syncLoop, e3, h1]
    dsimp only at k1 ⊢
    rw [k1]
    simp only [ne_eq, not_true_eq_false, if_false, syncLoop]
  · intro h
    exact hne (congrArg (fun s : ConsensusState => s.finalized.root) h)

end example_chain
end Signal
