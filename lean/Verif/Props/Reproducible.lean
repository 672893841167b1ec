import Verif.Spec.Reproducible
import Verif.Proofs.Reproducible
import Verif.Model.Program
import Verif.Props.Program
import Verif.Props.Patches

/-!
# C80: the same answers give the same bytes

Nothing that the code leaves to chance (`Spec.SetOrder`, `Spec.SortsByEpoch`) can be seen in a proof, an input, a journal, a verdict, a
file or a line of the log. There is no condition on requests, states, inputs, answers or sizes.
-/

namespace Signal
open Spec Program Wire

section

variable (X : Ext) (sort : List (Nat × Nat) → List (Nat × Nat)) (h : SortsByEpoch sort)

section
set_option smartUnfolding false

theorem ws_mverify : @Multiproof.verify (withSort X sort h) = @Multiproof.verify X := by with_unfolding_all rfl
theorem ws_extract : @extractValidators (withSort X sort h) = @extractValidators X := by with_unfolding_all rfl
theorem ws_slots : @blockSlotLoop (withSort X sort h) = @blockSlotLoop X := by with_unfolding_all rfl
theorem ws_verify (cfg : Config) (r : Reader) : verify (withSort X sort h) cfg r = verify X cfg r := by with_unfolding_all rfl
theorem ws_build : @build (withSort X sort h) = @build X := by with_unfolding_all rfl
theorem ws_trusted : @trustedCheckpoint (withSort X sort h) = @trustedCheckpoint X := by with_unfolding_all rfl
theorem ws_queries : @verifyQueries (withSort X sort h) = @verifyQueries X := by with_unfolding_all rfl
theorem ws_root : @Tree.root (withSort X sort h) = @Tree.root X := by with_unfolding_all rfl
theorem ws_ops : hostStateOps (withSort X sort h) = hostStateOps X := by with_unfolding_all rfl
theorem ws_stateAt : @stateAtCheckpoint HostState (withSort X sort h) = @stateAtCheckpoint HostState X := by with_unfolding_all rfl
theorem ws_timedTrusted : @Timed.trustedCheckpoint (withSort X sort h) = @Timed.trustedCheckpoint X := by with_unfolding_all rfl
theorem ws_timedStateAt : @Timed.stateAtCheckpoint (withSort X sort h) = @Timed.stateAtCheckpoint X := by with_unfolding_all rfl
theorem ws_timedVerify : @Timed.verify Timed.Session (withSort X sort h) = @Timed.verify Timed.Session X := by with_unfolding_all rfl
theorem ws_timedSlotProofs : @Timed.slotProofs (withSort X sort h) = @Timed.slotProofs X := by with_unfolding_all rfl

end

theorem ws_prepare (W : WireExt) (order : List Nat → List Nat) (spec : ChainSpec) (cfg : Config) (bound : Nat) (w : World) (epoch : Nat) :
    prepare W (withSort X sort h) order spec cfg bound w epoch = prepare W X order spec cfg bound w epoch := by
  unfold prepare preflight toInput slotProof
  simp only [ws_build, ws_trusted, ws_queries, ws_root, ws_ops, ws_stateAt, ws_verify, ws_mverify]

theorem ws_timed (W : WireExt) (order : List Nat → List Nat) (spec : ChainSpec) (cfg : Config) (bound : Nat) (o : Timed.Outside)
    (epoch : Nat) :
    Timed.prepare W (withSort X sort h) order spec cfg bound o epoch = Timed.prepare W X order spec cfg bound o epoch := by
  unfold Timed.prepare Timed.preflight Timed.toInput
  simp only [ws_build, ws_timedTrusted, ws_timedVerify, ws_root, ws_timedStateAt, ws_mverify, ws_timedSlotProofs]

theorem ws_patchLoop (spec : ChainSpec) (patches : OMap StatePatch) (validators : OMap ValidatorInfo) (trustedEpoch churn : Nat)
    (l : List (Nat × StatePatch)) : ∀ earliest,
    (validatePatchLoop (withSort X sort h) spec patches validators trustedEpoch churn l earliest : Res GuestReaderError Unit) =
      validatePatchLoop X spec patches validators trustedEpoch churn l earliest := by
  induction l with
  | nil => intro earliest; rfl
  | cons e l ih =>
    intro earliest
    obtain ⟨pe, p⟩ := e
    unfold validatePatchLoop
    have hsort : (validateExits spec patches validators pe churn ((withSort X sort h).sortByEpoch p.validatorExits) earliest churn :
        Res GuestReaderError Nat) = validateExits spec patches validators pe churn (X.sortByEpoch p.validatorExits) earliest churn :=
      validateExits_sorted spec patches validators pe churn _ _ (((h _).1).trans (X.sortByEpoch_perm _).symm) (h _).2
        (X.sortByEpoch_sorted _) _ _
    rw [hsort]
    simp only [ih]

/-- **C80.** Whatever order the unstable sort leaves exits of the same epoch in, the input is accepted or rejected alike, and the reader
made of it is the same: for every input, also one that a dishonest host has made, and also where sums and products wrap. -/
theorem C80_reader (spec : ChainSpec) (input : GuestInput) :
    input.intoReader (withSort X sort h) spec = input.intoReader X spec := by
  unfold GuestInput.intoReader validateStatePatches
  simp only [ws_mverify, ws_extract, ws_slots, ws_patchLoop]

/-- **C80.** So is the journal of the guest, for every byte string on its standard input. -/
theorem C80_guest {ε : Type} (W : WireExt) (spec : ChainSpec) (cfg : Config) (stdin : Bytes) :
    (guestMain W (withSort X sort h) spec cfg stdin : Res ε Bytes) = guestMain W X spec cfg stdin := by
  unfold guestMain guestEntry
  simp only [C80_reader, ws_verify]
  rfl

end

section

variable (W : WireExt) (Xh Xg : Ext) (order order' : List Nat → List Nat) (ho : SetOrder order) (ho' : SetOrder order')
  (sh sg : List (Nat × Nat) → List (Nat × Nat)) (hh : SortsByEpoch sh) (hg : SortsByEpoch sg)

include ho ho'

/-- **C80.** Whatever order the hash set has, the builder gives the same proof, byte for byte, or the same error: for every list of
requested indices, good or bad, and every tree. -/
theorem C80_build (gindices : List Nat) (T : Tree) : build Xh order gindices T = build Xh order' gindices T := by
  rw [build_order Xh order order' ho ho']

omit ho ho' in
/-- **C80.** The host's check of an input with the guest run on it. -/
theorem C80_run (spec : ChainSpec) (cfg : Config) (pre : ConsensusState) (bytes : Bytes) (r0vm : Bool) :
    runVerify W (withSort Xh sh hh) (withSort Xg sg hg) spec cfg pre bytes r0vm = runVerify W Xh Xg spec cfg pre bytes r0vm := by
  unfold runVerify executeGuest
  simp only [C80_reader, C80_guest, ws_verify]
  rfl

/-- **C80.** What `prepare_input` makes of the answers of a node. -/
theorem C80_prepare (spec : ChainSpec) (cfg : Config) (bound : Nat) (w : World) (epoch : Nat) :
    prepare W (withSort Xh sh hh) order' spec cfg bound w epoch = prepare W Xh order spec cfg bound w epoch := by
  rw [ws_prepare]
  unfold prepare preflight toInput slotProof
  rw [build_order Xh order' order ho' ho]

/-- **C80.** The result of the command `verify`. -/
theorem C80_verify (spec : ChainSpec) (cfg : Config) (bound : Nat) (r0vm : Bool) (w : World) (epoch : Nat) :
    verifyCommand W (withSort Xh sh hh) (withSort Xg sg hg) order' spec cfg bound r0vm w epoch =
      verifyCommand W Xh Xg order spec cfg bound r0vm w epoch := by
  unfold verifyCommand
  rw [C80_prepare W Xh order order' ho ho' sh hh]
  simp only [C80_run]

/-- **C80.** The files of `build-input`: every operation on them, with every byte written. -/
theorem C80_files (spec : ChainSpec) (cfg : Config) (bound : Nat) (continuous : Bool) (passes : List Pass) : ∀ epoch,
    buildLoop W (withSort Xh sh hh) order' spec cfg bound continuous epoch passes =
      buildLoop W Xh order spec cfg bound continuous epoch passes := by
  induction passes with
  | nil => intro epoch; rfl
  | cons pass passes ih =>
    intro epoch
    unfold buildLoop
    simp only [C80_prepare W Xh order order' ho ho' sh hh, ih]

/-- **C80.** The log of `sync`. -/
theorem C80_log (spec : ChainSpec) (cfg : Config) (bound : Nat) (r0vm : Bool) (initial : Res HostError ConsensusState) (ws : List World) :
    runSync W (withSort Xh sh hh) (withSort Xg sg hg) order' spec cfg bound r0vm initial ws =
      runSync W Xh Xg order spec cfg bound r0vm initial ws := by
  have loop : ∀ (ws : List World) (state : ConsensusState),
      syncLoop W (withSort Xh sh hh) (withSort Xg sg hg) order' spec cfg bound r0vm state ws =
        syncLoop W Xh Xg order spec cfg bound r0vm state ws := by
    intro ws
    induction ws with
    | nil => intro state; rfl
    | cons w ws ih =>
      intro state
      unfold syncLoop
      simp only [C80_prepare W Xh order order' ho ho' sh hh, C80_run, ih]
  unfold runSync
  simp only [loop]

/-- **C80.** And all of it with a node whose answers change from request to request. -/
theorem C80_timed (spec : ChainSpec) (cfg : Config) (bound : Nat) :
    (∀ r0vm o epoch, Timed.verifyCommand W (withSort Xh sh hh) (withSort Xg sg hg) order' spec cfg bound r0vm o epoch =
      Timed.verifyCommand W Xh Xg order spec cfg bound r0vm o epoch) ∧
    (∀ continuous epoch passes, Timed.buildLoop W (withSort Xh sh hh) order' spec cfg bound continuous epoch passes =
      Timed.buildLoop W Xh order spec cfg bound continuous epoch passes) ∧
    ∀ r0vm state os, Timed.syncLoop W (withSort Xh sh hh) (withSort Xg sg hg) order' spec cfg bound r0vm state os =
      Timed.syncLoop W Xh Xg order spec cfg bound r0vm state os := by
  have hslot : @Timed.slotProofs Xh order' = @Timed.slotProofs Xh order := by
    funext r l
    induction l with
    | nil => rfl
    | cons root l ih =>
      unfold Timed.slotProofs Timed.slotProof
      rw [ih, build_order Xh order' order ho' ho]
  have hp : ∀ o epoch, Timed.prepare W (withSort Xh sh hh) order' spec cfg bound o epoch =
      Timed.prepare W Xh order spec cfg bound o epoch := by
    intro o epoch
    rw [ws_timed]
    unfold Timed.prepare Timed.preflight Timed.toInput
    rw [hslot, build_order Xh order' order ho' ho]
  refine ⟨?_, ?_, ?_⟩
  · intro r0vm o epoch
    unfold Timed.verifyCommand
    rw [hp]
    simp only [C80_run]
  · intro continuous epoch passes
    induction passes generalizing epoch with
    | nil => rfl
    | cons pass passes ih => unfold Timed.buildLoop; simp only [hp, ih]
  · intro r0vm state os
    induction os generalizing state with
    | nil => rfl
    | cons o os ih => unfold Timed.syncLoop; simp only [hp, C80_run, ih]

end

/-! ## Concrete cases -/

/-- A sort that leaves entries with equal keys in the opposite order. -/
def tieSort (l : List (Nat × Nat)) : List (Nat × Nat) := sortPairs l.reverse

theorem tieSort_sorts : SortsByEpoch tieSort :=
  fun l => ⟨(sortPairs_perm _).trans (List.reverse_perm l), sortPairs_sorted _⟩

theorem reverse_order : SetOrder List.reverse := fun l => List.reverse_perm l

/-- The two sorts do differ on the exits of a patch that is accepted (one exit before, two in the same epoch), and on one that is refused
(the two are more than the churn limit). -/
example : sortPairs [(0, 15), (1, 16), (2, 16)] = [(0, 15), (1, 16), (2, 16)] ∧ tieSort [(0, 15), (1, 16), (2, 16)] = [(0, 15), (2, 16), (1, 16)] ∧
    (validateExits exSpec [] exRegistry 12 64 [(0, 15), (1, 16), (2, 16)] 15 64 : Res Unit Nat) = .ok 16 ∧
    (validateExits exSpec [] exRegistry 12 64 [(0, 15), (2, 16), (1, 16)] 15 64 : Res Unit Nat) = .ok 16 ∧
    (validateExits exSpec [] exRegistry 12 16 [(0, 15), (1, 16), (2, 16)] 15 16 : Res Unit Nat) = .panic := by
  decide +kernel

/-- The helper indices of a request with two values come in two orders, and the proof has one. -/
example (T : Tree) :
    ([11, 8].flatMap getBranchIndices).eraseDups.filter (fun a => !([11, 8].flatMap getPathIndices).eraseDups.contains a) = [10, 3, 9] ∧
    [10, 3, 9].reverse ≠ [10, 3, 9] ∧ build exExt List.reverse [11, 8] T = build exExt id [11, 8] T := by
  refine ⟨?_, by decide, C80_build exExt _ _ reverse_order (fun l => List.Perm.refl l) _ _⟩
  simp [getBranchIndices, getPathIndices, branchLoop, pathLoop, sibling, parent]
  decide +kernel

/-- The run of `sync` of `Props.Program` (two lines), on other hash sets and with another sort. -/
example : (syncLoop fpWire (withSort exExt tieSort tieSort_sorts) (withSort (onMachine exExt (2 ^ 32) 126) tieSort tieSort_sorts) List.reverse
    exSpec Config.default 9 true ⟨exC4, gxC3⟩ [fpWorld1, fpWorld2]).1.length = 2 := by
  have h := C80_log fpWire exExt (onMachine exExt (2 ^ 32) 126) id List.reverse (fun l => List.Perm.refl l) reverse_order tieSort tieSort
    tieSort_sorts tieSort_sorts exSpec Config.default 9 true (.ok ⟨exC4, gxC3⟩) [fpWorld1, fpWorld2]
  unfold runSync at h
  simp only at h
  rw [h]
  obtain ⟨lines, h1, h2⟩ := fp_sync
  rw [← h1, h2]
  rfl

end Signal
