import Verif.Proofs.ExampleGuest
import Verif.Spec.Chain
import Verif.Spec.Slashing

/-!
Two more concrete guest inputs: one that continues where the example of `ExampleGuest` ends, and one that
conflicts with it.
-/

namespace Signal
open Spec

set_option maxRecDepth 100000

/-- All committees of an epoch vote for a link. -/
def gxAllVotes (source target : Checkpoint) : List Attestation :=
  [exVote (4 * target.epoch) source target [0, 1], exVote (4 * target.epoch + 1) source target [2, 3, 4],
   exVote (4 * target.epoch + 2) source target [5, 6], exVote (4 * target.epoch + 3) source target [7, 8, 9]]

/-! ## The next step -/

def gxHdr9 : Header := ⟨36, 7, exRoot32 51, exRoot32 52, exRoot32 53⟩
def gxC9 : Checkpoint := ⟨9, gxHdr9.tree.root exExt⟩
def gxC10 : Checkpoint := ⟨10, exRoot32 10⟩

/-- From `⟨exC7, gxC6⟩`, where the first example ends: a link that skips an epoch and one that finalizes. -/
def gxNext : GuestInput where
  beaconBlock := proofOf gxHdr6.tree [11]
  beaconState := proofOf gxStateP gxStateWanted
  activeValidators := gxRegProof
  publicKeys := gxKeys
  patches := [(9, ⟨[(7, exRoot32 1)], []⟩), (10, ⟨[(8, exRoot32 1)], []⟩)]
  consensusState := ⟨exC7, gxC6⟩
  attestations := gxAllVotes exC7 gxC9 ++ gxAllVotes gxC9 gxC10
  blockSlotProofs := [proofOf gxHdr9.tree [8]]

def gxNextReader : GuestReader where
  spec := exSpec
  genesisValidatorsRoot := exRoot32 77
  validators := exActive
  patches := [(9, ⟨[(7, exRoot32 1)], []⟩), (10, ⟨[(8, exRoot32 1)], []⟩)]
  consensusState := ⟨exC7, gxC6⟩
  attestations := gxAllVotes exC7 gxC9 ++ gxAllVotes gxC9 gxC10
  blockSlots := [(gxC9.root, 36)]

theorem gxHdr9_chunked : gxHdr9.tree.Chunked := chunked_of_chunkedB (by decide +kernel)
theorem gxHdr9_depth : gxHdr9.tree.depth < 64 := by decide +kernel

theorem gxHdr6_extract : extractBeaconBlock (proofOf gxHdr6.tree [11]) = .ok (gxStateP.root exExt) := by
  unfold extractBeaconBlock
  rw [proofOf_values gxHdr6_chunked gxHdr6_depth]
  decide +kernel

theorem gxReg_extract6 : extractValidators exExt gxRegProof gxKeys 6 = .ok exActive := by
  unfold extractValidators gxRegProof
  rw [proofOf_values gxRegP_chunked gxRegP_depth, gxReg_values]
  decide +kernel

theorem gxNext_slot : nextAssertGindex (proofOf gxHdr9.tree [8]).values blockSlotGindex =
    .ok (u64Chunk 36, []) := by
  rw [proofOf_values gxHdr9_chunked gxHdr9_depth]
  decide +kernel

theorem gxNext_slots : blockSlotLoop exExt [proofOf gxHdr9.tree [8]] [] = .ok [(gxC9.root, 36)] := by
  have h1 : (proofOf gxHdr9.tree [8]).calculateRoot exExt = .ok gxC9.root :=
    proofOf_root exExt gxHdr9_chunked [8]
  unfold blockSlotLoop
  rw [h1, gxNext_slot]
  decide +kernel

theorem gxNext_registry : (registryLoop exSpec 1 6 7 5 3 exActive : Res GuestReaderError _) = .ok exActive := by
  decide +kernel

theorem gxNext_patches : validateStatePatches exExt exSpec
    [(9, ⟨[(7, exRoot32 1)], []⟩), (10, ⟨[(8, exRoot32 1)], []⟩)] gxC6 gxStateInfo exActive = .ok () := by
  decide +kernel

theorem gxNext_reader : gxNext.intoReader exExt exSpec = .ok gxNextReader := by
  unfold GuestInput.intoReader
  simp only [Res.bind_eq_ok, Res.mapErr_eq_ok, ensure_eq_ok, decide_eq_true_eq, slotEpoch_eq_ok_iff,
    Res.pure_eq, Res.ok.injEq]
  exact ⟨(), proofOf_verify exExt gxHdr6_chunked [11], gxStateP.root exExt, gxHdr6_extract, (),
    proofOf_verify exExt gxStateP_chunked gxStateWanted, gxStateInfo, gxState_extract, (),
    proofOf_verify exExt gxRegP_chunked gxRegWanted, exActive, gxReg_extract6, 3, ⟨by decide, by decide⟩, (),
    by decide, exActive, gxNext_registry, (), gxNext_patches, _, gxNext_slots, rfl⟩

theorem gxNext_verifies : verify exExt Config.default gxNextReader.toReader = .ok (⟨gxC10, gxC9⟩, 36) := by
  decide +kernel

/-! ## A conflicting input -/

def gxHdr6' : Header := ⟨25, 8, exRoot32 61, exRoot32 62, exRoot32 63⟩
def gxC6' : Checkpoint := ⟨6, gxHdr6'.tree.root exExt⟩
def gxC7' : Checkpoint := ⟨7, exRoot32 70⟩

/-- The same validators also finalize another block of epoch 6. -/
def gxFork : GuestInput := { gxInput with
  attestations := gxAllVotes exC4 gxC6' ++ gxAllVotes gxC6' gxC7'
  blockSlotProofs := [proofOf gxHdr6'.tree [8]] }

def gxForkReader : GuestReader := { gxReader with
  attestations := gxAllVotes exC4 gxC6' ++ gxAllVotes gxC6' gxC7'
  blockSlots := [(gxC6'.root, 25)] }

theorem gxHdr6'_chunked : gxHdr6'.tree.Chunked := chunked_of_chunkedB (by decide +kernel)
theorem gxHdr6'_depth : gxHdr6'.tree.depth < 64 := by decide +kernel

theorem gxFork_slot : nextAssertGindex (proofOf gxHdr6'.tree [8]).values blockSlotGindex =
    .ok (u64Chunk 25, []) := by
  rw [proofOf_values gxHdr6'_chunked gxHdr6'_depth]
  decide +kernel

theorem gxFork_slots : blockSlotLoop exExt [proofOf gxHdr6'.tree [8]] [] = .ok [(gxC6'.root, 25)] := by
  have h1 : (proofOf gxHdr6'.tree [8]).calculateRoot exExt = .ok gxC6'.root :=
    proofOf_root exExt gxHdr6'_chunked [8]
  unfold blockSlotLoop
  rw [h1, gxFork_slot]
  decide +kernel

theorem gxFork_reader : gxFork.intoReader exExt exSpec = .ok gxForkReader := by
  unfold GuestInput.intoReader
  simp only [Res.bind_eq_ok, Res.mapErr_eq_ok, ensure_eq_ok, decide_eq_true_eq, slotEpoch_eq_ok_iff,
    Res.pure_eq, Res.ok.injEq]
  exact ⟨(), proofOf_verify exExt gxHdr_chunked [11], gxStateP.root exExt, gxHdr_extract, (),
    proofOf_verify exExt gxStateP_chunked gxStateWanted, gxStateInfo, gxState_extract, (),
    proofOf_verify exExt gxRegP_chunked gxRegWanted, exActive, gxReg_extract, 3, ⟨by decide, by decide⟩, (),
    by decide, exActive, gxInput_registry, (), gxInput_patches, _, gxFork_slots, rfl⟩

theorem gxFork_verifies : verify exExt Config.default gxForkReader.toReader = .ok (⟨gxC7', gxC6'⟩, 25) := by
  decide +kernel

theorem gxFork_real : RealChain exExt exSpec gxFork gxHdr gxState :=
  ⟨gxInput_real.header_wf, gxInput_real.state_wf, gxInput_real.block_root, gxInput_real.state_root,
    gxInput_real.finalized_past, gxInput_real.no_collision, gxInput_real.no_wrap⟩

/-- The ancestry of the checkpoints in the two inputs. -/
def gxAnc (a b : Checkpoint) : Prop := a = b ∨ a = exC4 ∨ (a = gxC6 ∧ b = exC7) ∨ (a = gxC6' ∧ b = gxC7')

theorem gxAnc_trans (a b c : Checkpoint) (h : gxAnc a b) (h' : gxAnc b c) : gxAnc a c := by
  rcases h with rfl | rfl | ⟨rfl, rfl⟩ | ⟨rfl, rfl⟩
  · exact h'
  · exact Or.inr (Or.inl rfl)
  · rcases h' with rfl | h' | ⟨h', -⟩ | ⟨h', -⟩
    · exact Or.inr (Or.inr (Or.inl ⟨rfl, rfl⟩))
    all_goals exact absurd (congrArg Checkpoint.epoch h') (by decide)
  · rcases h' with rfl | h' | ⟨h', -⟩ | ⟨h', -⟩
    · exact Or.inr (Or.inr (Or.inr ⟨rfl, rfl⟩))
    all_goals exact absurd (congrArg Checkpoint.epoch h') (by decide)

theorem gxC6_ne : gxC6 ≠ gxC6' := by decide +kernel

theorem gxAnc_ancestry : Ancestry gxAnc (gxInput.attestations ++ gxFork.attestations) where
  refl _ := Or.inl rfl
  trans := gxAnc_trans
  votes := by
    intro a ha
    rcases List.mem_append.1 ha with ha | ha
    · simp only [gxInput, gxVotes, List.mem_cons, List.not_mem_nil, or_false] at ha
      rcases ha with rfl | rfl | rfl | rfl | rfl | rfl | rfl | rfl | rfl
      all_goals first
        | exact Or.inr (Or.inl rfl)
        | exact Or.inr (Or.inr (Or.inl ⟨rfl, rfl⟩))
    · simp only [gxFork, gxAllVotes, List.mem_cons, List.not_mem_nil, or_false, List.mem_append] at ha
      rcases ha with (rfl | rfl | rfl | rfl) | rfl | rfl | rfl | rfl
      all_goals first
        | exact Or.inr (Or.inl rfl)
        | exact Or.inr (Or.inr (Or.inr ⟨rfl, rfl⟩))

theorem gx_conflict : ¬ gxAnc gxC6 gxC6' ∧ ¬ gxAnc gxC6' gxC6 := by
  constructor
  · rintro (h | h | ⟨-, h⟩ | ⟨h, -⟩)
    · exact gxC6_ne h
    · exact absurd (congrArg Checkpoint.epoch h) (by decide)
    · exact absurd (congrArg Checkpoint.epoch h) (by decide)
    · exact gxC6_ne h
  · rintro (h | h | ⟨h, -⟩ | ⟨-, h⟩)
    · exact gxC6_ne h.symm
    · exact absurd (congrArg Checkpoint.epoch h) (by decide)
    · exact gxC6_ne h.symm
    · exact absurd (congrArg Checkpoint.epoch h) (by decide)

end Signal
