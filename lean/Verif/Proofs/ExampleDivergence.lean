import Verif.Proofs.ExampleShipped

/-!
Helper definitions and lemmas: a second file for the guests of the two networks, with votes of the same validators for another block.
-/

namespace Signal
open Spec Wire

namespace Fork

set_option maxRecDepth 100000

variable {n : Net}

/-- Another block of the last epoch before Fulu. -/
def hdr (n : Net) : Header := ⟨(n.fuluEpoch - 1) * 32 + 1, 7, exRoot32 41, n.stateP.root exExt, exRoot32 44⟩

def last (n : Net) : Checkpoint := ⟨n.fuluEpoch - 1, (hdr n).tree.root exExt⟩
def first (n : Net) : Checkpoint := ⟨n.fuluEpoch, exRoot32 8⟩

def votes (n : Net) : List Attestation :=
  Net.committees.map (Net.vote n.electra n.justified (last n)) ++ Net.committees.map (Net.vote n.fulu (last n) (first n))

def input (n : Net) : GuestInput := { n.input with attestations := votes n, blockSlotProofs := [proofOf (hdr n).tree [8]] }
def reader (n : Net) : GuestReader := { n.reader with attestations := votes n, blockSlots := [((last n).root, (n.fuluEpoch - 1) * 32 + 1)] }

theorem hdr_chunked (h : n.Shipped) : (hdr n).tree.Chunked := by rcases h with rfl | rfl <;> exact chunked_of_chunkedB (by decide +kernel)
theorem hdr_depth (h : n.Shipped) : (hdr n).tree.depth < 64 := by rcases h with rfl | rfl <;> decide +kernel

theorem slot_value (h : n.Shipped) : nextAssertGindex (proofOf (hdr n).tree [8]).values blockSlotGindex =
    .ok (u64Chunk ((n.fuluEpoch - 1) * 32 + 1), []) := by
  rw [proofOf_values (hdr_chunked h) (hdr_depth h)]
  rcases h with rfl | rfl <;> decide +kernel

theorem input_slots (h : n.Shipped) : blockSlotLoop exExt [proofOf (hdr n).tree [8]] [] = .ok [((last n).root, (n.fuluEpoch - 1) * 32 + 1)] := by
  have h1 : (proofOf (hdr n).tree [8]).calculateRoot exExt = .ok (last n).root := proofOf_root exExt (hdr_chunked h) [8]
  unfold blockSlotLoop
  rw [h1, slot_value h]
  rcases h with rfl | rfl <;> decide +kernel

theorem input_reader (h : n.Shipped) : (input n).intoReader exExt n.spec = .ok (reader n) := by
  unfold GuestInput.intoReader
  simp only [Res.bind_eq_ok, Res.mapErr_eq_ok, ensure_eq_ok, decide_eq_true_eq, slotEpoch_eq_ok_iff,
    Res.pure_eq, Res.ok.injEq]
  exact ⟨(), proofOf_verify exExt (Net.hdr_chunked h) [11], n.stateP.root exExt, Net.hdr_extract h, (),
    proofOf_verify exExt (Net.stateP_chunked h) gxStateWanted, n.stateInfo, Net.state_extract h, (),
    proofOf_verify exExt Net.regP_chunked gxRegWanted, Net.active, Net.reg_extract h, n.trusted.epoch, by rcases h with rfl | rfl <;> exact ⟨by decide, by decide⟩, (),
    by rcases h with rfl | rfl <;> decide, Net.active, by rcases h with rfl | rfl <;> exact Net.input_registry (by first | exact Or.inl rfl | exact Or.inr rfl), (), Net.input_patches h, _, input_slots h, rfl⟩

theorem reader_verifies (h : n.Shipped) : verify exExt n.cfg (reader n).toReader = .ok (⟨first n, last n⟩, (n.fuluEpoch - 1) * 32 + 1) := by
  rcases h with rfl | rfl <;> decide +kernel

theorem input_runs {ε : Type} (h : n.Shipped) : (guestEntry exExt n.spec n.cfg (input n) : Res ε Bytes) =
    .ok (Abi.encodeJournal ⟨n.justified, n.trusted⟩ ⟨first n, last n⟩ ((n.fuluEpoch - 1) * 32 + 1)) := by
  unfold guestEntry
  rw [input_reader h]
  simp only [Res.unwrap, Res.ok_bind, reader_verifies h]
  rfl

theorem input_real (h : n.Shipped) : RealChainDigests exExt n.spec (input n) n.hdr n.state :=
  have h := Net.input_real h
  ⟨h.header_wf, h.state_wf, h.block_root, h.state_root, h.finalized_past, h.shallow, h.no_collision, h.no_preimage⟩

theorem votes_fit (h : n.Shipped) : ∀ a ∈ votes n, ((Ssz.wire exWire (fun _ => true)).encodeAttestation a).length < 2 ^ 32 ∧ (Ssz.wire exWire (fun _ => true)).decodeAttestation ((Ssz.wire exWire (fun _ => true)).encodeAttestation a) = some a := by
  rcases h with rfl | rfl <;> decide +kernel

theorem slots_fit (h : n.Shipped) : ∀ p ∈ [proofOf (hdr n).tree [8]], ProofFits (2 ^ 32) p := by
  intro p hp
  rw [List.mem_singleton.1 hp]
  rcases h with rfl | rfl <;> exact ⟨by decide +kernel, by decide +kernel, by decide +kernel, by decide +kernel⟩

theorem input_fits (h : n.Shipped) : InputFits (Ssz.wire exWire (fun _ => true)) (2 ^ 32) (input n) :=
  have hf := Net.input_fits h
  ⟨hf.beaconBlock, hf.beaconState, hf.activeValidators, hf.keysCount, hf.keys, hf.patchesSorted, hf.patchesCount, hf.patches, hf.state,
    by rcases h with rfl | rfl <;> decide +kernel, votes_fit h, (by decide : 1 < 2 ^ 32), slots_fit h⟩

theorem input_size (h : n.Shipped) : (encodeInput (Ssz.wire exWire (fun _ => true)) (input n)).length < 2 ^ 32 := by
  rcases h with rfl | rfl <;> decide +kernel

def file (n : Net) : Bytes := Frame.encodeInputStdin (encodeInput (Ssz.wire exWire (fun _ => true)) (input n))

theorem file_runs {ε : Type} (h : n.Shipped) :
    (guestMain (Ssz.wire exWire (fun _ => true)) exExt n.spec n.cfg (file n) : Res ε Bytes) =
      .ok (Abi.encodeJournal ⟨n.justified, n.trusted⟩ ⟨first n, last n⟩ ((n.fuluEpoch - 1) * 32 + 1)) := by
  have := C63_guest_reads (ε := ε) (Ssz.wire exWire (fun _ => true)) szWire_laws exExt (by decide) (by decide) n.spec
    n.cfg (input n) (input_fits h) (input_size h) []
  rw [List.append_nil, input_runs h] at this
  exact this

end Fork
end Signal
