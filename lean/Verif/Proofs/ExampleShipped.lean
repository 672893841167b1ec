import Verif.Proofs.ExampleNetworks
import Verif.Props.Networks
import Verif.Props.Depth
import Verif.Props.AttestationSsz

/-!
Helper lemmas: the real block, state and registry behind the example inputs of the two shipped networks, and the files they are read from.
-/

namespace Signal
open Spec Wire

namespace Net

set_option maxRecDepth 100000

variable {n : Net}

theorem reg_eq : registryTree vs = .node (perfect (4 + 36) elem) (.leaf (u64Chunk 11)) :=
  registryTree_perfect vs elem rfl 4 36 (by decide)

theorem reg_hashed : ∀ x ∈ (registryTree vs).hashed exExt,
    x ∈ regP.hashed exExt ∨ x ∈ zeroStrings exExt (4 + 36) := by
  rw [reg_eq]
  exact list_hashed exExt 4 36 11 elem elem_zero

theorem field_root : ∀ name, (n.state.field name).root exExt = (n.field name).root exExt := by
  intro name
  unfold field
  split
  · rename_i h
    subst h
    exact reg_root
  · rfl

theorem state_tree : n.state.tree =
    perfect 6 (fun i => (electraFields.map n.state.field).getD i (.leaf zeroRoot)) := rfl

theorem state_root : n.state.tree.root exExt = n.stateP.root exExt := by
  rw [state_tree]
  exact perfect_root_congr exExt 6 _ _ (getD_map_root exExt _ _ _ field_root)

theorem state_hashed : ∀ x ∈ n.state.tree.hashed exExt,
    x ∈ n.stateP.hashed exExt ∨ x ∈ regP.hashed exExt ∨ x ∈ zeroStrings exExt (4 + 36) := by
  intro x hx
  rw [state_tree] at hx
  rcases perfect_hashed_congr exExt 6 _ _ (getD_map_root exExt _ _ _ field_root) x hx with h | h
  · exact Or.inl h
  · obtain ⟨i, hi, hne⟩ := h
    right
    simp only [List.getD_eq_getElem?_getD, List.getElem?_map] at hi hne
    cases hn : electraFields[i]? with
    | none => simp [hn] at hne
    | some name =>
      rw [hn] at hi hne
      simp only [Option.map_some, Option.getD_some] at hi hne
      by_cases hv : name = "validators"
      · subst hv; exact reg_hashed x hi
      · exact absurd (by unfold field; rw [if_neg hv]) hne

def strings (n : Net) : List Bytes :=
  (regP.hashed exExt ++ zeroStrings exExt (4 + 36) ++ n.stateP.hashed exExt ++ n.hdr.tree.hashed exExt).dedup

theorem strings_noCollision (h : n.Shipped) : NoCollisionOn exExt n.strings := by
  rcases h with rfl | rfl <;> exact noCollisionOn_of_nodup (by decide +kernel)

theorem mem_strings {x : Bytes} (h : x ∈ regP.hashed exExt ∨ x ∈ zeroStrings exExt (4 + 36) ∨
    x ∈ n.stateP.hashed exExt ∨ x ∈ n.hdr.tree.hashed exExt) : x ∈ n.strings := by
  unfold strings
  rw [List.mem_dedup]
  simp only [List.mem_append]
  rcases h with h | h | h | h
  · exact Or.inl (Or.inl (Or.inl h))
  · exact Or.inl (Or.inl (Or.inr h))
  · exact Or.inl (Or.inr h)
  · exact Or.inr h

theorem vs_wf : RegistryWF vs := by
  have hl : vs.length = 11 := by decide
  refine ⟨by rw [hl]; decide, ?_⟩
  intro v hv
  unfold vs at hv
  rcases List.mem_append.1 hv with hv | hv
  · obtain ⟨i, -, rfl⟩ := List.mem_map.1 hv
    exact ⟨exExt.pkSerialize_length _, by simp [exRoot32], (by decide : (32000000000 : Nat) < 2 ^ 64), (by decide : (0 : Nat) < 2 ^ 64),
      (by decide : (0 : Nat) < 2 ^ 64), (by decide : u64Max < 2 ^ 64)⟩
  · rw [List.mem_singleton.1 hv]
    exact ⟨exExt.pkSerialize_length _, by simp [exRoot32], by decide, by decide, by decide, by decide⟩

theorem state_wf (h : n.Shipped) : n.state.WF := by
  rcases h with rfl | rfl <;>
  exact ⟨by decide, by decide, by decide, by decide, by decide, vs_wf, by decide, by decide, by decide, by decide,
    fun _ => (by decide : zeroRoot.length = 32)⟩

theorem hdr_wf (h : n.Shipped) : n.hdr.WF := by
  rcases h with rfl | rfl <;> exact ⟨by decide, by decide, exExt.sha256_length _, by decide⟩

theorem hdr_noCollision (h : n.Shipped) : NoCollision exExt (proofOf n.hdr.tree [11]) n.hdr.tree :=
  proofOf_noCollision (hdr_chunked h) _ (strings_noCollision h)
    (fun _ hx => mem_strings (Or.inr (Or.inr (Or.inr hx)))) (fun _ hx => mem_strings (Or.inr (Or.inr (Or.inr hx))))

theorem state_noCollision (h : n.Shipped) : NoCollision exExt (proofOf n.stateP gxStateWanted) n.state.tree := by
  refine proofOf_noCollision (stateP_chunked h) _ (strings_noCollision h) (fun x hx => mem_strings ?_)
    (fun _ hx => mem_strings (Or.inr (Or.inr (Or.inl hx))))
  rcases state_hashed x hx with h | h | h
  · exact Or.inr (Or.inr (Or.inl h))
  · exact Or.inl h
  · exact Or.inr (Or.inl h)

theorem reg_noCollision (h : n.Shipped) : NoCollision exExt (proofOf regP gxRegWanted) (registryTree n.state.validators) := by
  refine proofOf_noCollision regP_chunked _ (strings_noCollision h) (fun x hx => mem_strings ?_)
    (fun _ hx => mem_strings (Or.inl hx))
  rcases reg_hashed x hx with h | h
  · exact Or.inl h
  · exact Or.inr (Or.inl h)

def regLeaves : List Bytes := zeroRoot :: u64Chunk 11 :: (perfect 4 elem).leaves

theorem reg_leaves : ∀ x ∈ (registryTree vs).leaves, x ∈ regLeaves := by
  rw [reg_eq]
  intro x hx
  unfold regLeaves
  simp only [Tree.leaves, List.mem_append, List.mem_singleton] at hx
  rcases hx with hx | hx
  · rcases spine_leaves 4 36 elem elem_zero x hx with h | h
    · exact List.mem_cons_of_mem _ (List.mem_cons_of_mem _ h)
    · exact h ▸ List.mem_cons_self
  · exact hx ▸ List.mem_cons_of_mem _ List.mem_cons_self

def stateLeaves (n : Net) : List Bytes :=
  regLeaves ++ electraFields.flatMap (fun name => if name = "validators" then [] else (n.state.field name).leaves)

theorem state_leaves : ∀ x ∈ n.state.tree.leaves, x ∈ n.stateLeaves := by
  intro x hx
  rw [state_tree] at hx
  obtain ⟨i, hi⟩ := perfect_leaves _ _ x hx
  simp only [List.getD_eq_getElem?_getD, List.getElem?_map] at hi
  unfold stateLeaves
  rw [List.mem_append]
  cases hn : electraFields[i]? with
  | none =>
    rw [hn] at hi
    left
    have hz : x = zeroRoot := List.mem_singleton.1 hi
    exact hz ▸ List.mem_cons_self
  | some name =>
    rw [hn] at hi
    simp only [Option.map_some, Option.getD_some] at hi
    by_cases hv : name = "validators"
    · subst hv; exact Or.inl (reg_leaves x hi)
    · exact Or.inr (List.mem_flatMap.2 ⟨name, List.mem_of_getElem? hn, by rw [if_neg hv]; exact hi⟩)

theorem reg_digests : ∀ x ∈ regP.hashed exExt, exExt.sha256 x ∉ regLeaves := by decide +kernel
theorem state_digests (h : n.Shipped) : ∀ x ∈ n.stateP.hashed exExt, exExt.sha256 x ∉ n.stateLeaves := by
  rcases h with rfl | rfl <;> decide +kernel
theorem hdr_digests (h : n.Shipped) : ∀ x ∈ n.hdr.tree.hashed exExt, exExt.sha256 x ∉ n.hdr.tree.leaves := by
  rcases h with rfl | rfl <;> decide +kernel

/-- The inputs belong to a real block with a real state. -/
theorem input_real (h : n.Shipped) : RealChainDigests exExt n.spec n.input n.hdr n.state where
  header_wf := hdr_wf h
  state_wf := state_wf h
  block_root := rfl
  state_root := state_root
  finalized_past := by rcases h with rfl | rfl <;> decide
  shallow := fun _ => Nat.zero_le _
  no_collision := ⟨hdr_noCollision h, state_noCollision h, reg_noCollision h⟩
  no_preimage := ⟨proofOf_noPreimage (hdr_chunked h) _ _ (fun _ h => h) (hdr_digests h),
    proofOf_noPreimage (stateP_chunked h) _ _ state_leaves (state_digests h),
    proofOf_noPreimage regP_chunked _ _ reg_leaves reg_digests⟩

/-! ## The files -/

theorem input_fits (h : n.Shipped) : InputFits (Ssz.wire exWire (fun _ => true)) (2 ^ 32) n.input where
  beaconBlock := by rcases h with rfl | rfl <;> exact ⟨by decide +kernel, by decide +kernel, by decide +kernel, by decide +kernel⟩
  beaconState := by rcases h with rfl | rfl <;> exact ⟨by decide +kernel, by decide +kernel, by decide +kernel, by decide +kernel⟩
  activeValidators := by rcases h with rfl | rfl <;> exact ⟨by decide +kernel, by decide +kernel, by decide +kernel, by decide +kernel⟩
  keysCount := by rcases h with rfl | rfl <;> decide +kernel
  keys := by rcases h with rfl | rfl <;> decide +kernel
  patchesSorted := by rcases h with rfl | rfl <;> decide +kernel
  patchesCount := by rcases h with rfl | rfl <;> decide +kernel
  patches := by
    intro x hx
    have hx' : x ∈ n.patches := hx
    unfold patches at hx'
    simp only [List.mem_cons, List.not_mem_nil, or_false] at hx'
    rcases h with rfl | rfl <;> rcases hx' with rfl | rfl <;>
    exact ⟨by decide, by decide, by decide, by decide, by decide, by decide, by decide⟩
  state := by
    rcases h with rfl | rfl <;> exact ⟨⟨by decide, by decide⟩, ⟨by decide, exExt.sha256_length _⟩⟩
  attestationsCount := by rcases h with rfl | rfl <;> decide +kernel
  attestations := by rcases h with rfl | rfl <;> decide +kernel
  slotProofsCount := by rcases h with rfl | rfl <;> decide +kernel
  slotProofs := by
    intro p hp
    rw [List.mem_singleton.1 hp]
    rcases h with rfl | rfl <;> exact ⟨by decide +kernel, by decide +kernel, by decide +kernel, by decide +kernel⟩

theorem input_size (h : n.Shipped) : (encodeInput (Ssz.wire exWire (fun _ => true)) n.input).length < 2 ^ 32 := by
  rcases h with rfl | rfl <;> decide +kernel

def file (n : Net) : Bytes := Frame.encodeInputStdin (encodeInput (Ssz.wire exWire (fun _ => true)) n.input)

theorem file_runs {ε : Type} (h : n.Shipped) :
    (guestMain (Ssz.wire exWire (fun _ => true)) exExt n.spec n.cfg n.file : Res ε Bytes) =
      .ok (Abi.encodeJournal ⟨n.justified, n.trusted⟩ ⟨n.first, n.last⟩ ((n.fuluEpoch - 1) * 32)) := by
  have := C63_guest_reads (ε := ε) (Ssz.wire exWire (fun _ => true)) szWire_laws exExt (by decide) (by decide) n.spec n.cfg n.input
    (input_fits h) (input_size h) []
  rw [List.append_nil, input_runs h] at this
  exact this

end Net
end Signal
