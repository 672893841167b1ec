import Verif.Proofs.Guest
import Verif.Props.Layout
import Verif.Props.Multiproof
import Verif.Proofs.ExampleGuest

/-!
# Properties C32, C33, C39: what the guest extracts from verified proofs

Specifications: `Verif/Spec/Ssz.lean`, `Verif/Spec/Registry.lean`, `Verif/Spec/Merkle.lean`.
All soundness statements carry the hypothesis `NoWrap` (proofs less than 64 levels deep), which the
code does not check and which cannot be dropped (`C33_forged_state_root`).
-/

namespace Signal
open Spec

variable (X : Ext)

/-! ## C33 -/

theorem Spec.Header.tree_chunked {h : Header} (hw : h.WF) : h.tree.Chunked := by
  apply container_chunked
  intro t ht
  simp only [List.mem_cons, List.not_mem_nil, or_false] at ht
  rcases ht with rfl | rfl | rfl | rfl | rfl
  · exact u64Chunk_length _
  · exact u64Chunk_length _
  · exact hw.parentRoot
  · exact hw.stateRoot
  · exact hw.bodyRoot

theorem Spec.BeaconState.tree_chunked {s : BeaconState} (hw : s.WF) : s.tree.Chunked := by
  apply container_chunked
  intro t ht
  obtain ⟨name, -, rfl⟩ := List.mem_map.1 ht
  unfold BeaconState.field
  have hv : ∀ v : Bytes, v.length = 4 → (Tree.leaf (versionChunk v)).Chunked := by
    intro v h; simp [Tree.Chunked, versionChunk, h]
  split
  · exact hw.genesisValidatorsRoot
  split
  · exact u64Chunk_length _
  split
  · apply container_chunked
    intro t ht
    simp only [List.mem_cons, List.not_mem_nil, or_false] at ht
    rcases ht with rfl | rfl | rfl
    · exact hv _ hw.previousVersion
    · exact hv _ hw.currentVersion
    · exact u64Chunk_length _
  split
  · exact registryTree_chunked hw.validators
  split
  · apply container_chunked
    intro t ht
    simp only [List.mem_cons, List.not_mem_nil, or_false] at ht
    rcases ht with rfl | rfl
    · exact u64Chunk_length _
    · exact hw.finalizedRoot
  split
  · exact u64Chunk_length _
  split
  · exact u64Chunk_length _
  · exact hw.other _

/-- **C33** for the block: the state root extracted from a verified block proof is that of the block. -/
theorem C33_block_partial (p : Multiproof) (h : Header) (hw : h.WF) (r : Root)
    (hv : p.verify X (h.tree.root X) = .ok ()) (he : extractBeaconBlock p = .ok r)
    (hc : NoCollision X p h.tree) (hn : NoWrap p) : r = h.stateRoot := by
  have ht := (C26_values_sound_partial X p h.tree (Spec.Header.tree_chunked hw) hv hc hn).1
  rw [extractBeaconBlock_eq_ok.1 he] at ht
  exact (ht _ _ (by simp) _ (C50_header h).2).symm

/-- **C33** for the state: everything extracted from a verified state proof is as in the state. -/
theorem C33_state_partial (p : Multiproof) (s : BeaconState) (hw : s.WF) (info : StateInfo)
    (hv : p.verify X (s.tree.root X) = .ok ()) (he : extractBeaconState p = .ok info)
    (hc : NoCollision X p s.tree) (hn : NoWrap p) :
    info.genesisValidatorsRoot = s.genesisValidatorsRoot ∧ info.slot = s.slot ∧ info.fork = s.fork ∧
    info.validatorsRoot = (registryTree s.validators).root X ∧
    info.finalizedCheckpointEpoch = s.finalizedEpoch ∧
    info.earliestExitEpoch = s.earliestExitEpoch ∧
    info.earliestConsolidationEpoch = s.earliestConsolidationEpoch := by
  have ht := (C26_values_sound_partial X p s.tree (Spec.BeaconState.tree_chunked hw) hv hc hn).1
  obtain ⟨c1, c2, c3, c4, c5, c6, c7, c8, c9, e, rfl⟩ := extractBeaconState_eq_ok.1 he
  rw [e] at ht
  obtain ⟨g1, g2, g3, g4, g5, g6, g7, g8, g9⟩ := C50_state s
  have e1 := ht _ c1 (by simp) _ g1
  have e2 := ht _ c2 (by simp) _ g2
  have e3 := ht _ c3 (by simp) _ g3
  have e4 := ht _ c4 (by simp) _ g4
  have e5 := ht _ c5 (by simp) _ g5
  have e6 := ht _ c6 (by simp) _ g6
  have e7 := ht _ c7 (by simp) _ g7
  have e8 := ht _ c8 (by simp) _ g8
  have e9 := ht _ c9 (by simp) _ g9
  simp only [Tree.root] at e1 e2 e3 e4 e5 e7 e8 e9
  subst e1 e2 e3 e4 e5 e7 e8 e9
  refine ⟨rfl, u64FromChunk_u64Chunk _ hw.slot, ?_, e6.symm, u64FromChunk_u64Chunk _ hw.finalizedEpoch,
    u64FromChunk_u64Chunk _ hw.earliestExitEpoch, u64FromChunk_u64Chunk _ hw.earliestConsolidationEpoch⟩
  have h1 : (versionChunk s.fork.previousVersion).take 4 = s.fork.previousVersion :=
    List.take_left' hw.previousVersion
  have h2 : (versionChunk s.fork.currentVersion).take 4 = s.fork.currentVersion :=
    List.take_left' hw.currentVersion
  rw [h1, h2, u64FromChunk_u64Chunk _ hw.forkEpoch]

/-- The hypotheses of the two theorems are met by the example input. -/
example : (proofOf gxHdr.tree [11]).verify exExt (gxHdr.tree.root exExt) = .ok () ∧
    extractBeaconBlock (proofOf gxHdr.tree [11]) = .ok (gxStateP.root exExt) ∧ gxHdr.WF ∧
    NoCollision exExt (proofOf gxHdr.tree [11]) gxHdr.tree ∧ NoWrap (proofOf gxHdr.tree [11]) :=
  ⟨proofOf_verify exExt gxHdr_chunked [11], gxHdr_extract, gxHdr_wf, gxHdr_noCollision,
    proofOf_noWrap gxHdr_chunked gxHdr_depth _⟩

example : (proofOf gxStateP gxStateWanted).verify exExt (gxState.tree.root exExt) = .ok () ∧
    extractBeaconState (proofOf gxStateP gxStateWanted) = .ok gxStateInfo ∧ gxState.WF ∧
    NoCollision exExt (proofOf gxStateP gxStateWanted) gxState.tree ∧
    NoWrap (proofOf gxStateP gxStateWanted) :=
  ⟨gxState_verify, gxState_extract, gxState_wf,
    gxState_noCollision, proofOf_noWrap gxStateP_chunked gxStateP_depth _⟩

/-- **C33** is false without the depth bound: for every 32-byte `v` there is a chunk `c` such that for every
block which contains `c` anywhere (say, as graffiti in its body) there is a block proof that the guest
accepts for this block and from which it extracts `v` as the state root. -/
theorem C33_forged_state_root (v : Root) (hv : v.length = 32) :
    ∃ c : Bytes, c.length = 32 ∧ ∀ block : Tree, block.Chunked →
      (∃ i t, block.nodeAt i = some t ∧ t.root X = c) →
      ∃ p : Multiproof, p.verify X (block.root X) = .ok () ∧ extractBeaconBlock p = .ok v := by
  obtain ⟨c, h1, h2⟩ := C27_forged_value X v hv stateRootGindex (by decide)
  refine ⟨c, h1, fun block hb ⟨i, t, hi, ht⟩ => ?_⟩
  obtain ⟨p, p1, p2⟩ := h2 block hb i t hi ht
  exact ⟨p, p1, extractBeaconBlock_eq_ok.2 p2⟩

/-! ## C32 -/

/-- **C32.** If the validators proof is accepted against the root of the registry `vs`, every validator is
either reported with exactly its key, balance, slashed flag and epochs, or it is omitted and its exit epoch is
at most the trusted epoch; nothing else is reported. -/
theorem C32_registry_partial (vs : List Validator) (hvs : RegistryWF vs) (p : Multiproof)
    (publicKeys : List Bytes) (trustedEpoch : Nat) (m : OMap ValidatorInfo)
    (hv : p.verify X ((registryTree vs).root X) = .ok ())
    (he : extractValidators X p publicKeys trustedEpoch = .ok m)
    (hc : NoCollision X p (registryTree vs)) (hn : NoWrap p) :
    m.Sorted ∧ ∀ i,
      (∀ info, m.get? i = some info → ∃ v, vs[i]? = some v ∧ Matches X info v) ∧
      (m.get? i = none → ∀ v, vs[i]? = some v → v.exitEpoch ≤ trustedEpoch) := by
  have hct := registryTree_chunked hvs
  have ht := (C26_values_sound_partial X p _ hct hv hc hn).1
  obtain ⟨n, node, -, a2, a3, a4, a5⟩ := extractLoop_reads X _ _ _ _ _ _ _ he
  have hlen : node = u64Chunk vs.length := (ht _ _ a2 _ (nodeAt_three _ _)).symm
  have hl := hvs.limit
  rw [hlen, u64FromChunk_u64Chunk _ (by omega)] at a3
  subst a3
  refine ⟨extractLoop_sorted X _ _ _ _ _ _ _ he List.Pairwise.nil, ?_⟩
  intro i
  by_cases hi : i < vs.length
  · obtain ⟨v, hvi⟩ : ∃ v, vs[i]? = some v := ⟨vs[i], List.getElem?_eq_getElem hi⟩
    have hvw := hvs.wf v (List.mem_of_getElem? hvi)
    obtain ⟨g1, g2, g3, g4, g5, g6, g7, -⟩ := C50_validator vs hl i v hvi
    rcases a5 i (by omega) hi with ⟨b1, c, b2, b3⟩ | ⟨info, b1, b2⟩
    · have hm : m.get? i = none := b1
      refine ⟨fun info h => (by rw [hm] at h; cases h), fun _ w hw => ?_⟩
      rw [hvi] at hw; cases hw
      have := ht _ _ b2 _ g7
      simp only [Tree.root] at this
      rw [← this, u64FromChunk_u64Chunk _ hvw.exitEpoch] at b3
      exact b3
    · refine ⟨fun info' h => ?_, fun h => (by rw [b1] at h; cases h)⟩
      rw [b1] at h; cases h
      refine ⟨v, hvi, ?_⟩
      obtain ⟨k0, k1, eb, sl, ae, ac, ex, m0, m1, m2, m3, m4, m5, m6, f0, f1, f2, f3, f4, f5⟩ := b2
      have q0 := ht _ _ m0 _ g1
      have q1 := ht _ _ m1 _ g2
      have q2 := ht _ _ m2 _ g3
      have q3 := ht _ _ m3 _ g4
      have q4 := ht _ _ m4 _ g5
      have q5 := ht _ _ m5 _ g6
      have q6 := ht _ _ m6 _ g7
      simp only [Tree.root] at q0 q1 q2 q3 q4 q5 q6
      subst q0 q1 q2 q3 q4 q5 q6
      refine ⟨(C52_registered_key_only X info.pubkey v.pubkey _ _ hvw.pubkey rfl).1 f0, ?_, ?_, ?_, ?_, ?_⟩
      · rw [f1, u64FromChunk_u64Chunk _ hvw.effectiveBalance]
      · rw [boolFromChunk_boolChunk] at f2; exact (Res.ok.inj f2).symm
      · rw [f3, u64FromChunk_u64Chunk _ hvw.activationEligibilityEpoch]
      · rw [f4, u64FromChunk_u64Chunk _ hvw.activationEpoch]
      · rw [f5, u64FromChunk_u64Chunk _ hvw.exitEpoch]
  · have hnone : vs[i]? = none := List.getElem?_eq_none (by omega)
    have hm : m.get? i = none := a4 i (Or.inr (by omega))
    exact ⟨fun info h => (by rw [hm] at h; cases h), fun _ w hw => (by rw [hnone] at hw; cases hw)⟩

/-- The hypotheses are met: a registry of eleven validators of which the exited one is omitted. -/
example : gxRegProof.verify exExt ((registryTree gxVs).root exExt) = .ok () ∧
    extractValidators exExt gxRegProof gxKeys 3 = .ok exActive ∧ RegistryWF gxVs ∧
    NoCollision exExt gxRegProof (registryTree gxVs) ∧ NoWrap gxRegProof :=
  ⟨gxReg_verify, gxReg_extract, gxVs_wf, gxReg_noCollision,
    proofOf_noWrap gxRegP_chunked gxRegP_depth _⟩

theorem mem_activeIndices {vs : List Validator} {epoch i : Nat} :
    i ∈ activeIndices vs epoch ↔ ∃ v, vs[i]? = some v ∧ v.activeAt epoch := by
  unfold activeIndices Validator.activeAt
  rw [List.mem_filter, List.mem_range]
  constructor
  · rintro ⟨hi, h⟩
    rw [List.getElem?_eq_getElem hi] at h ⊢
    exact ⟨_, rfl, by simpa using h⟩
  · rintro ⟨v, hv, h⟩
    obtain ⟨hi, -⟩ := List.getElem?_eq_some_iff.1 hv
    rw [hv]
    exact ⟨hi, by simpa using h⟩

theorem activeIndices_sorted (vs : List Validator) (epoch : Nat) :
    OSet.Sorted (activeIndices vs epoch) :=
  List.Pairwise.filter _ List.pairwise_lt_range

/-- The consequence of a faithfully reported registry for the active set of an epoch. -/
theorem active_exact {vs : List Validator} {m : OMap ValidatorInfo} {trustedEpoch : Nat} (hs : m.Sorted)
    (h : ∀ i, (∀ info, m.get? i = some info → ∃ v, vs[i]? = some v ∧ Matches X info v) ∧
      (m.get? i = none → ∀ v, vs[i]? = some v → v.exitEpoch ≤ trustedEpoch))
    (epoch : Nat) (hle : trustedEpoch ≤ epoch) :
    OMap.keys (m.filter (fun e => e.2.isActiveAt epoch)) = activeIndices vs epoch ∧
    (m.filter (fun e => e.2.isActiveAt epoch)).map (·.2.effectiveBalance) =
      (activeIndices vs epoch).map (registeredBalance vs) := by
  have hs' := OMap.sorted_filter hs (fun e => e.2.isActiveAt epoch)
  have hk : OMap.keys (m.filter (fun e => e.2.isActiveAt epoch)) = activeIndices vs epoch := by
    apply OSet.eq_of_mem_iff (OMap.sorted_keys hs') (activeIndices_sorted vs epoch)
    intro i
    rw [mem_activeIndices]
    simp only [OMap.keys, List.mem_map, List.mem_filter]
    constructor
    · rintro ⟨⟨j, info⟩, ⟨hm, ha⟩, rfl⟩
      obtain ⟨v, hv, hmat⟩ := (h j).1 info (OMap.mem_get? hs hm)
      refine ⟨v, hv, ?_⟩
      simp only [ValidatorInfo.isActiveAt, Bool.and_eq_true, decide_eq_true_eq] at ha
      rw [hmat.activationEpoch, hmat.exitEpoch] at ha
      exact ha
    · rintro ⟨v, hv, ha⟩
      cases hm : m.get? i with
      | none => have := (h i).2 hm v hv; have := ha.2; omega
      | some info =>
        obtain ⟨w, hw, hmat⟩ := (h i).1 info hm
        rw [hv] at hw; cases hw
        refine ⟨(i, info), ⟨OMap.get?_eq_some_mem hm, ?_⟩, rfl⟩
        simp only [ValidatorInfo.isActiveAt, Bool.and_eq_true, decide_eq_true_eq, hmat.activationEpoch,
          hmat.exitEpoch]
        exact ha
  refine ⟨hk, ?_⟩
  rw [← hk]
  simp only [OMap.keys, List.map_map]
  apply List.map_congr_left
  rintro ⟨i, info⟩ hm
  obtain ⟨v, hv, hmat⟩ := (h i).1 info (OMap.mem_get? hs (List.mem_filter.1 hm).1)
  simp [registeredBalance, hv, hmat.effectiveBalance]

/-- **C32.** Hence the active set at every epoch from the trusted one on is exact: its members, their
balances in order, and so their total. -/
theorem C32_active_set_partial (vs : List Validator) (hvs : RegistryWF vs) (p : Multiproof)
    (publicKeys : List Bytes) (trustedEpoch : Nat) (m : OMap ValidatorInfo)
    (hv : p.verify X ((registryTree vs).root X) = .ok ())
    (he : extractValidators X p publicKeys trustedEpoch = .ok m)
    (hc : NoCollision X p (registryTree vs)) (hn : NoWrap p) (epoch : Nat) (hle : trustedEpoch ≤ epoch) :
    OMap.keys (m.filter (fun e => e.2.isActiveAt epoch)) = activeIndices vs epoch ∧
    ((m.filter (fun e => e.2.isActiveAt epoch)).map (·.2.effectiveBalance)).sum =
      ((activeIndices vs epoch).map (registeredBalance vs)).sum := by
  obtain ⟨h1, h2⟩ := C32_registry_partial X vs hvs p publicKeys trustedEpoch m hv he hc hn
  obtain ⟨h3, h4⟩ := active_exact X h1 h2 epoch hle
  exact ⟨h3, by rw [h4]⟩

/-! ## C39 -/

theorem blockSlotLoop_mem {ps : List Multiproof} : ∀ {m out : List (Root × Nat)},
    blockSlotLoop X ps m = .ok out → ∀ e ∈ out, e ∈ m ∨
      ∃ p ∈ ps, p.calculateRoot X = .ok e.1 ∧ ∃ c rest, p.values = (blockSlotGindex, c) :: rest ∧
        e.2 = u64FromChunk c := by
  induction ps with
  | nil => intro m out h e he; simp [blockSlotLoop] at h; subst h; exact Or.inl he
  | cons p ps ih =>
    intro m out h e he
    simp only [blockSlotLoop, Res.bind_eq_ok, Res.mapErr_eq_ok, nextAssertGindex_eq_ok] at h
    obtain ⟨root, h1, ⟨c, rest⟩, h2, h3⟩ := h
    rcases ih h3 e he with h4 | ⟨q, hq, h4⟩
    · rcases List.mem_cons.1 h4 with rfl | h4
      · exact Or.inr ⟨p, by simp, h1, c, rest, h2, rfl⟩
      · exact Or.inl h4
    · exact Or.inr ⟨q, by simp [hq], h4⟩

/-- Where the answers of `slot_for_block` come from. -/
theorem slotForBlock_proof {spec : ChainSpec} {input : GuestInput} {r : GuestReader}
    (hr : input.intoReader X spec = .ok r) {root : Root} {s : Nat}
    (h : r.toReader.slotForBlock root = .ok s) :
    ∃ p ∈ input.blockSlotProofs, p.calculateRoot X = .ok root ∧ ∃ c rest,
      p.values = (blockSlotGindex, c) :: rest ∧ s = u64FromChunk c := by
  have hb : blockSlotLoop X input.blockSlotProofs [] = .ok r.blockSlots := by
    unfold GuestInput.intoReader at hr
    simp only [Res.bind_eq_ok, Res.pure_eq, Res.ok.injEq] at hr
    obtain ⟨_, _, _, _, _, _, _, _, _, _, _, _, _, _, _, _, _, _, _, _, bs, hbs, rfl⟩ := hr
    exact hbs
  simp only [GuestReader.toReader, okOr_eq_ok, Option.map_eq_some_iff] at h
  obtain ⟨⟨rt, sl⟩, hf, rfl⟩ := h
  have h1 := List.find?_some hf
  simp only [decide_eq_true_eq] at h1
  subst h1
  rcases blockSlotLoop_mem X hb _ (List.mem_of_find?_eq_some hf) with h | h
  · simp at h
  · exact h

/-- **C39.** If an accepted guest input is verified, the slot in the result is the slot field of the block
header whose root is the newly finalized root. -/
theorem C39_slot_proven_partial (spec : ChainSpec) (cfg : Config) (input : GuestInput) (r : GuestReader)
    (hr : input.intoReader X spec = .ok r) (post : ConsensusState) (slot : Nat)
    (hv : verify X cfg r.toReader = .ok (post, slot))
    (h : Header) (hw : h.WF) (hroot : h.tree.root X = post.finalized.root)
    (hc : ∀ p ∈ input.blockSlotProofs, NoCollision X p h.tree)
    (hn : ∀ p ∈ input.blockSlotProofs, NoWrap p) : slot = h.slot := by
  have hs : r.toReader.slotForBlock post.finalized.root = .ok slot := by
    unfold verify at hv
    simp only [Res.bind_eq_ok, Res.pure_eq, Res.ok.injEq, Res.mapErr_eq_ok, Prod.mk.injEq] at hv
    obtain ⟨_, _, _, _, st, _, _, _, sl, h1, rfl, rfl⟩ := hv
    exact h1
  obtain ⟨p, hp, h1, c, rest, h2, rfl⟩ := slotForBlock_proof X hr hs
  have hver : p.verify X (h.tree.root X) = .ok () := by
    unfold Multiproof.verify; rw [h1, hroot]; simp
  have ht := (C26_values_sound_partial X p _ (Spec.Header.tree_chunked hw) hver (hc p hp) (hn p hp)).1
  rw [h2] at ht
  have := ht _ c (by simp) _ (C50_header h).1
  simp only [Tree.root] at this
  rw [← this, u64FromChunk_u64Chunk _ hw.slot]

/-- The hypotheses are met by the example input: the slot of the block at epoch 6 is 24. -/
example : gxInput.intoReader exExt exSpec = .ok gxReader ∧
    verify exExt Config.default gxReader.toReader = .ok (⟨exC7, gxC6⟩, 24) ∧ gxHdr6.WF ∧
    gxHdr6.tree.root exExt = gxC6.root ∧
    (∀ p ∈ gxInput.blockSlotProofs, NoCollision exExt p gxHdr6.tree) ∧
    ∀ p ∈ gxInput.blockSlotProofs, NoWrap p := by
  refine ⟨gxInput_reader, gxReader_verifies, gxHdr6_wf, rfl, ?_, ?_⟩
  · intro p hp
    rw [List.mem_singleton.1 hp]
    exact gxHdr6_noCollision
  · intro p hp
    rw [List.mem_singleton.1 hp]
    exact proofOf_noWrap gxHdr6_chunked gxHdr6_depth _

end Signal
