import Verif.Props.EndToEnd
import Verif.Proofs.ExampleChain
import Verif.Proofs.ExampleNetworks

/-!
# C27, C32, C39, C40, C81: what a proof deeper than 63 levels can be made to say

`C27_forged_value` and `C40_forged_journal` show that the claims on proofs are false without a bound on their depth. Here: a whole proof can be grafted
onto a tree, so that a registry can be made up, and one validator with chosen withdrawal credentials is enough to make up the state behind all
later blocks.
-/

namespace Signal
open Spec

variable (X : Ext)

/-! ## Grafting a proof -/

theorem leafIndices_mod (P : Tree) : ∀ g h : Nat, g % U64 = h % U64 → (P.leafIndices g).map (· % U64) = (P.leafIndices h).map (· % U64) := by
  induction P with
  | leaf c => intro g h e; simpa [Tree.leafIndices] using e
  | node l r hl hr =>
    intro g h e
    simp only [Tree.leafIndices, List.map_append]
    rw [hl (2 * g) (2 * h) (by omega), hr (2 * g + 1) (2 * h + 1) (by omega)]

/-- The mask `m` for the leaves of the grafted tree, none of the siblings. -/
def graftMask (m : List Bool) : List (Bool × Bytes) → List Bool
  | [] => m
  | (true, _) :: ps => false :: graftMask m ps
  | (false, _) :: ps => graftMask m ps ++ [false]

theorem graftMask_length (S : Tree) {m : List Bool} (h : m.length = S.leaves.length) (ps : List (Bool × Bytes)) :
    (graftMask m ps).length = (pathTree S ps).leaves.length := by
  induction ps with
  | nil => exact h
  | cons p ps ih => obtain ⟨_ | _, s⟩ := p <;> simp [graftMask, pathTree, Tree.leaves, ih]

theorem select_graft (f : Nat → Nat) (S : Tree) {m : List Bool} (hm : m.length = S.leaves.length) (ps : List (Bool × Bytes)) (g : Nat) :
    select ((((pathTree S ps).leafIndices g).map f).zip (pathTree S ps).leaves) (graftMask m ps) =
      select (((S.leafIndices (pathIndex g ps)).map f).zip S.leaves) m := by
  induction ps generalizing g with
  | nil => rfl
  | cons p ps ih =>
    obtain ⟨_ | _, s⟩ := p
    · simp only [pathTree, graftMask, Tree.leafIndices, Tree.leaves, List.map_append, pathIndex]
      rw [List.zip_append (by rw [List.length_map, ← leaves_length]), select_append, ih]
      · simp [select]
      · rw [List.length_zip, List.length_map, ← leaves_length, Nat.min_self, graftMask_length S hm ps]
    · simp only [pathTree, graftMask, Tree.leafIndices, Tree.leaves, List.map_append, pathIndex]
      have : select (((List.map f [2 * g] ++ ((pathTree S ps).leafIndices (2 * g + 1)).map f).zip ([s] ++ (pathTree S ps).leaves)))
          ([false] ++ graftMask m ps) = select (((S.leafIndices (pathIndex (2 * g + 1) ps)).map f).zip S.leaves) m := by
        rw [List.zip_append (by simp), select_append (by simp), ih]
        simp [select]
      simpa using this

/-- A mask can be given the length of the list it selects from. -/
theorem select_mask {α : Type} (l : List α) (m : List Bool) : ∃ m' : List Bool, m'.length = l.length ∧ select l m' = select l m := by
  induction l generalizing m with
  | nil => exact ⟨[], rfl, by simp [select]⟩
  | cons a l ih =>
    cases m with
    | nil =>
      obtain ⟨m', h1, h2⟩ := ih []
      refine ⟨false :: m', by simp [h1], ?_⟩
      simpa [select] using h2
    | cons b m =>
      obtain ⟨m', h1, h2⟩ := ih m
      refine ⟨b :: m', by simp [h1], ?_⟩
      simp only [select, List.zip_cons_cons, List.filterMap_cons] at h2 ⊢
      rw [h2]

/-- **C27** is false without the depth bound, for every hash function: for any proof that has a root there is a 32-byte string such that, whenever
it is a node anywhere in a tree, there is a proof which verifies against the root of this tree and reports all values that the given proof
reports. -/
theorem C27_forged_proof (p₀ : Multiproof) (root₀ : Bytes) (h₀ : p₀.calculateRoot X = .ok root₀) :
    ∃ c : Bytes, c.length = 32 ∧ ∀ T : Tree, T.Chunked → ∀ i t, T.nodeAt i = some t → t.root X = c →
      ∃ p : Multiproof, p.verify X (T.root X) = .ok () ∧ p.values = p₀.values := by
  obtain ⟨-, l, r, he, -⟩ := (C25_root_ok_iff X p₀ root₀).1 h₀
  obtain ⟨P, hP⟩ : ∃ P, P = Tree.node l r := ⟨_, rfl⟩
  rw [← hP] at he
  have hchunked := he.2.1
  obtain ⟨m, hm1, hm2⟩ := select_mask (((P.leafIndices 1).map (· % U64)).zip P.leaves) p₀.valueMask
  have hml : m.length = P.leaves.length := by rw [hm1, List.length_zip, List.length_map, ← leaves_length, Nat.min_self]
  have hv₀ : p₀.values = select (((P.leafIndices 1).map (· % U64)).zip P.leaves) m := by
    rw [hm2, ← nodes_encodes he]; rfl
  obtain ⟨k, hk⟩ : ∃ k : Nat, k = 64 := ⟨64, rfl⟩
  have hb := bitPath_chunk k 1
  refine ⟨(pathTree P (bitPath k 1)).root X, Tree.root_length X (pathTree_chunked hchunked hb), ?_⟩
  intro T hT i t hi ht
  obtain ⟨ps, p1, p2, p3⟩ := exists_path X T hT i t hi
  have hall : ∀ p ∈ ps ++ bitPath k 1, p.2.length = 32 := by
    intro p hp; rw [List.mem_append] at hp
    exact hp.elim (p2 p) (hb p)
  have henc : Encodes ⟨(pathTree P (ps ++ bitPath k 1)).leaves.flatten, graftMask m (ps ++ bitPath k 1),
      (pathTree P (ps ++ bitPath k 1)).preorder, 0⟩ (pathTree P (ps ++ bitPath k 1)) :=
    ⟨rfl, pathTree_chunked hchunked hall, [], by simp⟩
  refine ⟨⟨(pathTree P (ps ++ bitPath k 1)).leaves.flatten, graftMask m (ps ++ bitPath k 1), (pathTree P (ps ++ bitPath k 1)).preorder, 0⟩,
    (C25_verify_ok_iff X _ _).2 ⟨Nat.zero_le _, ?_⟩, ?_⟩
  · obtain ⟨l', r', e⟩ : ∃ l' r', pathTree P (ps ++ bitPath k 1) = .node l' r' := by
      rw [hP]
      cases ps ++ bitPath k 1 with
      | nil => exact ⟨l, r, rfl⟩
      | cons p ps => obtain ⟨_ | _, s⟩ := p <;> exact ⟨_, _, rfl⟩
    refine ⟨l', r', e ▸ henc, ?_⟩
    rw [← e, pathTree_append, p3 _ ht.symm]
  · rw [hv₀]
    have h1 := select_graft (· % U64) P hml (ps ++ bitPath k 1) 1
    rw [← nodes_encodes henc] at h1
    refine h1.trans ?_
    rw [leafIndices_mod P (pathIndex 1 (ps ++ bitPath k 1)) 1 ?_]
    rw [pathIndex_append, p1, pathIndex_eq, bitPath_length, bitPath_index k 1 (by subst hk; decide)]
    subst hk
    omega

/-! ## Nodes of nodes -/

theorem nodeAt_nodeAt {T T' t : Tree} {g : Nat} (hg : T.nodeAt g = some T') : ∀ i, T'.nodeAt i = some t → ∃ j, T.nodeAt j = some t := by
  intro i hi
  have hpos : 0 < g := by
    rcases Nat.eq_zero_or_pos g with rfl | h
    · rw [Tree.nodeAt] at hg; simp at hg
    · exact h
  have hi0 : i ≠ 0 := by
    rintro rfl; rw [Tree.nodeAt] at hi; simp at hi
  have h1 : 2 ^ Nat.log2 i ≤ i := Nat.log2_self_le hi0
  have h2 : i < 2 ^ (Nat.log2 i + 1) := Nat.lt_log2_self
  refine ⟨g * 2 ^ Nat.log2 i + (i - 2 ^ Nat.log2 i), ?_⟩
  rw [nodeAt_mul' hpos hg _ _ (by rw [Nat.pow_succ] at h2; omega)]
  rw [Nat.add_sub_cancel' h1]; exact hi

theorem registry_credentials {vs : List Validator} (hw : RegistryWF vs) {v : Validator} (hv : v ∈ vs) :
    ∃ i, (registryTree vs).nodeAt i = some (.leaf v.withdrawalCredentials) := by
  obtain ⟨i, hi, rfl⟩ := List.mem_iff_getElem.1 hv
  have hl := hw.limit
  exact nodeAt_nodeAt (registryTree_validator (by omega) (List.getElem?_eq_getElem hi)) 9 (Validator.nodeAt_field _ 1 _ (by omega) rfl)

/-! ## The registry -/

/-- **C32** is false without the depth bound: whatever registry a proof `p₀` reports, there are withdrawal credentials `c` such that for every
registry with a validator that has them there is a proof, accepted against the root of this registry, from which the guest extracts what it
extracts from `p₀`. -/
theorem C32_forged_registry (p₀ : Multiproof) (root₀ : Bytes) (h₀ : p₀.calculateRoot X = .ok root₀) :
    ∃ c : Bytes, c.length = 32 ∧ ∀ vs : List Validator, RegistryWF vs → (∃ v ∈ vs, v.withdrawalCredentials = c) →
      ∃ p : Multiproof, p.verify X ((registryTree vs).root X) = .ok () ∧
        ∀ keys epoch, extractValidators X p keys epoch = extractValidators X p₀ keys epoch := by
  obtain ⟨c, hc, h⟩ := C27_forged_proof X p₀ root₀ h₀
  refine ⟨c, hc, fun vs hw ⟨v, hv, hvc⟩ => ?_⟩
  obtain ⟨i, hi⟩ := registry_credentials hw hv
  obtain ⟨p, p1, p2⟩ := h _ (registryTree_chunked hw) i _ hi (by rw [Tree.root, hvc])
  exact ⟨p, p1, fun keys epoch => by unfold extractValidators; rw [p2]⟩

theorem exists_credentials (c : Bytes) (hc : c.length = 32) : ∃ v : Validator, RegistryWF [v] ∧ v.withdrawalCredentials = c := by
  obtain ⟨v, hv⟩ : ∃ v, v ∈ gxVs := ⟨gxVs.head (by decide), List.head_mem _⟩
  have := gxVs_wf.wf v hv
  refine ⟨{ v with withdrawalCredentials := c }, ⟨by simp, ?_⟩, rfl⟩
  intro w hw
  rw [List.mem_singleton.1 hw]
  exact { this with withdrawalCredentials := hc }

/-- The proof of the example registry can be grafted onto a registry with a single validator. -/
example : ∃ vs : List Validator, vs.length = 1 ∧ RegistryWF vs ∧ ∃ p : Multiproof, p.verify exExt ((registryTree vs).root exExt) = .ok () ∧
    extractValidators exExt p gxKeys 3 = extractValidators exExt gxRegProof gxKeys 3 := by
  obtain ⟨c, hc, h⟩ := C32_forged_registry exExt gxRegProof _ (proofOf_root exExt gxRegP_chunked gxRegWanted)
  obtain ⟨v, hw, hvc⟩ := exists_credentials c hc
  obtain ⟨p, h1, h2⟩ := h _ hw ⟨_, List.mem_singleton.2 rfl, hvc⟩
  exact ⟨_, rfl, hw, p, h1, h2 _ _⟩

/-! ## The slot -/

/-- The chunk that opens the way to a made-up slot: the end of 64 levels which lead to the index of the slot. -/
def slotChunk (s : Nat) : Bytes := (pathTree (.leaf (u64Chunk s)) (bitPath 64 blockSlotGindex)).root X

theorem slotChunk_length (s : Nat) : (slotChunk X s).length = 32 :=
  Tree.root_length X (pathTree_chunked (S := .leaf (u64Chunk s)) (u64Chunk_length s) (bitPath_chunk 64 blockSlotGindex))

theorem slotChunk_proof (s : Nat) {T : Tree} (hT : T.Chunked) {i : Nat} {t : Tree} (hi : T.nodeAt i = some t) (ht : t.root X = slotChunk X s) :
    ∃ p : Multiproof, p.calculateRoot X = .ok (T.root X) ∧ p.values = [(blockSlotGindex, u64Chunk s)] := by
  have hv : (u64Chunk s).length = 32 := u64Chunk_length s
  have hg : blockSlotGindex < 2 ^ 64 := by decide
  rw [slotChunk] at ht
  generalize blockSlotGindex = g at *
  obtain ⟨k, hk⟩ : ∃ k : Nat, k = 64 := ⟨64, rfl⟩
  rw [← hk] at hg ht
  have hb := bitPath_chunk k g
  obtain ⟨ps, p1, p2, p3⟩ := exists_path X T hT i t hi
  have hall : ∀ p ∈ ps ++ bitPath k g, p.2.length = 32 := by
    intro p hp; rw [List.mem_append] at hp
    exact hp.elim (p2 p) (hb p)
  have hlen := bitPath_length k g
  refine ⟨pathProof (u64Chunk s) (ps ++ bitPath k g), ?_, ?_⟩
  · rw [pathProof_root X hv hall (by
      intro h; rw [List.append_eq_nil_iff] at h; rw [h.2] at hlen; simp at hlen; omega)]
    rw [pathTree_append, p3 _ ht.symm]
  · have hm : pathIndex 1 (ps ++ bitPath k g) % U64 = g := by
      rw [pathIndex_append, p1, pathIndex_eq, hlen, bitPath_index k g hg]
      subst hk
      omega
    rw [pathProof_values hv hall, hm]

theorem blockSlotLoop_snoc {ps : List Multiproof} {p : Multiproof} {root : Bytes} {s : Nat} (hs : s < 2 ^ 64)
    (h1 : p.calculateRoot X = .ok root) (h2 : p.values = [(blockSlotGindex, u64Chunk s)]) {m m' : List (Root × Nat)}
    (h : blockSlotLoop X ps m = .ok m') : blockSlotLoop X (ps ++ [p]) m = .ok ((root, s) :: m') := by
  induction ps generalizing m with
  | nil =>
    simp only [blockSlotLoop, Res.ok.injEq] at h
    subst h
    simp only [List.nil_append, blockSlotLoop, Res.bind_eq_ok, Res.mapErr_eq_ok]
    refine ⟨root, h1, (u64Chunk s, []), ?_, ?_⟩
    · rw [h2]; simp [nextAssertGindex]
    · simp only [u64FromChunk_u64Chunk s hs]
  | cons q ps ih =>
    simp only [blockSlotLoop, List.cons_append, Res.bind_eq_ok, Res.mapErr_eq_ok] at h ⊢
    obtain ⟨rt, a1, x, a2, a3⟩ := h
    exact ⟨rt, a1, x, a2, ih a3⟩

theorem collectParticipants_slots (r : GuestReader) (bs : List (Root × Nat)) (active : OMap ValidatorInfo) (c : CommitteeCache)
    (as : List Attestation) (acc : OSet) :
    collectParticipants X ({ r with blockSlots := bs } : GuestReader).toReader active c as acc =
      collectParticipants X r.toReader active c as acc := by
  induction as generalizing acc with
  | nil => rfl
  | cons a as ih =>
    have : processAttestation X ({ r with blockSlots := bs } : GuestReader).toReader active c a =
      processAttestation X r.toReader active c a := rfl
    simp only [collectParticipants, this, ih]

theorem processGroup_slots (cfg : Config) (r : GuestReader) (bs : List (Root × Nat)) (t : Checkpoint) (s : ConsensusState) (l : Link)
    (as : List Attestation) :
    processGroup X cfg ({ r with blockSlots := bs } : GuestReader).toReader t s l as = processGroup X cfg r.toReader t s l as := by
  have h : ∀ active e, computeCommittees X ({ r with blockSlots := bs } : GuestReader).toReader active e =
      computeCommittees X r.toReader active e := fun _ _ => rfl
  unfold processGroup
  simp only [collectParticipants_slots, h]
  rfl

theorem verifyLoop_slots (cfg : Config) (r : GuestReader) (bs : List (Root × Nat)) (t : Checkpoint) (s : ConsensusState)
    (gs : List (Link × List Attestation)) :
    verifyLoop X cfg ({ r with blockSlots := bs } : GuestReader).toReader t s gs = verifyLoop X cfg r.toReader t s gs := by
  induction gs generalizing s with
  | nil => rfl
  | cons p gs ih =>
    obtain ⟨l, as⟩ := p
    simp only [verifyLoop, processGroup_slots, ih]

/-- **C39** is false without the depth bound: for every slot `s` there is a chunk such that, if it is anywhere in the newly finalized block (for
instance as graffiti), adding one proof to an accepted input makes the guest report the slot `s`. -/
theorem C39_forged_slot (s : Nat) (hs : s < 2 ^ 64) :
    (slotChunk X s).length = 32 ∧ ∀ (spec : ChainSpec) (cfg : Config) (input : GuestInput) (r : GuestReader),
      input.intoReader X spec = .ok r → ∀ post slot, verify X cfg r.toReader = .ok (post, slot) →
      ∀ block : Tree, block.Chunked → block.root X = post.finalized.root → (∃ i t, block.nodeAt i = some t ∧ t.root X = slotChunk X s) →
      ∃ p r', { input with blockSlotProofs := input.blockSlotProofs ++ [p] }.intoReader X spec = .ok r' ∧
        verify X cfg r'.toReader = .ok (post, s) := by
  refine ⟨slotChunk_length X s, fun spec cfg input r hr post slot hv block hb hroot ⟨i, t, hi, ht⟩ => ?_⟩
  obtain ⟨p, p1, p2⟩ := slotChunk_proof X s hb hi ht
  rw [hroot] at p1
  obtain ⟨sr', info, vs0, h1, h2, h3, h4, h5, h6, h7, h8, h9, h10, h11, k1, k2, k3, k4, k5⟩ := intoReader_eq_ok hr
  refine ⟨p, { r with blockSlots := (post.finalized.root, s) :: r.blockSlots }, ?_, ?_⟩
  · unfold GuestInput.intoReader
    simp only [Res.bind_eq_ok, Res.mapErr_eq_ok, ensure_eq_ok, decide_eq_true_eq, slotEpoch_eq_ok_iff,
      Res.pure_eq, Res.ok.injEq]
    refine ⟨(), h1, _, h2, (), h3, info, h4, (), h5, vs0, h6, _, ⟨h8, rfl⟩, (), h7, r.validators, h9, (), h10,
      _, blockSlotLoop_snoc X hs p1 p2 h11, ?_⟩
    cases r
    simp only at k1 k2 k3 k4 k5
    subst k1 k2 k3 k4 k5
    rfl
  · obtain ⟨pre, atts, v1, v2, v3, v4, v5⟩ := verify_ok hv
    refine verify_ok_of (pre := pre) v1 v2 ?_ v4 ?_
    · rw [verifyLoop_slots]; exact v3
    · simp [GuestReader.toReader, okOr]

/-! ### The example -/

def gxHdrS : Header := ⟨24, 6, slotChunk exExt 99, gxStateP.root exExt, exRoot32 43⟩
def gxCS : Checkpoint := ⟨6, gxHdrS.tree.root exExt⟩

/-- An input which finalizes a block that has the chunk for slot 99 as its parent root. -/
def gxSlot : GuestInput := { gxInput with
  attestations := gxAllVotes exC4 gxCS ++ gxAllVotes gxCS gxC7'
  blockSlotProofs := [proofOf gxHdrS.tree [8]] }

def gxSlotReader : GuestReader := { gxReader with
  attestations := gxAllVotes exC4 gxCS ++ gxAllVotes gxCS gxC7'
  blockSlots := [(gxCS.root, 24)] }

theorem gxHdrS_chunked : gxHdrS.tree.Chunked := chunked_of_chunkedB (by decide +kernel)
theorem gxHdrS_depth : gxHdrS.tree.depth < 64 := by decide +kernel

theorem gxSlot_value' : nextAssertGindex (proofOf gxHdrS.tree [8]).values blockSlotGindex = .ok (u64Chunk 24, []) := by
  rw [proofOf_values gxHdrS_chunked gxHdrS_depth]
  decide +kernel

theorem gxSlot_slots : blockSlotLoop exExt [proofOf gxHdrS.tree [8]] [] = .ok [(gxCS.root, 24)] := by
  have h1 : (proofOf gxHdrS.tree [8]).calculateRoot exExt = .ok gxCS.root :=
    proofOf_root exExt gxHdrS_chunked [8]
  unfold blockSlotLoop
  rw [h1, gxSlot_value']
  decide +kernel

theorem gxSlot_reader : gxSlot.intoReader exExt exSpec = .ok gxSlotReader := by
  unfold GuestInput.intoReader
  simp only [Res.bind_eq_ok, Res.mapErr_eq_ok, ensure_eq_ok, decide_eq_true_eq, slotEpoch_eq_ok_iff,
    Res.pure_eq, Res.ok.injEq]
  exact ⟨(), proofOf_verify exExt gxHdr_chunked [11], gxStateP.root exExt, gxHdr_extract, (),
    proofOf_verify exExt gxStateP_chunked gxStateWanted, gxStateInfo, gxState_extract, (),
    proofOf_verify exExt gxRegP_chunked gxRegWanted, exActive, gxReg_extract, 3, ⟨by decide, by decide⟩, (),
    by decide, exActive, gxInput_registry, (), gxInput_patches, _, gxSlot_slots, rfl⟩

theorem gxSlot_verifies : verify exExt Config.default gxSlotReader.toReader = .ok (⟨gxC7', gxCS⟩, 24) := by
  decide +kernel

/-- The guest reports the made-up slot 99 for a block of slot 24. -/
example : ∃ p r', { gxSlot with blockSlotProofs := gxSlot.blockSlotProofs ++ [p] }.intoReader exExt exSpec = .ok r' ∧
    verify exExt Config.default r'.toReader = .ok (⟨gxC7', gxCS⟩, 99) :=
  (C39_forged_slot exExt 99 (by decide)).2 exSpec Config.default gxSlot gxSlotReader gxSlot_reader _ _ gxSlot_verifies gxHdrS.tree
    gxHdrS_chunked rfl ⟨10, _, nodeAt_container 3 _ 2 _ (by omega) rfl, rfl⟩

/-! ## One deposit -/

/-- The header with the tree of the state in the place of its root. -/
def openHeader (h : Header) (st : BeaconState) : Tree :=
  container 3 [.leaf (u64Chunk h.slot), .leaf (u64Chunk h.proposerIndex), .leaf h.parentRoot, st.tree, .leaf h.bodyRoot]

theorem openHeader_root {h : Header} {st : BeaconState} (e : st.tree.root X = h.stateRoot) : (openHeader h st).root X = h.tree.root X := by
  have h1 : ∀ t : Tree, (container 3 [.leaf (u64Chunk h.slot), .leaf (u64Chunk h.proposerIndex), .leaf h.parentRoot, t, .leaf h.bodyRoot]).root X =
      X.sha256 (X.sha256 (X.sha256 (u64Chunk h.slot ++ u64Chunk h.proposerIndex) ++ X.sha256 (h.parentRoot ++ t.root X)) ++
        X.sha256 (X.sha256 (h.bodyRoot ++ zeroRoot) ++ X.sha256 (zeroRoot ++ zeroRoot))) := fun t => rfl
  rw [openHeader, Header.tree, h1, h1, e]; rfl

theorem openHeader_chunked {h : Header} {st : BeaconState} (hw : h.WF) (hs : st.WF) : (openHeader h st).Chunked := by
  apply container_chunked
  intro t ht
  simp only [List.mem_cons, List.not_mem_nil, or_false] at ht
  rcases ht with rfl | rfl | rfl | rfl | rfl
  · exact u64Chunk_length _
  · exact u64Chunk_length _
  · exact hw.parentRoot
  · exact Spec.BeaconState.tree_chunked hs
  · exact hw.bodyRoot

/-- A block proof for another block from which the same state root is read leads to the same result. -/
theorem forged_run {spec : ChainSpec} {cfg : Config} {input : GuestInput} {r : GuestReader} {sr root : Root} {post : ConsensusState} {slot : Nat}
    {p : Multiproof} (hr : input.intoReader X spec = .ok r) (hsr : extractBeaconBlock input.beaconBlock = .ok sr)
    (hv : verify X cfg r.toReader = .ok (post, slot))
    (hstart : input.consensusState.finalized.epoch < input.consensusState.currentJustified.epoch)
    (p1 : p.verify X root = .ok ()) (p2 : extractBeaconBlock p = .ok sr) :
    let pre : ConsensusState := ⟨input.consensusState.currentJustified, ⟨input.consensusState.finalized.epoch, root⟩⟩
    ∃ r', { input with beaconBlock := p, consensusState := pre }.intoReader X spec = .ok r' ∧ r'.validators = r.validators ∧
      ∀ ε : Type, (guestEntry X spec cfg { input with beaconBlock := p, consensusState := pre } : Res ε Bytes) =
        .ok (Abi.encodeJournal pre post slot) := by
  intro pre'
  obtain ⟨sr', info, vs0, h1, h2, h3, h4, h5, h6, h7, h8, h9, h10, h11, k1, k2, k3, k4, k5⟩ := intoReader_eq_ok hr
  rw [h2] at hsr
  cases hsr
  have hr' : { input with beaconBlock := p, consensusState := pre' }.intoReader X spec = .ok { r with consensusState := pre' } := by
    unfold GuestInput.intoReader
    simp only [Res.bind_eq_ok, Res.mapErr_eq_ok, ensure_eq_ok, decide_eq_true_eq, slotEpoch_eq_ok_iff,
      Res.pure_eq, Res.ok.injEq]
    refine ⟨(), p1, _, p2, (), h3, info, h4, (), h5, vs0, h6, _, ⟨h8, rfl⟩, (), h7, r.validators, h9, (), h10,
      r.blockSlots, h11, ?_⟩
    cases r
    simp only at k1 k2 k3 k4 k5
    subst k1 k2 k3 k4 k5
    rfl
  refine ⟨{ r with consensusState := pre' }, hr', rfl, ?_⟩
  intro ε
  obtain ⟨pre, atts, v1, v2, v3, v4, v5⟩ := verify_ok hv
  simp only [GuestReader.toReader, Res.ok.injEq] at v1
  rw [k4] at v1
  subst v1
  have hver : verify X cfg ({ r with consensusState := pre' } : GuestReader).toReader = .ok (post, slot) := by
    refine verify_ok_of (pre := pre') rfl v2 ?_ ?_ v5
    · rw [verifyLoop_toReader X cfg r pre']
      exact verifyLoop_other_root X cfg r.toReader input.consensusState.finalized pre'.finalized rfl _ _ _ hstart v3 v4
    · intro heq
      obtain ⟨q, q1, -, -, q2, -⟩ := C10_strictly_advances X cfg r.toReader post slot hv
      simp only [GuestReader.toReader, Res.ok.injEq] at q1
      rw [k4] at q1
      subst q1
      rw [heq] at q2
      exact absurd q2 (Nat.lt_irrefl _)
  unfold guestEntry
  rw [hr']
  simp only [Res.unwrap, Res.ok_bind, hver]
  rfl

/-- **C40** is false without the depth bound, for anyone who can register a validator: for every made-up state, given by its root `fake`, there are
withdrawal credentials `c` such that behind every block whose state has a validator with these credentials the guest takes the made-up state for
the real one. There is a block proof `p` that turns every accepted input for the made-up state into an accepted input for this block, with the
same registry, votes and result. -/
theorem C40_one_deposit (fake : Root) (hf : fake.length = 32) :
    ∃ c : Bytes, c.length = 32 ∧ ∀ (hdr : Header) (st : BeaconState), hdr.WF → st.WF → st.tree.root X = hdr.stateRoot →
      (∃ v ∈ st.validators, v.withdrawalCredentials = c) →
      ∃ p : Multiproof, ∀ (spec : ChainSpec) (cfg : Config) (input : GuestInput) (r : GuestReader),
        input.intoReader X spec = .ok r → extractBeaconBlock input.beaconBlock = .ok fake →
        ∀ post slot, verify X cfg r.toReader = .ok (post, slot) →
        input.consensusState.finalized.epoch < input.consensusState.currentJustified.epoch →
        let pre : ConsensusState := ⟨input.consensusState.currentJustified, ⟨input.consensusState.finalized.epoch, hdr.tree.root X⟩⟩
        ∃ r', { input with beaconBlock := p, consensusState := pre }.intoReader X spec = .ok r' ∧ r'.validators = r.validators ∧
          ∀ ε : Type, (guestEntry X spec cfg { input with beaconBlock := p, consensusState := pre } : Res ε Bytes) =
            .ok (Abi.encodeJournal pre post slot) := by
  obtain ⟨c, hc, h⟩ := C33_forged_state_root X fake hf
  refine ⟨c, hc, fun hdr st hw hs hroot ⟨v, hv, hvc⟩ => ?_⟩
  obtain ⟨i, hi⟩ := registry_credentials hs.validators hv
  obtain ⟨j, hj⟩ := nodeAt_nodeAt (C50_state st).2.2.2.2.2.1 i hi
  obtain ⟨k, hk⟩ := nodeAt_nodeAt (T := openHeader hdr st) (nodeAt_container 3 _ 3 _ (by omega) rfl) j hj
  obtain ⟨p, p1, p2⟩ := h (openHeader hdr st) (openHeader_chunked hw hs) ⟨k, _, hk, by rw [Tree.root, hvc]⟩
  rw [openHeader_root X hroot] at p1
  refine ⟨p, fun spec cfg input r hr hfake post slot hver hstart => ?_⟩
  exact forged_run X hr hfake hver hstart p1 p2

theorem wf_validators {st : BeaconState} (h : st.WF) {vs : List Validator} (hv : RegistryWF vs) :
    ({ st with validators := vs } : BeaconState).WF := { h with validators := hv }

theorem wf_stateRoot {h : Header} (hw : h.WF) {r : Root} (hr : r.length = 32) : ({ h with stateRoot := r } : Header).WF :=
  { hw with stateRoot := hr }

/-- The example input is an accepted input for a state that is made up as far as another chain is concerned: on every header and state like these,
with one validator that has the credentials, the guest accepts the registry of the example. -/
example : ∃ c : Bytes, ∃ (hdr : Header) (st : BeaconState), hdr.WF ∧ st.WF ∧ st.tree.root exExt = hdr.stateRoot ∧
    st.validators.map (·.withdrawalCredentials) = [c] ∧ ∃ p r',
    { gxInput with beaconBlock := p, consensusState := ⟨exC4, ⟨gxC3.epoch, hdr.tree.root exExt⟩⟩ }.intoReader exExt exSpec = .ok r' ∧
      r'.validators = exActive := by
  obtain ⟨c, hc, h⟩ := C40_one_deposit exExt (gxStateP.root exExt) (Tree.root_length exExt gxStateP_chunked)
  obtain ⟨v, hvw, hvc⟩ := exists_credentials c hc
  have hst := wf_validators gxState_wf hvw
  generalize hste : ({ gxState with validators := [v] } : BeaconState) = st at hst
  have hvs : st.validators = [v] := by rw [← hste]
  have hh : ({ gxHdr with stateRoot := st.tree.root exExt } : Header).WF :=
    wf_stateRoot gxHdr_wf (Tree.root_length exExt (Spec.BeaconState.tree_chunked hst))
  generalize hhe : ({ gxHdr with stateRoot := st.tree.root exExt } : Header) = hdr at hh
  have hsr : st.tree.root exExt = hdr.stateRoot := by rw [← hhe]
  obtain ⟨p, hp⟩ := h hdr st hh hst hsr ⟨v, by rw [hvs]; simp, hvc⟩
  obtain ⟨r', h1, h2, -⟩ := hp exSpec Config.default gxInput gxReader gxInput_reader gxHdr_extract _ _ gxReader_verifies (by decide)
  exact ⟨c, hdr, st, hh, hst, hsr, by rw [hvs]; simp [hvc], p, r', h1, h2⟩

/-- **C81** is false without the condition on the leaves: with the numbers of mainnet and of Sepolia there are withdrawal credentials such that, whatever
else the registry of the state behind a block holds, if one validator has them, the guest commits a journal that starts from this block and ends in
made-up checkpoints, on votes of made-up validators. (With the hash function of the examples; `C40_one_deposit` is for all.) -/
theorem C81_one_deposit {n : Net} (hn : n.Shipped) :
    ∃ c : Bytes, c.length = 32 ∧ ∀ (hdr : Header) (st : BeaconState), hdr.WF → st.WF → st.tree.root exExt = hdr.stateRoot →
      (∃ v ∈ st.validators, v.withdrawalCredentials = c) →
      ∃ p : Multiproof, ∀ ε : Type,
        let pre : ConsensusState := ⟨n.justified, ⟨n.trusted.epoch, hdr.tree.root exExt⟩⟩
        (guestEntry exExt n.spec n.cfg { n.input with beaconBlock := p, consensusState := pre } : Res ε Bytes) =
          .ok (Abi.encodeJournal pre ⟨n.first, n.last⟩ ((n.fuluEpoch - 1) * 32)) := by
  obtain ⟨c, hc, h⟩ := C40_one_deposit exExt (n.stateP.root exExt) (Tree.root_length exExt (Net.stateP_chunked hn))
  refine ⟨c, hc, fun hdr st hw hs hr hv => ?_⟩
  obtain ⟨p, hp⟩ := h hdr st hw hs hr hv
  have he : n.input.consensusState.finalized.epoch < n.input.consensusState.currentJustified.epoch := by
    rcases hn with rfl | rfl <;> decide
  obtain ⟨-, -, -, hg⟩ := hp n.spec n.cfg n.input n.reader (Net.input_reader hn) (Net.hdr_extract hn) _ _ (Net.reader_verifies hn) he
  exact ⟨p, hg⟩

/-- There are a header and a state of one validator as `C81_one_deposit` asks for. -/
example (c : Bytes) (hc : c.length = 32) : ∃ (hdr : Header) (st : BeaconState), hdr.WF ∧ st.WF ∧ st.tree.root exExt = hdr.stateRoot ∧
    ∃ v ∈ st.validators, v.withdrawalCredentials = c := by
  obtain ⟨v, hvw, hvc⟩ := exists_credentials c hc
  have hst := wf_validators gxState_wf hvw
  generalize hste : ({ gxState with validators := [v] } : BeaconState) = st at hst
  have hvs : st.validators = [v] := by rw [← hste]
  exact ⟨{ gxHdr with stateRoot := st.tree.root exExt }, st,
    wf_stateRoot gxHdr_wf (Tree.root_length exExt (Spec.BeaconState.tree_chunked hst)), hst, rfl, v, by rw [hvs]; simp, hvc⟩

end Signal
