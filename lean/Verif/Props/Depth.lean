import Verif.Props.EndToEnd
import Verif.Props.Builder

/-!
# Properties C26, C27, C40 without a bound on the depth of the proof

The depth hypothesis `NoWrap` of the soundness theorems follows if no leaf of the real tree is the digest of
a string hashed in the proof.
-/

namespace Signal
open Spec

variable (X : Ext)

/-- A proof tree that hashes to the root of `T` and does not continue below its leaves is a pruning of
`T`: it is no deeper, and each of its leaves sits where `T` has a node, with the root of that node. -/
theorem pruning (S : List Bytes) (hS : NoCollisionOn X S) (T : Tree) :
    ∀ P : Tree, T.Chunked → P.Chunked → (∀ x ∈ T.hashed X, x ∈ S) → (∀ x ∈ P.hashed X, x ∈ S) →
      (∀ x ∈ P.hashed X, X.sha256 x ∉ T.leaves) → P.root X = T.root X → P.depth ≤ T.depth := by
  induction T with
  | leaf c =>
    intro P _ _ _ _ hl hr
    cases P with
    | leaf d => exact Nat.le_refl _
    | node l r =>
      refine absurd ?_ (hl (l.root X ++ r.root X) (by simp [Tree.hashed]))
      simp only [Tree.root] at hr
      simp [Tree.leaves, hr]
  | node a b iha ihb =>
    intro P hT hP hST hSP hl hr
    cases P with
    | leaf d => simp [Tree.depth]
    | node l r =>
      have h1 := hS _ (hSP (l.root X ++ r.root X) (by simp [Tree.hashed])) _
        (hST (a.root X ++ b.root X) (by simp [Tree.hashed])) hr
      obtain ⟨h2, h3⟩ := append_inj_32 (Tree.root_length X hP.1) (Tree.root_length X hT.1) h1
      have ha := iha l hT.1 hP.1 (fun x hx => hST x (by simp [Tree.hashed, hx]))
        (fun x hx => hSP x (by simp [Tree.hashed, hx]))
        (fun x hx hm => hl x (by simp [Tree.hashed, hx]) (by simp [Tree.leaves, hm])) h2
      have hb := ihb r hT.2 hP.2 (fun x hx => hST x (by simp [Tree.hashed, hx]))
        (fun x hx => hSP x (by simp [Tree.hashed, hx]))
        (fun x hx hm => hl x (by simp [Tree.hashed, hx]) (by simp [Tree.leaves, hm])) h3
      simp only [Tree.depth]
      omega

/-- Every leaf of a pruning sits where the real tree has a node. -/
theorem pruning_nodeAt (S : List Bytes) (hS : NoCollisionOn X S) (T : Tree) (P : Tree) :
    ∀ g t, 0 < g → T.nodeAt g = some t → t.Chunked → P.Chunked → (∀ x ∈ t.hashed X, x ∈ S) →
      (∀ x ∈ P.hashed X, x ∈ S) → (∀ x ∈ P.hashed X, X.sha256 x ∉ t.leaves) → P.root X = t.root X →
      ∀ x v, (x, v) ∈ (P.leafIndices g).zip P.leaves → ∃ u, T.nodeAt x = some u ∧ u.root X = v := by
  induction P with
  | leaf c =>
    intro g t _ hn _ _ _ _ _ hr x v hm
    simp [Tree.leafIndices, Tree.leaves] at hm
    obtain ⟨rfl, rfl⟩ := hm
    exact ⟨t, hn, by rw [← hr]; rfl⟩
  | node l r ihl ihr =>
    intro g t hg hn hT hP hST hSP hl hr x v hm
    cases t with
    | leaf d =>
      refine absurd ?_ (hl (l.root X ++ r.root X) (by simp [Tree.hashed]))
      simp only [Tree.root] at hr
      simp [Tree.leaves, hr]
    | node a b =>
      have h1 := hS _ (hSP (l.root X ++ r.root X) (by simp [Tree.hashed])) _
        (hST (a.root X ++ b.root X) (by simp [Tree.hashed])) hr
      obtain ⟨h2, h3⟩ := append_inj_32 (Tree.root_length X hP.1) (Tree.root_length X hT.1) h1
      have na : T.nodeAt (2 * g) = some a := by rw [nodeAt_even T g hg, hn]
      have nb : T.nodeAt (2 * g + 1) = some b := by rw [nodeAt_odd T g hg, hn]
      simp only [Tree.leafIndices, Tree.leaves] at hm
      rw [List.zip_append (by rw [leaves_length l (2 * g)]), List.mem_append] at hm
      rcases hm with hm | hm
      · exact ihl (2 * g) a (by omega) na hT.1 hP.1 (fun x hx => hST x (by simp [Tree.hashed, hx]))
          (fun x hx => hSP x (by simp [Tree.hashed, hx]))
          (fun x hx hm => hl x (by simp [Tree.hashed, hx]) (by simp [Tree.leaves, hm])) h2 x v hm
      · exact ihr (2 * g + 1) b (by omega) nb hT.2 hP.2 (fun x hx => hST x (by simp [Tree.hashed, hx]))
          (fun x hx => hSP x (by simp [Tree.hashed, hx]))
          (fun x hx hm => hl x (by simp [Tree.hashed, hx]) (by simp [Tree.leaves, hm])) h3 x v hm

/-- **C27.** A verified proof is no deeper than the tree, if no leaf of the tree is the digest of a string
hashed in the proof. So for trees of less than 64 levels the `u64` indices are exact. -/
theorem C27_no_wrap (p : Multiproof) (T : Tree) (hT : T.Chunked) (hd : T.depth < 64)
    (hv : p.verify X (T.root X) = .ok ()) (hc : NoCollision X p T) (hl : NoPreimage X p T) : NoWrap p := by
  obtain ⟨_, l, r, he, hr⟩ := (C25_verify_ok_iff X p _).1 hv
  intro P hP
  rw [C25_tree_unique p P _ hP he]
  have := pruning X _ (hc _ he) T (.node l r) hT he.2.1 (fun x hx => List.mem_append_left _ hx)
    (fun x hx => List.mem_append_right _ hx) (hl _ he) hr.symm
  omega

/-- **C26, C27.** Under the same condition, every pair produced by `nodes()` is a node that exists in the real
tree, with its real value, and no index is reported twice. -/
theorem C26_nodes_exist (p : Multiproof) (T : Tree) (hT : T.Chunked) (hd : T.depth < 64)
    (hv : p.verify X (T.root X) = .ok ()) (hc : NoCollision X p T) (hl : NoPreimage X p T) :
    (p.nodes.map (·.1)).Nodup ∧ ∀ g v, (g, v) ∈ p.nodes → ∃ t, T.nodeAt g = some t ∧ t.root X = v := by
  have hw := C27_no_wrap X p T hT hd hv hc hl
  obtain ⟨_, l, r, he, hr⟩ := (C25_verify_ok_iff X p _).1 hv
  refine ⟨(C27_indices_unambiguous_partial p _ he (hw _ he)).1, ?_⟩
  intro g v hm
  rw [nodes_noWrap he (hw _ he)] at hm
  exact pruning_nodeAt X _ (hc _ he) T (.node l r) 1 T (by omega) (nodeAt_one T) hT he.2.1
    (fun x hx => List.mem_append_left _ hx) (fun x hx => List.mem_append_right _ hx) (hl _ he) hr.symm
    g v hm

/-- **C30.** The same for the third clause of C30: against the root of a real tree, no accepted proof, whatever request it was built
for, reports both a node and one of its descendants. Missing: trees of 64 or more levels (`hd`) and digests that collide or are leaves
(`hc`, `hl`). -/
theorem C30_overlapping_digests_partial (p : Multiproof) (T : Tree) (hT : T.Chunked) (hd : T.depth < 64)
    (hv : p.verify X (T.root X) = .ok ()) (hc : NoCollision X p T) (hl : NoPreimage X p T) (s t : Nat) (hst : Below s t) (hne : s ≠ t) :
    ¬ (s ∈ p.values.map (·.1) ∧ t ∈ p.values.map (·.1)) := fun h =>
  C30_overlapping_request_not_served_partial X p _ hv (C27_no_wrap X p T hT hd hv hc hl) s t hst hne h.1 h.2

/-! ## Depths of the real trees -/

theorem perfect_depth (d n : Nat) (f : Nat → Tree) (h : ∀ i, (f i).depth ≤ n) :
    (perfect d f).depth ≤ d + n := by
  induction d generalizing f with
  | zero => simpa [perfect] using h 0
  | succ d ih =>
    have h1 := ih f h
    have h2 := ih (fun i => f (2 ^ d + i)) (fun i => h _)
    simp only [perfect, Tree.depth]
    omega

theorem container_depth (d n : Nat) (fields : List Tree) (h : ∀ t ∈ fields, t.depth ≤ n) :
    (container d fields).depth ≤ d + n := by
  apply perfect_depth
  intro i
  rw [List.getD_eq_getElem?_getD]
  cases hi : fields[i]? with
  | none => simp [Tree.depth]
  | some t => exact h t (List.mem_of_getElem? hi)

theorem Spec.Header.tree_depth (h : Header) : h.tree.depth ≤ 3 := by
  apply container_depth 3 0
  intro t ht
  simp only [List.mem_cons, List.not_mem_nil, or_false] at ht
  rcases ht with rfl | rfl | rfl | rfl | rfl <;> exact Nat.le_refl _

theorem Spec.Validator.tree_depth (v : Validator) : v.tree.depth ≤ 4 := by
  apply container_depth 3 1
  intro t ht
  simp only [List.mem_cons, List.not_mem_nil, or_false] at ht
  rcases ht with rfl | rfl | rfl | rfl | rfl | rfl | rfl | rfl <;> simp [Tree.depth, Validator.pubkeyTree]

theorem registryTree_depth (vs : List Validator) : (registryTree vs).depth ≤ 45 := by
  have key : ∀ f : Nat → Tree, (∀ i, (f i).depth ≤ 4) →
      (Tree.node (perfect 40 f) (.leaf (u64Chunk vs.length))).depth ≤ 45 := by
    intro f hf
    have := perfect_depth 40 4 f hf
    simp only [Tree.depth]
    omega
  apply key
  intro i
  split
  · exact Spec.Validator.tree_depth _
  · exact Nat.zero_le _

theorem Spec.BeaconState.tree_depth (s : BeaconState) (n : Nat) (hn : 45 ≤ n)
    (h : ∀ name, (s.other name).depth ≤ n) : s.tree.depth ≤ 6 + n := by
  apply container_depth
  intro t ht
  obtain ⟨name, -, rfl⟩ := List.mem_map.1 ht
  unfold BeaconState.field
  have hc : ∀ d (l : List Tree), d ≤ 2 → (∀ t ∈ l, t.depth = 0) → (container d l).depth ≤ n := by
    intro d l hd hl
    have := container_depth d 0 l (fun t ht => by rw [hl t ht])
    omega
  split
  · exact Nat.zero_le _
  split
  · exact Nat.zero_le _
  split
  · apply hc _ _ (by omega)
    intro t ht
    simp only [List.mem_cons, List.not_mem_nil, or_false] at ht
    rcases ht with rfl | rfl | rfl <;> rfl
  split
  · exact Nat.le_trans (registryTree_depth _) hn
  split
  · apply hc _ _ (by omega)
    intro t ht
    simp only [List.mem_cons, List.not_mem_nil, or_false] at ht
    rcases ht with rfl | rfl <;> rfl
  split
  · exact Nat.zero_le _
  split
  · exact Nat.zero_le _
  · exact h _

/-! ## End to end -/

/-- For an accepted input the condition on digests gives the condition on depths. -/
theorem Spec.RealChainDigests.realChain {X : Ext} {spec : ChainSpec} {input : GuestInput} {hdr : Header}
    {st : BeaconState} (h : RealChainDigests X spec input hdr st) {r : GuestReader}
    (hr : input.intoReader X spec = .ok r) : RealChain X spec input hdr st := by
  obtain ⟨sr, info, vs0, h1, h2, h3, h4, h5, -⟩ := intoReader_eq_ok hr
  rw [← h.block_root] at h1
  have hct := Spec.Header.tree_chunked h.header_wf
  have hcs := Spec.BeaconState.tree_chunked h.state_wf
  have w1 := C27_no_wrap X _ _ hct (by have := Spec.Header.tree_depth hdr; omega) h1 h.no_collision.1
    h.no_preimage.1
  have e1 := C33_block_partial X _ _ h.header_wf _ h1 h2 h.no_collision.1 w1
  rw [e1, ← h.state_root] at h3
  have w2 := C27_no_wrap X _ _ hcs (by
    have := Spec.BeaconState.tree_depth st 57 (by omega) h.shallow; omega) h3 h.no_collision.2.1
    h.no_preimage.2.1
  have e2 := (C33_state_partial X _ _ h.state_wf _ h3 h4 h.no_collision.2.1 w2).2.2.2.1
  rw [e2] at h5
  have w3 := C27_no_wrap X _ _ (registryTree_chunked h.state_wf.validators) (by
    have := registryTree_depth st.validators; omega) h5 h.no_collision.2.2 h.no_preimage.2.2
  exact ⟨h.header_wf, h.state_wf, h.block_root, h.state_root, h.finalized_past, h.no_collision, w1, w2, w3⟩

/-- **C40.** End-to-end soundness with conditions on digests only. -/
theorem C40_digests_partial {ε : Type} (X : Ext) (spec : ChainSpec) (cfg : Config) (input : GuestInput)
    (out : Bytes) (h : (guestEntry X spec cfg input : Res ε Bytes) = .ok out)
    (hdr : Header) (st : BeaconState) (hreal : RealChainDigests X spec input hdr st)
    (hepoch : input.consensusState.finalized.epoch ≠ 0)
    (hlook : cfg.epochLookaheadLimit ≤ spec.maxSeedLookahead) :
    ∃ post slot links, out = Abi.encodeJournal input.consensusState post slot ∧
      Blocks input.attestations links ∧ Run input.consensusState links post ∧
      post.finalized ≠ input.consensusState.finalized ∧
      ∀ link ∈ links, Supermajority X cfg spec st.genesisValidatorsRoot
        (registryOf spec st input.consensusState) link input.attestations := by
  obtain ⟨r, -, -, hr, -⟩ := guestEntry_eq_ok h
  exact C40_end_to_end_partial X spec cfg input out h hdr st (hreal.realChain hr) hepoch hlook

/-! ## The hypotheses can be met -/

theorem perfect_leaves (d : Nat) (f : Nat → Tree) : ∀ x ∈ (perfect d f).leaves, ∃ i, x ∈ (f i).leaves := by
  induction d generalizing f with
  | zero => intro x hx; exact ⟨0, hx⟩
  | succ d ih =>
    intro x hx
    simp only [perfect, Tree.leaves, List.mem_append] at hx
    rcases hx with hx | hx
    · exact ih f x hx
    · obtain ⟨i, hi⟩ := ih _ x hx; exact ⟨_, hi⟩

theorem spine_leaves (d k : Nat) (f : Nat → Tree) (hf : ∀ i, 2 ^ d ≤ i → f i = .leaf zeroRoot) :
    ∀ x ∈ (perfect (d + k) f).leaves, x ∈ (perfect d f).leaves ∨ x = zeroRoot := by
  induction k with
  | zero => intro x hx; exact Or.inl hx
  | succ k ih =>
    intro x hx
    rw [← Nat.add_assoc] at hx
    simp only [perfect, Tree.leaves, List.mem_append] at hx
    rcases hx with hx | hx
    · exact ih x hx
    · obtain ⟨i, hi⟩ := perfect_leaves _ _ x hx
      have : 2 ^ d ≤ 2 ^ (d + k) := Nat.pow_le_pow_right (by omega) (by omega)
      rw [hf _ (by omega)] at hi
      simp only [Tree.leaves, List.mem_singleton] at hi
      exact Or.inr hi

/-- A list with all the leaves of the example registry. -/
def gxRegLeaves : List Bytes := zeroRoot :: u64Chunk 11 :: (perfect 4 gxElem).leaves

theorem gxReg_leaves : ∀ x ∈ (registryTree gxVs).leaves, x ∈ gxRegLeaves := by
  rw [gxReg_eq]
  intro x hx
  unfold gxRegLeaves
  simp only [Tree.leaves, List.mem_append, List.mem_singleton] at hx
  rcases hx with hx | hx
  · rcases spine_leaves 4 36 gxElem gxElem_zero x hx with h | h
    · exact List.mem_cons_of_mem _ (List.mem_cons_of_mem _ h)
    · exact h ▸ List.mem_cons_self
  · exact hx ▸ List.mem_cons_of_mem _ List.mem_cons_self

/-- A list with all the leaves of the example state. -/
def gxStateLeaves : List Bytes :=
  gxRegLeaves ++ electraFields.flatMap (fun n => if n = "validators" then [] else (gxState.field n).leaves)

theorem gxState_leaves : ∀ x ∈ gxState.tree.leaves, x ∈ gxStateLeaves := by
  intro x hx
  rw [gxState_tree] at hx
  obtain ⟨i, hi⟩ := perfect_leaves _ _ x hx
  simp only [List.getD_eq_getElem?_getD, List.getElem?_map] at hi
  unfold gxStateLeaves
  rw [List.mem_append]
  cases hn : electraFields[i]? with
  | none =>
    rw [hn] at hi
    left
    have hz : x = zeroRoot := List.mem_singleton.1 hi
    exact hz ▸ List.mem_cons_self
  | some n =>
    rw [hn] at hi
    simp only [Option.map_some, Option.getD_some] at hi
    by_cases hv : n = "validators"
    · subst hv; exact Or.inl (gxReg_leaves x hi)
    · exact Or.inr (List.mem_flatMap.2 ⟨n, List.mem_of_getElem? hn, by rw [if_neg hv]; exact hi⟩)

theorem proofOf_noPreimage {X : Ext} {P T : Tree} (h : P.Chunked) (w : List Nat) (L : List Bytes)
    (hT : ∀ x ∈ T.leaves, x ∈ L) (hL : ∀ x ∈ P.hashed X, X.sha256 x ∉ L) : NoPreimage X (proofOf P w) T := by
  intro Q hQ
  rw [C25_tree_unique _ _ _ hQ (proofOf_encodes h w)]
  exact fun x hx hm => hL x hx (hT _ hm)

set_option maxRecDepth 100000

theorem gxReg_digests : ∀ x ∈ gxRegP.hashed exExt, exExt.sha256 x ∉ gxRegLeaves := by decide +kernel
theorem gxState_digests : ∀ x ∈ gxStateP.hashed exExt, exExt.sha256 x ∉ gxStateLeaves := by decide +kernel
theorem gxHdr_digests : ∀ x ∈ gxHdr.tree.hashed exExt, exExt.sha256 x ∉ gxHdr.tree.leaves := by decide +kernel

theorem gxReg_noPreimage : NoPreimage exExt gxRegProof (registryTree gxVs) :=
  proofOf_noPreimage gxRegP_chunked _ _ gxReg_leaves gxReg_digests

theorem gxState_noPreimage : NoPreimage exExt (proofOf gxStateP gxStateWanted) gxState.tree :=
  proofOf_noPreimage gxStateP_chunked _ _ gxState_leaves gxState_digests

theorem gxHdr_noPreimage : NoPreimage exExt (proofOf gxHdr.tree [11]) gxHdr.tree :=
  proofOf_noPreimage gxHdr_chunked _ _ (fun _ h => h) gxHdr_digests

/-- The hypotheses of `C27_no_wrap` and `C26_nodes_exist`, for a real tree of 45 levels. -/
example : (registryTree gxVs).Chunked ∧ (registryTree gxVs).depth < 64 ∧
    gxRegProof.verify exExt ((registryTree gxVs).root exExt) = .ok () ∧
    NoCollision exExt gxRegProof (registryTree gxVs) ∧ NoPreimage exExt gxRegProof (registryTree gxVs) :=
  ⟨registryTree_chunked gxVs_wf, Nat.lt_of_le_of_lt (registryTree_depth gxVs) (by omega), gxReg_verify,
    gxReg_noCollision, gxReg_noPreimage⟩

/-- The hypothesis of `C40_digests_partial`; the others are met as shown beside `C40_end_to_end_partial`. -/
example : RealChainDigests exExt exSpec gxInput gxHdr gxState where
  header_wf := gxHdr_wf
  state_wf := gxState_wf
  block_root := rfl
  state_root := gxState_root
  finalized_past := by decide
  shallow := fun _ => Nat.zero_le _
  no_collision := ⟨gxHdr_noCollision, gxState_noCollision, gxReg_noCollision⟩
  no_preimage := ⟨gxHdr_noPreimage, gxState_noPreimage, gxReg_noPreimage⟩

end Signal
