import Verif.Proofs.Builder

/-!
# Properties C28, C29, C30: the multiproof builder

The container is its SSZ Merkle tree `T`; `S` is the builder's `BTreeSet` of requested indices;
`order` is the iteration order of a `HashSet`, arbitrary. `Spec.GoodRequest`, `Spec.LeftOf` and
`Spec.Below` are in `Verif/Spec/Request.lean`.
-/

namespace Signal
open Spec

variable (X : Ext)

/-- **C28.** For any tree and any non-empty set of generalized indices that are present in the tree, none the
root and none above another, the builder succeeds and its proof verifies against the root of the tree. -/
theorem C28_built_proof_verifies (T : Tree) (hT : T.Chunked) (S : OSet) (hS : OSet.Sorted S)
    (h : GoodRequest T S) (order : List Nat → List Nat) (ho : ∀ l, (order l).Perm l)
    (hcap : 126 ≤ X.stackCapacity) :
    ∃ p, build X order S T = .ok p ∧ p.verify X (T.root X) = .ok () := by
  obtain ⟨m, hm, hb⟩ := build_eq X hT hS h order ho
  refine ⟨_, hb, ?_⟩
  obtain ⟨l, r, hlr⟩ := cut_is_node X h
  rw [C25_verify_ok_iff]
  refine ⟨by simp; omega, l, r, ⟨by simp [hlr], ?_, [], by simp [hlr]⟩, ?_⟩
  · rw [← hlr]; exact cut_chunked X S T hT 1
  · rw [← hlr, cut_root]

theorem select_map_map {α β : Type} (l : List α) (h : α → β) (f : α → Bool) :
    select (l.map h) (l.map f) = (l.filter f).map h := by
  induction l with
  | nil => rfl
  | cons a l ih =>
    unfold select at ih ⊢
    cases hf : f a <;> simp [hf, ih]

/-- **C29.** The values of a built proof are exactly the requested indices, each once, in depth-first
left-to-right order, each with the root of the subtree of `T` at that index; `get` finds exactly the
requested ones. -/
theorem C29_built_proof_values (T : Tree) (hT : T.Chunked) (S : OSet) (hS : OSet.Sorted S)
    (h : GoodRequest T S) (order : List Nat → List Nat) (ho : ∀ l, (order l).Perm l) (p : Multiproof)
    (hb : build X order S T = .ok p) :
    (p.values.map (·.1)).Perm S ∧
    (p.values.map (·.1)).Pairwise LeftOf ∧
    (∀ g v, (g, v) ∈ p.values → ∃ t, T.nodeAt g = some t ∧ t.root X = v) ∧
    (∀ g v, p.get g = some v ↔ g ∈ S ∧ ∃ t, T.nodeAt g = some t ∧ t.root X = v) := by
  obtain ⟨m, hm, hb'⟩ := build_eq X hT hS h order ho
  rw [hb] at hb'
  cases hb'
  have hd : (cut X S T 1).depth < 64 := by
    have := cut_depth X S T (fun s hs => (h.range s hs).2) 1 0 (by omega) (by omega) (by omega)
    omega
  -- the value at an index
  let val : Nat → Bytes := fun i => ((T.nodeAt i).map (·.root X)).getD []
  have hl : (cut X S T 1).leaves = ((cut X S T 1).leafIndices 1).map val := by
    have := congrArg (List.map (fun o : Option Bytes => o.getD []))
      (cut_leaves X S T T 1 (by omega) (nodeAt_one T))
    simpa [List.map_map, Function.comp_def, val] using this.symm
  have henc : Encodes (⟨(cut X S T 1).leaves.flatten,
      ((cut X S T 1).leafIndices 1).map (fun i => decide (i ∈ S)), (cut X S T 1).preorder, m⟩ :
      Multiproof) (cut X S T 1) := ⟨rfl, cut_chunked X S T hT 1, [], by simp⟩
  have hv : Multiproof.values ⟨(cut X S T 1).leaves.flatten,
      ((cut X S T 1).leafIndices 1).map (fun i => decide (i ∈ S)), (cut X S T 1).preorder, m⟩ =
      (((cut X S T 1).leafIndices 1).filter (fun i => decide (i ∈ S))).map (fun i => (i, val i)) := by
    rw [← select_map_map]
    unfold Multiproof.values
    rw [nodes_noWrap henc hd, hl]
    have : ∀ l : List Nat, l.zip (l.map val) = l.map (fun i => (i, val i)) := by
      intro l; induction l with
      | nil => rfl
      | cons a l ih => simp [ih]
    rw [this]; rfl
  have hfst : (Multiproof.values ⟨(cut X S T 1).leaves.flatten,
      ((cut X S T 1).leafIndices 1).map (fun i => decide (i ∈ S)), (cut X S T 1).preorder, m⟩).map
      (·.1) = ((cut X S T 1).leafIndices 1).filter (fun i => decide (i ∈ S)) := by
    rw [hv, List.map_map]
    conv => rhs; rw [← List.map_id (List.filter _ _)]
    rfl
  have hnd : (((cut X S T 1).leafIndices 1).filter (fun i => decide (i ∈ S))).Nodup :=
    (leafIndices_nodup _ 1 (by omega)).filter _
  have hmem : ∀ x, x ∈ ((cut X S T 1).leafIndices 1).filter (fun i => decide (i ∈ S)) ↔ x ∈ S := by
    intro x
    simp only [List.mem_filter, decide_eq_true_eq]
    exact ⟨fun h => h.2, fun hx => ⟨mem_cut_of_mem X h hx, hx⟩⟩
  have hval : ∀ g ∈ S, ∀ v, val g = v ↔ ∃ t, T.nodeAt g = some t ∧ t.root X = v := by
    intro g hg v
    have := h.present g hg
    obtain ⟨t, ht⟩ := Option.isSome_iff_exists.1 this
    simp [val, ht]
  refine ⟨?_, ?_, ?_, ?_⟩
  · rw [hfst, List.perm_ext_iff_of_nodup hnd (sorted_nodup hS)]
    exact hmem
  · rw [hfst]
    exact (leafIndices_leftOf _ 1 (by omega)).sublist List.filter_sublist
  · intro g v hg
    rw [hv] at hg
    simp only [List.mem_map, Prod.mk.injEq] at hg
    obtain ⟨i, hi, rfl, h2⟩ := hg
    exact (hval i ((hmem i).1 hi) v).1 h2
  · intro g v
    unfold Multiproof.get
    rw [hv, List.find?_map, Option.map_map]
    simp only [Function.comp_def, Option.map_eq_some_iff]
    constructor
    · rintro ⟨i, hi, h2⟩
      have hm := List.mem_of_find?_eq_some hi
      have hg := List.find?_some hi
      simp at hg; subst hg
      exact ⟨(hmem i).1 hm, (hval i ((hmem i).1 hm) v).1 h2⟩
    · rintro ⟨hg, h2⟩
      refine ⟨g, ?_, (hval g hg v).2 h2⟩
      obtain ⟨a, ha⟩ : ∃ a, List.find? (fun x => decide (x = g))
          (((cut X S T 1).leafIndices 1).filter (fun i => decide (i ∈ S))) = some a := by
        rw [← Option.isSome_iff_exists, List.find?_isSome]
        exact ⟨g, (hmem g).2 hg, by simp⟩
      have := List.find?_some ha
      simp at this; subst this; exact ha

/-- **C30.** Requesting nothing aborts the builder. -/
theorem C30_empty_request_aborts (T : Tree) (order : List Nat → List Nat)
    (ho : ∀ l, (order l).Perm l) : build X order [] T = .panic := by
  have : order [] = [] := (ho []).eq_nil
  simp [build, computeProofIndicesAndValueMask, this, mapRes, computeProofDescriptor,
    calculateMaxStackDepth, depthLoop, assert]

/-- **C30.** Requesting only the root gives a proof that every verification rejects. -/
theorem C30_root_request_rejected (T : Tree) (hT : T.Chunked) (order : List Nat → List Nat)
    (ho : ∀ l, (order l).Perm l) :
    ∃ p, build X order [1] T = .ok p ∧ ∀ root, p.verify X root ≠ .ok () := by
  have h1 : getBranchIndices 1 = [] := by
    unfold getBranchIndices; simp [sibling]; rw [branchLoop]; simp
  have h2 : getPathIndices 1 = [] := by unfold getPathIndices; rw [pathLoop]; simp
  have h3 : order [] = [] := (ho []).eq_nil
  have h4 : trailingZeros 1 = 0 := by rw [trailingZeros]; simp
  have h5 : depthReduce [true] 0 = ([true], 0) := by rw [depthReduce]; intros; simp_all
  have hb : build X order [1] T = .ok ⟨T.root X, [true], [true], 0⟩ := by
    simp [build, computeProofIndicesAndValueMask, h1, h2, h3, h4, h5, mapRes,
      computeProofDescriptor, calculateMaxStackDepth, depthLoop, assert, nodeAt_one, okOr]
  refine ⟨_, hb, fun root => ?_⟩
  exact C25_single_leaf_rejected X _ (T.root X)
    ⟨rfl, Tree.root_length X hT, [], by simp [Tree.leaves]⟩ root

/-- **C30.** No accepted proof (less than 64 levels deep) reports both a node and one of its
descendants, so a request for both is never served by an accepted proof. Missing: deeper proofs (`hw`). -/
theorem C30_overlapping_request_not_served_partial (p : Multiproof) (root : Root)
    (hv : p.verify X root = .ok ()) (hw : NoWrap p) (s t : Nat) (hst : Below s t) (hne : s ≠ t)
    (hs : s ∈ p.values.map (·.1)) (ht : t ∈ p.values.map (·.1)) : False := by
  obtain ⟨_, l, r, he, _⟩ := (C25_verify_ok_iff X p root).1 hv
  have hp := leafIndices_leftOf (.node l r) 1 (by omega)
  have hsub : (p.values.map (·.1)).Sublist ((Tree.node l r).leafIndices 1) := by
    have := (values_sublist p).map (fun x => x.1)
    rwa [nodes_noWrap he (hw _ he), List.map_fst_zip (by rw [leaves_length _ 1])] at this
  have hs' := hsub.subset hs
  have ht' := hsub.subset ht
  have hcase : LeftOf s t ∨ LeftOf t s := by
    by_contra hc
    have hall : ∀ l : List Nat, l.Pairwise LeftOf → s ∈ l → t ∈ l → LeftOf s t ∨ LeftOf t s := by
      intro l hl
      induction l with
      | nil => intro h; cases h
      | cons a l ih =>
        rw [List.pairwise_cons] at hl
        intro h1 h2
        rcases List.mem_cons.1 h1 with h3 | h3
        · rcases List.mem_cons.1 h2 with h4 | h4
          · exact absurd (h3.trans h4.symm) hne
          · exact .inl (h3 ▸ hl.1 t h4)
        · rcases List.mem_cons.1 h2 with h4 | h4
          · exact .inr (h4 ▸ hl.1 s h3)
          · exact ih hl.2 h3 h4
    exact hc (hall _ hp hs' ht')
  rcases hcase with ⟨g, hg, h1, h2⟩ | ⟨g, hg, h1, h2⟩
  · exact below_sibling hg h1 (hst.trans h2)
  · exact below_sibling hg (hst.trans h1) h2

/-! ## The hypotheses can be met -/

theorem exRequest_good : GoodRequest exTree [3, 5] where
  ne := by simp
  range := by intro s hs; simp at hs; omega
  present := by
    intro s hs
    simp only [List.mem_cons, List.not_mem_nil, or_false] at hs
    rcases hs with rfl | rfl <;> simp [exTree, Tree.nodeAt]
  antichain := by
    intro s hs t ht hb
    simp at hs ht
    have hn : ∀ k, (5 : Nat) / 2 ^ k ≠ 3 := by
      intro k
      rcases k with _ | _ | k
      · decide
      · decide
      · have : 4 ≤ 2 ^ (k + 1 + 1) := by
          have : 1 ≤ 2 ^ k := Nat.pow_pos (by omega)
          rw [Nat.pow_succ, Nat.pow_succ]; omega
        have : 5 / 2 ^ (k + 1 + 1) ≤ 5 / 4 := Nat.div_le_div_left this (by omega)
        omega
    rcases hs with rfl | rfl <;> rcases ht with rfl | rfl
    · rfl
    · have := hb.le; omega
    · obtain ⟨k, hk⟩ := hb; exact absurd hk (hn k)
    · rfl

/-- C28, C29 apply to a request for two nodes of a tree with three leaves. -/
example : ∃ p, build exExt id [3, 5] exTree = .ok p ∧ p.verify exExt (exTree.root exExt) = .ok () :=
  C28_built_proof_verifies exExt exTree exProof_encodes.2.1 [3, 5] (by decide) exRequest_good id
    (fun _ => .refl _) (by decide)

/-- C30: an ancestor and its descendant. -/
example : Below 5 2 ∧ (5 : Nat) ≠ 2 := ⟨⟨1, by decide⟩, by decide⟩

end Signal
