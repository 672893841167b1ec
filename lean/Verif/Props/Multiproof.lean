import Verif.Proofs.Forge
import Verif.Proofs.Example
import Mathlib.Tactic.Ring

/-!
# Properties C25, C26, C27, C31: multiproof verification

`Spec.Tree`, `Spec.Encodes`, `Spec.NoCollision` and `Spec.NoWrap` are in `Verif/Spec/Merkle.lean`.
-/

namespace Signal
open Spec

variable (X : Ext)

/-! ## C25 -/

/-- **C25.** `calculate_root` returns a root exactly when the descriptor is the preorder shape of one
full binary tree with at least one inner node and the data starts with a 32-byte chunk for each leaf
(and the stack hint can be allocated); the root is then the Merkle root of that tree. -/
theorem C25_root_ok_iff (p : Multiproof) (b : Bytes) :
    p.calculateRoot X = .ok b ↔
      p.maxStackDepth ≤ X.stackCapacity ∧
        ∃ l r, Encodes p (.node l r) ∧ b = (Tree.node l r).root X := by
  constructor
  · intro h; exact ⟨calculateRoot_hint X h, calculateRoot_sound X h⟩
  · rintro ⟨hh, l, r, he, rfl⟩; exact calculateRoot_encodes X he hh

/-- The shape bits and leaf list determine the tree. -/
theorem preorder_leaves_inj (P : Tree) : ∀ (Q : Tree) (d d' : List Bool) (e e' : Bytes),
    P.Chunked → Q.Chunked → P.preorder ++ d = Q.preorder ++ d' →
    P.leaves.flatten ++ e = Q.leaves.flatten ++ e' → P = Q ∧ d = d' ∧ e = e' := by
  induction P with
  | leaf c =>
    intro Q d d' e e' hP hQ h1 h2
    cases Q with
    | leaf c' =>
      simp [Tree.preorder] at h1
      simp [Tree.leaves] at h2
      obtain ⟨rfl, rfl⟩ := append_inj_32 hP hQ h2
      exact ⟨rfl, h1, rfl⟩
    | node a b => simp [Tree.preorder] at h1
  | node l r ihl ihr =>
    intro Q d d' e e' hP hQ h1 h2
    cases Q with
    | leaf c' => simp [Tree.preorder] at h1
    | node a b =>
      simp [Tree.preorder] at h1
      simp [Tree.leaves] at h2
      obtain ⟨rfl, h3, h4⟩ := ihl a _ _ _ _ hP.1 hQ.1 h1 h2
      obtain ⟨rfl, h5, h6⟩ := ihr b _ _ _ _ hP.2 hQ.2 h3 h4
      exact ⟨rfl, h5, h6⟩

/-- **C25.** A proof encodes at most one tree, so it proves one root only and its shape is not
ambiguous. -/
theorem C25_tree_unique (p : Multiproof) (P Q : Tree) (hP : Encodes p P) (hQ : Encodes p Q) :
    P = Q := by
  obtain ⟨a, b, e, c⟩ := hP
  obtain ⟨a', b', e', c'⟩ := hQ
  exact (preorder_leaves_inj P Q [] [] e e' b b' (by rw [List.append_nil, List.append_nil, ← a, ← a'])
    (by rw [← c, ← c'])).1

/-- **C25.** `verify` succeeds exactly for the root of the encoded tree. -/
theorem C25_verify_ok_iff (p : Multiproof) (root : Root) :
    p.verify X root = .ok () ↔
      p.maxStackDepth ≤ X.stackCapacity ∧
        ∃ l r, Encodes p (.node l r) ∧ root = (Tree.node l r).root X := by
  unfold Multiproof.verify
  rw [Res.bind_eq_ok]
  constructor
  · rintro ⟨a, h1, h2⟩
    split at h2
    · rename_i h; subst h; exact (C25_root_ok_iff X p a).1 h1
    · cases h2
  · intro h
    exact ⟨root, (C25_root_ok_iff X p root).2 h, by simp⟩

/-- **C25.** The outcome of `calculate_root` on a single-leaf proof is an error: a proof of the root by
itself is never accepted. -/
theorem C25_single_leaf_rejected (p : Multiproof) (c : Bytes) (h : Encodes p (.leaf c)) (root : Root) :
    p.verify X root ≠ .ok () := by
  intro hv
  obtain ⟨_, l, r, h', _⟩ := (C25_verify_ok_iff X p root).1 hv
  cases C25_tree_unique p _ _ h h'

/-! ## C26 -/

/-- What **C26** says about one list of reported nodes: each is the node of `T` at that index. -/
def ReportsTrue (T : Tree) (ns : List (Nat × Bytes)) : Prop :=
  ∀ g v, (g, v) ∈ ns → ∀ t, T.nodeAt g = some t → t.root X = v

/-- **C26.** If a multiproof verifies against the root of a tree, then every `(gindex, value)` pair
produced by `nodes()` is the node of that tree at that generalized index, provided SHA-256 has no
collision among the strings hashed in the tree and in the proof, and the proof is less than 64 levels
deep. The last hypothesis is not checked by the code: see `C27_forged_value`. -/
theorem C26_nodes_sound_partial (p : Multiproof) (T : Tree) (hT : T.Chunked)
    (hv : p.verify X (T.root X) = .ok ()) (hc : NoCollision X p T) (hw : NoWrap p) :
    ReportsTrue X T p.nodes := by
  obtain ⟨_, l, r, he, hr⟩ := (C25_verify_ok_iff X p _).1 hv
  intro g v hm t ht
  rw [nodes_noWrap he (hw _ he)] at hm
  exact leaf_sound X T (T.hashed X ++ (Tree.node l r).hashed X) (hc _ he) (.node l r) 1 T
    (by omega) (nodeAt_one T) hT he.2.1 (by intro x hx; simp [hx])
    (by intro x hx; exact List.mem_append_right _ hx) hr.symm g v hm t ht

/-- **C26** for `values()` and for `get`. -/
theorem C26_values_sound_partial (p : Multiproof) (T : Tree) (hT : T.Chunked)
    (hv : p.verify X (T.root X) = .ok ()) (hc : NoCollision X p T) (hw : NoWrap p) :
    ReportsTrue X T p.values ∧
      ∀ g v, p.get g = some v → ∀ t, T.nodeAt g = some t → t.root X = v := by
  have h := C26_nodes_sound_partial X p T hT hv hc hw
  exact ⟨fun g v hm => h g v (values_subset hm), fun g v hg => h g v (values_subset (get_mem hg))⟩

/-! ## C27 -/

theorem leafIndices_bounds (P : Tree) : ∀ g, ∀ x ∈ P.leafIndices g,
    ∃ k, g * 2 ^ k ≤ x ∧ x < (g + 1) * 2 ^ k := by
  induction P with
  | leaf c => intro g x hx; simp [Tree.leafIndices] at hx; exact ⟨0, by simp [hx]⟩
  | node l r ihl ihr =>
    intro g x hx
    simp only [Tree.leafIndices, List.mem_append] at hx
    rcases hx with hx | hx
    · obtain ⟨k, h1, h2⟩ := ihl _ x hx
      refine ⟨k + 1, ?_, ?_⟩
      · rw [Nat.pow_succ, Nat.mul_comm (2 ^ k), ← Nat.mul_assoc, Nat.mul_comm g]; exact h1
      · have : (2 * g + 1) * 2 ^ k ≤ (g + 1) * 2 ^ (k + 1) := by
          rw [Nat.pow_succ, Nat.mul_comm (2 ^ k), ← Nat.mul_assoc]
          exact Nat.mul_le_mul_right _ (by omega)
        omega
    · obtain ⟨k, h1, h2⟩ := ihr _ x hx
      refine ⟨k + 1, ?_, ?_⟩
      · have : g * 2 ^ (k + 1) ≤ (2 * g + 1) * 2 ^ k := by
          rw [Nat.pow_succ, Nat.mul_comm (2 ^ k), ← Nat.mul_assoc]
          exact Nat.mul_le_mul_right _ (by omega)
        omega
      · have : (2 * g + 1 + 1) * 2 ^ k = (g + 1) * 2 ^ (k + 1) := by
          rw [Nat.pow_succ, Nat.mul_comm (2 ^ k), ← Nat.mul_assoc]
          congr 1; omega
        omega

/-- Two indices below different siblings differ. -/
theorem below_disjoint {g j k x : Nat} (hg : 0 < g) (h1 : 2 * g * 2 ^ j ≤ x) (h2 : x < (2 * g + 1) * 2 ^ j)
    (h3 : (2 * g + 1) * 2 ^ k ≤ x) (h4 : x < (2 * g + 1 + 1) * 2 ^ k) : False := by
  have pj : 0 < 2 ^ j := Nat.pow_pos (by omega)
  have pk : 0 < 2 ^ k := Nat.pow_pos (by omega)
  rcases Nat.lt_trichotomy j k with h | h | h
  · obtain ⟨d, rfl⟩ : ∃ d, k = j + 1 + d := ⟨k - j - 1, by omega⟩
    have : (2 * g + 1) * 2 ^ j ≤ (2 * g + 1) * 2 ^ (j + 1 + d) :=
      Nat.mul_le_mul_left _ (Nat.pow_le_pow_right (by omega) (by omega))
    omega
  · subst h; omega
  · obtain ⟨d, rfl⟩ : ∃ d, j = k + 1 + d := ⟨j - k - 1, by omega⟩
    have e : 2 * g * 2 ^ (k + 1 + d) = (4 * g * 2 ^ d) * 2 ^ k := by
      rw [Nat.pow_add, Nat.pow_add]; ring_nf
    have : (2 * g + 1 + 1) * 2 ^ k ≤ 2 * g * 2 ^ (k + 1 + d) := by
      rw [e]
      apply Nat.mul_le_mul_right
      have : 1 ≤ 2 ^ d := Nat.pow_pos (by omega)
      have : 4 * g * 1 ≤ 4 * g * 2 ^ d := Nat.mul_le_mul_left _ this
      omega
    omega

theorem leafIndices_nodup (P : Tree) : ∀ g, 0 < g → (P.leafIndices g).Nodup := by
  induction P with
  | leaf c => intro g _; simp [Tree.leafIndices]
  | node l r ihl ihr =>
    intro g hg
    simp only [Tree.leafIndices]
    rw [List.nodup_append]
    refine ⟨ihl _ (by omega), ihr _ (by omega), ?_⟩
    intro a ha b hb hab
    subst hab
    obtain ⟨j, h1, h2⟩ := leafIndices_bounds l _ a ha
    obtain ⟨k, h3, h4⟩ := leafIndices_bounds r _ a hb
    exact below_disjoint hg h1 h2 h3 h4

/-- The leaf listed at position `i` sits at the index listed at position `i`. -/
theorem leafIndices_nodeAt (T P : Tree) : ∀ g, 0 < g → T.nodeAt g = some P →
    ∀ x v, (x, v) ∈ (P.leafIndices g).zip P.leaves → T.nodeAt x = some (.leaf v) := by
  induction P with
  | leaf c =>
    intro g hg h x v hm
    simp [Tree.leafIndices, Tree.leaves] at hm
    obtain ⟨rfl, rfl⟩ := hm; exact h
  | node l r ihl ihr =>
    intro g hg h x v hm
    simp only [Tree.leafIndices, Tree.leaves] at hm
    rw [List.zip_append (leaves_length l (2 * g)).symm, List.mem_append] at hm
    rcases hm with hm | hm
    · exact ihl _ (by omega) (by rw [nodeAt_even _ _ hg, h]) x v hm
    · exact ihr _ (by omega) (by rw [nodeAt_odd _ _ hg, h]) x v hm

/-- **C27**, the part that holds: for proofs less than 64 levels deep, distinct nodes are reported
under distinct generalized indices, and each node sits at its reported index in the tree the
proof encodes. -/
theorem C27_indices_unambiguous_partial (p : Multiproof) (P : Tree) (h : Encodes p P)
    (hd : P.depth < 64) :
    (p.nodes.map (·.1)).Nodup ∧ (p.values.map (·.1)).Nodup ∧
      ∀ g v, (g, v) ∈ p.nodes → P.nodeAt g = some (.leaf v) := by
  have h1 : (p.nodes.map (·.1)).Nodup := by
    rw [nodes_noWrap h hd, List.map_fst_zip (by rw [leaves_length P 1])]
    exact leafIndices_nodup P 1 (by omega)
  refine ⟨h1, h1.sublist ((values_sublist p).map _), ?_⟩
  intro g v hm
  rw [nodes_noWrap h hd] at hm
  exact leafIndices_nodeAt P P 1 (by omega) (nodeAt_one P) g v hm

/-- **C27** is false without the depth bound, for *every* hash function: for any value `v` and any
generalized index `g` there is a 32-byte string `c` such that, whenever `c` occurs as a node anywhere in a
tree (for instance as graffiti or as a chunk of calldata in a block), there is a proof which verifies
against the root of the tree and reports exactly the value `v` at index `g` — whatever the tree
holds there. The proof continues for 64 more levels below the node `c`, which makes the `u64` index wrap. -/
theorem C27_forged_value (v : Bytes) (hv : v.length = 32) (g : Nat) (hg : g < 2 ^ 64) :
    ∃ c : Bytes, c.length = 32 ∧ ∀ (T : Tree), T.Chunked → ∀ i t, T.nodeAt i = some t →
      t.root X = c → ∃ p : Multiproof, p.verify X (T.root X) = .ok () ∧ p.values = [(g, v)] := by
  obtain ⟨k, hk⟩ : ∃ k : Nat, k = 64 := ⟨64, rfl⟩
  rw [← hk] at hg
  have hb := bitPath_chunk k g
  refine ⟨(pathTree (.leaf v) (bitPath k g)).root X,
    Tree.root_length X (pathTree_chunked (S := .leaf v) hv hb), ?_⟩
  intro T hT i t hi ht
  obtain ⟨ps, p1, p2, p3⟩ := exists_path X T hT i t hi
  have hall : ∀ p ∈ ps ++ bitPath k g, p.2.length = 32 := by
    intro p hp; rw [List.mem_append] at hp
    exact hp.elim (p2 p) (hb p)
  have hlen := bitPath_length k g
  refine ⟨pathProof v (ps ++ bitPath k g), ?_, ?_⟩
  · unfold Multiproof.verify
    rw [pathProof_root X hv hall (by
      intro h; rw [List.append_eq_nil_iff] at h; rw [h.2] at hlen; simp at hlen; omega)]
    rw [pathTree_append, p3 _ ht.symm]
    simp
  · have hm : pathIndex 1 (ps ++ bitPath k g) % U64 = g := by
      rw [pathIndex_append, p1, pathIndex_eq, hlen, bitPath_index k g hg]
      subst hk
      omega
    rw [pathProof_values hv hall, hm]

/-! ## C31 -/

/-- **C31.** The untrusted stack-depth hint influences nothing but memory allocation: with any two
hints that can be allocated the computed root, hence verification, is the same, and the reported nodes and
values never depend on it. Missing: hints that cannot be allocated, which abort (`C31_large_hint_aborts`). -/
theorem C31_hint_irrelevant_partial (p : Multiproof) (h : Nat) :
    (p.maxStackDepth ≤ X.stackCapacity → h ≤ X.stackCapacity →
      ({ p with maxStackDepth := h }.calculateRoot X = p.calculateRoot X ∧
        ∀ root, { p with maxStackDepth := h }.verify X root = p.verify X root)) ∧
    { p with maxStackDepth := h }.nodes = p.nodes ∧
    { p with maxStackDepth := h }.values = p.values ∧
    ∀ g, { p with maxStackDepth := h }.get g = p.get g := by
  refine ⟨?_, rfl, rfl, fun _ => rfl⟩
  intro h1 h2
  have e : { p with maxStackDepth := h }.calculateRoot X = p.calculateRoot X := by
    unfold Multiproof.calculateRoot calculateCompactMultiMerkleRoot
    simp [assert, h1, h2]
  exact ⟨e, fun root => by unfold Multiproof.verify; rw [e]⟩

/-- **C31.** A hint that cannot be allocated only aborts: it never turns a rejected proof into an accepted
one. -/
theorem C31_large_hint_aborts (p : Multiproof) (h : X.stackCapacity < p.maxStackDepth) (root : Root) :
    p.verify X root = .panic := by
  unfold Multiproof.verify Multiproof.calculateRoot calculateCompactMultiMerkleRoot
  have : ¬ p.maxStackDepth ≤ X.stackCapacity := by omega
  simp [assert, this]

/-! ## The hypotheses can be met -/

/-- A 32-byte chunk filled with one byte. -/
def exChunk (b : UInt8) : Bytes := List.replicate 32 b

/-- A tree with three leaves. -/
def exTree : Tree := .node (.node (.leaf (exChunk 1)) (.leaf (exChunk 2))) (.leaf (exChunk 3))

/-- A proof of its leaf at index 5. -/
def exProof : Multiproof :=
  { data := exChunk 1 ++ exChunk 2 ++ exChunk 3, valueMask := [false, true, false],
    descriptor := [false, false, true, true, true], maxStackDepth := 3 }

theorem exProof_encodes : Encodes exProof exTree := by
  refine ⟨rfl, ?_, [], ?_⟩
  · simp [exTree, Tree.Chunked, exChunk]
  · simp [exProof, exTree, Tree.leaves]

theorem exProof_verifies : exProof.verify exExt (exTree.root exExt) = .ok () :=
  (C25_verify_ok_iff _ _ _).2 ⟨by decide, _, _, exProof_encodes, rfl⟩

/-- Hypotheses of C25 and C31 (a proof that does yield a root). -/
example : exProof.calculateRoot exExt = .ok (exTree.root exExt) ∧
    exProof.maxStackDepth ≤ exExt.stackCapacity :=
  ⟨(C25_root_ok_iff _ _ _).2 ⟨by decide, _, _, exProof_encodes, rfl⟩, by decide⟩

set_option maxRecDepth 10000 in
/-- Hypotheses of C26 and C27, and a non-trivial conclusion. -/
example : exTree.Chunked ∧ exProof.verify exExt (exTree.root exExt) = .ok () ∧
    NoCollision exExt exProof exTree ∧ NoWrap exProof ∧ exProof.values = [(5, exChunk 2)] ∧
    exTree.nodeAt 5 = some (.leaf (exChunk 2)) := by
  refine ⟨exProof_encodes.2.1, exProof_verifies, ?_, ?_, ?_, ?_⟩
  · intro P hP
    cases C25_tree_unique _ _ _ hP exProof_encodes
    unfold NoCollisionOn
    decide
  · intro P hP
    cases C25_tree_unique _ _ _ hP exProof_encodes
    decide
  · unfold Multiproof.values
    rw [nodes_noWrap exProof_encodes (by decide)]
    decide
  · simp [exTree, Tree.nodeAt]

/-- Hypotheses of `C27_forged_value`: with the forged value all ones at index 4, the string `c` it provides
can be put into a tree that holds something else at index 4. -/
example : ∃ (T : Tree) (p : Multiproof), T.Chunked ∧ p.verify exExt (T.root exExt) = .ok () ∧
    p.values = [(4, exChunk 255)] ∧ T.nodeAt 4 = some (.leaf (exChunk 1)) := by
  obtain ⟨c, h1, h2⟩ := C27_forged_value exExt (exChunk 255) (by simp [exChunk]) 4 (by omega)
  have hT : (Tree.node (.node (.leaf (exChunk 1)) (.leaf (exChunk 2))) (.leaf c)).Chunked :=
    ⟨⟨by simp [exChunk, Tree.Chunked], by simp [exChunk, Tree.Chunked]⟩, h1⟩
  obtain ⟨p, p1, p2⟩ := h2 _ hT 3 (.leaf c) (by simp [Tree.nodeAt]) rfl
  exact ⟨_, p, hT, p1, p2, by simp [Tree.nodeAt]⟩

end Signal
