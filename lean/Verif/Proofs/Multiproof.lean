import Verif.Spec.Merkle
import Mathlib.Data.List.Forall2

/-! Helper lemmas on multiproofs. -/

namespace Signal
open Spec

variable (X : Ext)

theorem Spec.Tree.root_length {t : Tree} (h : t.Chunked) : (t.root X).length = 32 := by
  cases t with
  | leaf c => exact h
  | node l r => exact X.sha256_length _

/-! ## Soundness of the stack machine -/

/-- Meaning of a stack node: a subtree already read, or an open inner node (`none`). -/
def Denotes : TreeNode → Option Tree → Prop
  | .internal, none => True
  | .leaf b, some (.leaf c) => b = c ∧ c.length = 32
  | .computed b, some (.node l r) => b = (Tree.node l r).root X ∧ l.Chunked ∧ r.Chunked
  | _, _ => False

def itemBits : Option Tree → List Bool
  | none => [false]
  | some t => t.preorder

def itemLeaves : Option Tree → List Bytes
  | none => []
  | some t => t.leaves

/-- Bits consumed for a stack (top first). -/
def itemsBits : List (Option Tree) → List Bool
  | [] => []
  | i :: is => itemsBits is ++ itemBits i

def itemsLeaves : List (Option Tree) → List Bytes
  | [] => []
  | i :: is => itemsLeaves is ++ itemLeaves i

theorem Denotes.value {n : TreeNode} {i : Option Tree} (h : Denotes X n i) {b : Bytes}
    (hb : n.value? = some b) : ∃ t, i = some t ∧ b = t.root X ∧ t.Chunked := by
  cases n with
  | internal => simp [TreeNode.value?] at hb
  | leaf c =>
    simp [TreeNode.value?] at hb; subst hb
    match i, h with
    | some (.leaf c'), h => exact ⟨_, rfl, h.1, h.2⟩
  | computed c =>
    simp [TreeNode.value?] at hb; subst hb
    match i, h with
    | some (.node l r), h => exact ⟨_, rfl, h.1, h.2⟩

theorem reduceStack_sound (st : List TreeNode) :
    ∀ items, List.Forall₂ (Denotes X) st items →
      ∃ items', List.Forall₂ (Denotes X) (reduceStack X st) items' ∧
        itemsBits items' = itemsBits items ∧ itemsLeaves items' = itemsLeaves items := by
  induction st using reduceStack.induct X with
  | case1 r l rest rv lv hl hr ih =>
    intro items h
    rw [reduceStack]
    simp only [hr, hl]
    match items, h with
    | i1 :: i2 :: i3 :: is, .cons h1 (.cons h2 (.cons h3 h4)) =>
      obtain ⟨t1, rfl, e1, c1⟩ := h1.value X hr
      obtain ⟨t2, rfl, e2, c2⟩ := h2.value X hl
      have hi3 : i3 = none := by
        match i3, h3 with
        | none, _ => rfl
      subst hi3
      obtain ⟨items', a, b, c⟩ := ih (some (.node t2 t1) :: is)
        (.cons ⟨by rw [e1, e2]; rfl, c2, c1⟩ h4)
      refine ⟨items', a, ?_, ?_⟩
      · rw [b]; simp [itemsBits, itemBits, Tree.preorder]
      · rw [c]; simp [itemsLeaves, itemLeaves, Tree.leaves]
  | case2 r l rest h1 =>
    intro items h
    rw [reduceStack]
    split
    · rename_i rv lv hr hl; exact absurd hl (h1 rv lv hr)
    · exact ⟨items, h, rfl, rfl⟩
  | case3 st hst =>
    intro items h
    rw [reduceStack]
    · exact ⟨items, h, rfl, rfl⟩
    · exact hst

theorem slice?_eq {data : Bytes} {i : Nat} {c : Bytes}
    (h : slice? data (i * 32) ((i + 1) * 32) = some c) :
    c.length = 32 ∧ (i + 1) * 32 ≤ data.length ∧ data.take (i * 32) ++ c = data.take ((i + 1) * 32) := by
  unfold slice? at h
  split at h
  · rename_i hc
    simp only [Option.some.injEq] at h
    refine ⟨?_, hc.2, ?_⟩
    · rw [← h]; simp; omega
    · rw [← h]
      have : (i + 1) * 32 = i * 32 + ((i + 1) * 32 - i * 32) := by omega
      conv => rhs; rw [this]
      rw [List.take_add]
  · cases h

theorem rootLoop_sound (data : Bytes) (d : List Bool) :
    ∀ st i items st', List.Forall₂ (Denotes X) st items → i * 32 ≤ data.length →
      (itemsLeaves items).flatten = data.take (i * 32) →
      rootLoop X data d st i = .ok st' →
      ∃ items' j, List.Forall₂ (Denotes X) st' items' ∧ j * 32 ≤ data.length ∧
        (itemsLeaves items').flatten = data.take (j * 32) ∧
        itemsBits items' = itemsBits items ++ d := by
  induction d with
  | nil =>
    intro st i items st' h hi hl hr
    simp [rootLoop] at hr; subst hr
    exact ⟨items, i, h, hi, hl, by simp⟩
  | cons b d ih =>
    intro st i items st' h hi hl hr
    cases b with
    | false =>
      simp only [rootLoop] at hr
      obtain ⟨items', j, a, b, c, e⟩ := ih (.internal :: st) i (none :: items) st'
        (.cons trivial h) hi (by simpa [itemsLeaves, itemLeaves] using hl) hr
      exact ⟨items', j, a, b, c, by rw [e]; simp [itemsBits, itemBits]⟩
    | true =>
      simp only [rootLoop, Res.bind_eq_ok, expect_eq_ok] at hr
      obtain ⟨c, hc, hr⟩ := hr
      obtain ⟨c1, c2, c3⟩ := slice?_eq hc
      have h1 : List.Forall₂ (Denotes X) (.leaf c :: st) (some (.leaf c) :: items) :=
        .cons ⟨rfl, c1⟩ h
      obtain ⟨items1, f1, b1, l1⟩ := reduceStack_sound X _ _ h1
      obtain ⟨items', j, a, b, e, g⟩ := ih _ (i + 1) items1 st' f1 c2
        (by rw [l1]; simp [itemsLeaves, itemLeaves, Tree.leaves, hl, c3]) hr
      exact ⟨items', j, a, b, e, by rw [g, b1]; simp [itemsBits, itemBits, Tree.preorder]⟩

/-- A computed root comes from a tree with at least one inner node which the proof encodes. -/
theorem calculateRoot_sound {p : Multiproof} {b : Bytes} (h : p.calculateRoot X = .ok b) :
    ∃ l r, Encodes p (.node l r) ∧ b = (Tree.node l r).root X := by
  unfold Multiproof.calculateRoot calculateCompactMultiMerkleRoot at h
  simp only [Res.bind_eq_ok, assert_eq_ok, exists_and_left, exists_const] at h
  obtain ⟨_, st, hst, h⟩ := h
  obtain ⟨items, j, h1, h2, h3, h4⟩ := rootLoop_sound X p.data p.descriptor [] 0 [] st .nil
    (by simp) (by simp [itemsLeaves]) hst
  split at h <;> try contradiction
  simp only [Res.ok.injEq] at h
  match items, h1 with
  | [some (.node l r)], .cons hd .nil =>
    refine ⟨l, r, ⟨?_, hd.2, p.data.drop (j * 32), ?_⟩, ?_⟩
    · simpa [itemsBits, itemBits] using h4.symm
    · simp [itemsLeaves, itemLeaves] at h3
      rw [h3, List.take_append_drop]
    · rw [← h, hd.1]

theorem calculateRoot_hint {p : Multiproof} {b : Bytes} (h : p.calculateRoot X = .ok b) :
    p.maxStackDepth ≤ X.stackCapacity := by
  unfold Multiproof.calculateRoot calculateCompactMultiMerkleRoot at h
  simp only [Res.bind_eq_ok, assert_eq_ok, exists_and_left, exists_const] at h
  simpa using h.1

/-! ## The other direction: running the machine on an encoding -/

/-- Stack node for a subtree. -/
def treeNode : Tree → TreeNode
  | .leaf c => .leaf c
  | .node l r => .computed ((Tree.node l r).root X)

theorem treeNode_value (t : Tree) : (treeNode X t).value? = some (t.root X) := by
  cases t <;> rfl

theorem reduceStack_open (t : Tree) (st : List TreeNode) :
    reduceStack X (treeNode X t :: .internal :: st) = treeNode X t :: .internal :: st := by
  match st with
  | [] => rw [reduceStack]; intros; simp_all
  | n :: st =>
    by_cases h : n = .internal
    · subst h; rw [reduceStack]; simp [TreeNode.value?]
    · rw [reduceStack]; intros; simp_all

theorem reduceStack_pair (l r : Tree) (st : List TreeNode) :
    reduceStack X (treeNode X r :: treeNode X l :: .internal :: st) =
      reduceStack X (treeNode X (.node l r) :: st) := by
  rw [reduceStack, treeNode_value, treeNode_value]
  rfl

theorem slice?_leaf {data : Bytes} {i : Nat} {c rest : Bytes} (hc : c.length = 32)
    (hd : data.drop (i * 32) = c ++ rest) : slice? data (i * 32) ((i + 1) * 32) = some c := by
  have hl := congrArg List.length hd
  simp only [List.length_drop, List.length_append, hc] at hl
  unfold slice?
  rw [if_pos ⟨by omega, by omega⟩, hd]
  have : (i + 1) * 32 - i * 32 = c.length := by omega
  rw [this, List.take_left]

theorem rootLoop_tree (data : Bytes) (P : Tree) :
    ∀ (d : List Bool) (st : List TreeNode) (i : Nat) (rest : Bytes), P.Chunked →
      data.drop (i * 32) = P.leaves.flatten ++ rest →
      rootLoop X data (P.preorder ++ d) st i =
        rootLoop X data d (reduceStack X (treeNode X P :: st)) (i + P.leaves.length) := by
  induction P with
  | leaf c =>
    intro d st i rest hc hd
    simp only [Tree.preorder, Tree.leaves, List.flatten_cons, List.flatten_nil,
      List.append_nil] at hd ⊢
    simp only [List.cons_append, List.nil_append, rootLoop, slice?_leaf hc hd, expect, Res.ok_bind]
    rfl
  | node l r ihl ihr =>
    intro d st i rest hc hd
    simp only [Tree.leaves, List.flatten_append, List.append_assoc] at hd
    have hlen : ∀ t : Tree, t.Chunked → t.leaves.flatten.length = t.leaves.length * 32 := by
      intro t
      induction t with
      | leaf c => intro h; simp only [Tree.leaves, List.flatten_cons, List.flatten_nil, List.append_nil]; exact h
      | node a b iha ihb =>
        intro h; simp only [Tree.leaves, List.flatten_append, List.length_append,
          iha h.1, ihb h.2]; omega
    have hd2 : data.drop ((i + l.leaves.length) * 32) = r.leaves.flatten ++ rest := by
      rw [Nat.add_mul, ← List.drop_drop, hd, ← hlen l hc.1, List.drop_left]
    simp only [Tree.preorder, List.cons_append, List.append_assoc, rootLoop]
    rw [ihl _ _ _ _ hc.1 hd, reduceStack_open, ihr _ _ _ _ hc.2 hd2, reduceStack_pair]
    simp [Tree.leaves, Nat.add_assoc]

theorem calculateRoot_encodes {p : Multiproof} {l r : Tree} (h : Encodes p (.node l r))
    (hh : p.maxStackDepth ≤ X.stackCapacity) :
    p.calculateRoot X = .ok ((Tree.node l r).root X) := by
  obtain ⟨h1, h2, extra, h3⟩ := h
  unfold Multiproof.calculateRoot calculateCompactMultiMerkleRoot
  have := rootLoop_tree X p.data (.node l r) [] [] 0 extra h2 (by simpa using h3)
  rw [List.append_nil] at this
  rw [h1, this]
  simp only [assert, hh, decide_true, if_true, Res.ok_bind, rootLoop]
  rw [reduceStack]
  · rfl
  · intros; simp_all

theorem calculateRoot_leaf {p : Multiproof} {c : Bytes} (h : Encodes p (.leaf c))
    (hh : p.maxStackDepth ≤ X.stackCapacity) :
    p.calculateRoot X = .err .unusedLeaves := by
  obtain ⟨h1, h2, extra, h3⟩ := h
  unfold Multiproof.calculateRoot calculateCompactMultiMerkleRoot
  have := rootLoop_tree X p.data (.leaf c) [] [] 0 extra h2 (by simpa using h3)
  rw [List.append_nil] at this
  rw [h1, this]
  simp only [assert, hh, decide_true, if_true, Res.ok_bind, rootLoop]
  rw [reduceStack]
  · rfl
  · intros; simp_all

/-! ## Generalized indices -/

theorem gindexIter_tree (P : Tree) : ∀ (d : List Bool) (cur s : Nat) (st : List Nat), cur < U64 →
    gindexIter (P.preorder ++ d) cur (s :: st) =
      (P.leafIndices cur).map (· % U64) ++ gindexIter d (wrapAdd (wrapMul s 2) 1) st := by
  have hmod : ∀ (P : Tree) (a b : Nat), a % U64 = b % U64 →
      (P.leafIndices a).map (· % U64) = (P.leafIndices b).map (· % U64) := by
    intro P
    induction P with
    | leaf c => intro a b h; simp [Tree.leafIndices, h]
    | node l r ihl ihr =>
      intro a b h
      simp only [Tree.leafIndices, List.map_append]
      rw [ihl (2 * a) (2 * b) (by omega), ihr (2 * a + 1) (2 * b + 1) (by omega)]
  induction P with
  | leaf c =>
    intro d cur s st hc
    simp [Tree.preorder, gindexIter, Tree.leafIndices, Nat.mod_eq_of_lt hc]
  | node l r ihl ihr =>
    intro d cur s st hc
    simp only [Tree.preorder, List.cons_append, List.append_assoc, gindexIter]
    rw [ihl _ _ _ _ (by unfold wrapMul; omega), ihr _ _ _ _ (by unfold wrapAdd; omega)]
    simp only [Tree.leafIndices, List.map_append, List.append_assoc]
    rw [hmod l (wrapMul cur 2) (2 * cur) (by unfold wrapMul; omega),
      hmod r (wrapAdd (wrapMul cur 2) 1) (2 * cur + 1) (by unfold wrapAdd wrapMul; omega)]

theorem leafIndices_lt (P : Tree) : ∀ g k, g < 2 ^ k → ∀ x ∈ P.leafIndices g, x < 2 ^ (k + P.depth) := by
  induction P with
  | leaf c => intro g k h x hx; simp [Tree.leafIndices] at hx; simp [Tree.depth]; omega
  | node l r ihl ihr =>
    intro g k h x hx
    simp only [Tree.leafIndices, List.mem_append] at hx
    have h1 : k + 1 + l.depth ≤ k + (1 + max l.depth r.depth) := by omega
    have h2 : k + 1 + r.depth ≤ k + (1 + max l.depth r.depth) := by omega
    have p1 := Nat.pow_le_pow_right (n := 2) (by omega) h1
    have p2 := Nat.pow_le_pow_right (n := 2) (by omega) h2
    have hk : 2 ^ (k + 1) = 2 * 2 ^ k := by rw [Nat.pow_succ]; omega
    simp only [Tree.depth]
    rcases hx with hx | hx
    · have := ihl (2 * g) (k + 1) (by omega) x hx; omega
    · have := ihr (2 * g + 1) (k + 1) (by omega) x hx; omega

theorem gindexIter_encodes {p : Multiproof} {P : Tree} (h : p.descriptor = P.preorder) :
    gindexIter p.descriptor 1 [1] = (P.leafIndices 1).map (· % U64) := by
  rw [h]
  have := gindexIter_tree P [] 1 1 [] (by omega)
  rw [List.append_nil] at this
  rw [this]; simp [gindexIter]

theorem gindexIter_noWrap {p : Multiproof} {P : Tree} (h : p.descriptor = P.preorder)
    (hd : P.depth < 64) : gindexIter p.descriptor 1 [1] = P.leafIndices 1 := by
  rw [gindexIter_encodes h]
  conv => rhs; rw [← List.map_id (P.leafIndices 1)]
  apply List.map_congr_left
  intro x hx
  have h1 := leafIndices_lt P 1 1 (by omega) x hx
  have h2 : 2 ^ (1 + P.depth) ≤ 2 ^ 64 := Nat.pow_le_pow_right (by omega) (by omega)
  exact Nat.mod_eq_of_lt (by omega)

theorem leaves_length (P : Tree) : ∀ g, P.leaves.length = (P.leafIndices g).length := by
  induction P with
  | leaf c => intro g; rfl
  | node l r ihl ihr => intro g; simp [Tree.leaves, Tree.leafIndices, ihl (2 * g), ihr (2 * g + 1)]

theorem chunksExact_append {c rest : Bytes} (h : c.length = 32) :
    chunksExact (c ++ rest) = c :: chunksExact rest := by
  rw [chunksExact, if_pos (by simp [h]), ← h, List.take_left, List.drop_left]

theorem chunksExact_leaves (P : Tree) (h : P.Chunked) (extra : Bytes) :
    chunksExact (P.leaves.flatten ++ extra) = P.leaves ++ chunksExact extra := by
  induction P generalizing extra with
  | leaf c => simpa [Tree.leaves] using chunksExact_append h
  | node l r ihl ihr =>
    simp only [Tree.leaves, List.flatten_append, List.append_assoc]
    rw [ihl h.1, ihr h.2]

/-- The nodes reported by a proof that encodes `P`. -/
theorem nodes_encodes {p : Multiproof} {P : Tree} (h : Encodes p P) :
    p.nodes = ((P.leafIndices 1).map (· % U64)).zip P.leaves := by
  obtain ⟨h1, h2, extra, h3⟩ := h
  unfold Multiproof.nodes
  rw [gindexIter_encodes h1, h3, chunksExact_leaves P h2]
  have hl : ((P.leafIndices 1).map (· % U64)).length = P.leaves.length := by
    rw [List.length_map, leaves_length P 1]
  conv => lhs; rw [← List.append_nil ((P.leafIndices 1).map (· % U64))]
  rw [List.zip_append hl]
  simp

theorem nodes_noWrap {p : Multiproof} {P : Tree} (h : Encodes p P) (hd : P.depth < 64) :
    p.nodes = (P.leafIndices 1).zip P.leaves := by
  rw [nodes_encodes h, ← gindexIter_encodes h.1, gindexIter_noWrap h.1 hd]

theorem values_subset {p : Multiproof} {x : Nat × Bytes} (h : x ∈ p.values) : x ∈ p.nodes := by
  unfold Multiproof.values at h
  simp only [List.mem_filterMap] at h
  obtain ⟨⟨n, b⟩, h1, h2⟩ := h
  have := (List.of_mem_zip h1).1
  cases b <;> simp at h2
  rw [← h2]; exact this

theorem values_sublist (p : Multiproof) : p.values.Sublist p.nodes := by
  unfold Multiproof.values
  generalize p.nodes = ns
  generalize p.valueMask = m
  induction ns generalizing m with
  | nil => simp
  | cons n ns ih =>
    cases m with
    | nil => simp
    | cons b m =>
      cases b
      · simpa using (ih m).cons n
      · simpa using (ih m).cons_cons n

theorem get_mem {p : Multiproof} {g : Nat} {v : Bytes} (h : p.get g = some v) :
    (g, v) ∈ p.values := by
  unfold Multiproof.get at h
  simp only [Option.map_eq_some_iff] at h
  obtain ⟨⟨g', v'⟩, h1, h2⟩ := h
  have hm := List.mem_of_find?_eq_some h1
  have hg := List.find?_some h1
  simp at hg h2
  subst hg; subst h2; exact hm

/-! ## Navigation -/

theorem nodeAt_one (t : Tree) : t.nodeAt 1 = some t := by rw [Tree.nodeAt]; simp

theorem nodeAt_child (t : Tree) (g : Nat) (b : Bool) (hg : 0 < g) :
    t.nodeAt (2 * g + b.toNat) =
      match t.nodeAt g with
      | some (.node l r) => some (if b then r else l)
      | _ => none := by
  rw [Tree.nodeAt, if_neg (by omega), if_neg (by omega)]
  have h1 : (2 * g + b.toNat) / 2 = g := by cases b <;> simp <;> omega
  have h2 : (2 * g + b.toNat) % 2 = b.toNat := by cases b <;> simp <;> omega
  rw [h1, h2]
  cases b <;> rfl

theorem nodeAt_even (t : Tree) (g : Nat) (hg : 0 < g) :
    t.nodeAt (2 * g) =
      match t.nodeAt g with
      | some (.node l _) => some l
      | _ => none := by
  simpa using nodeAt_child t g false hg

theorem nodeAt_odd (t : Tree) (g : Nat) (hg : 0 < g) :
    t.nodeAt (2 * g + 1) =
      match t.nodeAt g with
      | some (.node _ r) => some r
      | _ => none := by
  simpa using nodeAt_child t g true hg

/-- Below a missing node or a leaf there is nothing. -/
theorem nodeAt_leafIndices_none (T P : Tree) : ∀ g, 0 < g → T.nodeAt g = none →
    ∀ x ∈ P.leafIndices g, T.nodeAt x = none := by
  induction P with
  | leaf c => intro g _ h x hx; simp [Tree.leafIndices] at hx; subst hx; exact h
  | node l r ihl ihr =>
    intro g hg h x hx
    simp only [Tree.leafIndices, List.mem_append] at hx
    rcases hx with hx | hx
    · exact ihl (2 * g) (by omega) (by rw [nodeAt_even _ _ hg, h]) x hx
    · exact ihr (2 * g + 1) (by omega) (by rw [nodeAt_odd _ _ hg, h]) x hx

theorem chunked_nodeAt {T t : Tree} (hT : T.Chunked) : ∀ {g}, T.nodeAt g = some t → t.Chunked := by
  intro g
  induction g using Nat.strongRecOn generalizing t with
  | _ g ih =>
    intro h
    rw [Tree.nodeAt] at h
    split at h
    · cases h
    · split at h
      · cases h; exact hT
      · rename_i h0 h1
        split at h
        · rename_i l r hlr
          have := ih (g / 2) (by omega) hlr
          split at h <;> cases h
          · exact this.1
          · exact this.2
        · cases h

theorem append_inj_32 {a b c d : Bytes} (ha : a.length = 32) (hb : b.length = 32)
    (h : a ++ c = b ++ d) : a = b ∧ c = d := List.append_inj h (ha.trans hb.symm)

/-- Core of proof soundness: if subtree `P` of the proof at position `g` has the root of the real
subtree there, every leaf of `P` at a position that exists in the real tree has the real value. -/
theorem leaf_sound (T : Tree) (S : List Bytes) (hS : NoCollisionOn X S) (P : Tree) :
    ∀ g t, 0 < g → T.nodeAt g = some t → t.Chunked → P.Chunked →
      (∀ x ∈ t.hashed X, x ∈ S) → (∀ x ∈ P.hashed X, x ∈ S) → P.root X = t.root X →
      ∀ x v, (x, v) ∈ (P.leafIndices g).zip P.leaves → ∀ u, T.nodeAt x = some u → u.root X = v := by
  induction P with
  | leaf c =>
    intro g t hg hn ht hP hSt hSP hr x v hm u hu
    simp [Tree.leafIndices, Tree.leaves] at hm
    obtain ⟨rfl, rfl⟩ := hm
    rw [hn] at hu; cases hu; exact hr.symm
  | node l r ihl ihr =>
    intro g t hg hn ht hP hSt hSP hr x v hm u hu
    simp only [Tree.leafIndices, Tree.leaves] at hm
    rw [List.zip_append (leaves_length l (2 * g)).symm] at hm
    rw [List.mem_append] at hm
    cases t with
    | leaf c =>
      exfalso
      rcases hm with hm | hm
      · have := nodeAt_leafIndices_none T l (2 * g) (by omega) (by rw [nodeAt_even _ _ hg, hn]) x
          (List.of_mem_zip hm).1
        rw [this] at hu; cases hu
      · have := nodeAt_leafIndices_none T r (2 * g + 1) (by omega) (by rw [nodeAt_odd _ _ hg, hn]) x
          (List.of_mem_zip hm).1
        rw [this] at hu; cases hu
    | node tl tr =>
      have e1 : T.nodeAt (2 * g) = some tl := by rw [nodeAt_even _ _ hg, hn]
      have e2 : T.nodeAt (2 * g + 1) = some tr := by rw [nodeAt_odd _ _ hg, hn]
      have hin := hS (l.root X ++ r.root X) (hSP _ (by simp [Tree.hashed]))
        (tl.root X ++ tr.root X) (hSt _ (by simp [Tree.hashed])) hr
      obtain ⟨q1, q2⟩ := append_inj_32 (Tree.root_length X hP.1) (Tree.root_length X ht.1) hin
      rcases hm with hm | hm
      · exact ihl (2 * g) tl (by omega) e1 ht.1 hP.1
          (fun x hx => hSt x (by simp [Tree.hashed, hx]))
          (fun x hx => hSP x (by simp [Tree.hashed, hx])) q1 x v hm u hu
      · exact ihr (2 * g + 1) tr (by omega) e2 ht.2 hP.2
          (fun x hx => hSt x (by simp [Tree.hashed, hx]))
          (fun x hx => hSP x (by simp [Tree.hashed, hx])) q2 x v hm u hu

end Signal
