import Verif.Proofs.Multiproof
import Verif.Proofs.Bytes
import Verif.Proofs.Example
import Mathlib.Data.List.Perm.Subperm
import Mathlib.Data.List.Nodup

/-!
# For every tree there is a hash function without collisions on it

Assumptions on the hash function speak of the strings that are hashed in a tree. Here they are shown to be met by some hash function, for each
tree that is not absurdly deep.
-/

namespace Signal
open Spec

/-- All subtrees. -/
def Spec.Tree.subtrees : Tree → List Tree
  | .leaf c => [.leaf c]
  | .node l r => .node l r :: (l.subtrees ++ r.subtrees)

theorem subtrees_self (t : Tree) : t ∈ t.subtrees := by cases t <;> simp [Tree.subtrees]

theorem subtrees_trans : ∀ {t u v : Tree}, u ∈ t.subtrees → v ∈ u.subtrees → v ∈ t.subtrees := by
  intro t
  induction t with
  | leaf c =>
    intro u v hu hv
    simp only [Tree.subtrees, List.mem_singleton] at hu
    subst hu
    exact hv
  | node l r hl hr =>
    intro u v hu hv
    simp only [Tree.subtrees, List.mem_cons, List.mem_append] at hu ⊢
    rcases hu with rfl | hu | hu
    · simpa [Tree.subtrees] using hv
    · exact .inr (.inl (hl hu hv))
    · exact .inr (.inr (hr hu hv))

theorem subtrees_node {t l r : Tree} (h : .node l r ∈ t.subtrees) : l ∈ t.subtrees ∧ r ∈ t.subtrees :=
  ⟨subtrees_trans h (by simp [Tree.subtrees, subtrees_self]), subtrees_trans h (by simp [Tree.subtrees, subtrees_self])⟩

theorem subtrees_length (t : Tree) : t.subtrees.length < 2 ^ (t.depth + 1) := by
  induction t with
  | leaf c => simp [Tree.subtrees, Tree.depth]
  | node l r hl hr =>
    simp only [Tree.subtrees, Tree.depth, List.length_cons, List.length_append]
    have h1 : 2 ^ (l.depth + 1) ≤ 2 ^ (max l.depth r.depth + 1) := Nat.pow_le_pow_right (by decide) (by omega)
    have h2 : 2 ^ (r.depth + 1) ≤ 2 ^ (max l.depth r.depth + 1) := Nat.pow_le_pow_right (by decide) (by omega)
    rw [show 1 + max l.depth r.depth + 1 = (max l.depth r.depth + 1) + 1 by omega, Nat.pow_succ]
    omega

theorem leaves_le (t : Tree) : t.leaves.length ≤ t.subtrees.length := by
  induction t with
  | leaf c => simp [Tree.subtrees, Tree.leaves]
  | node l r hl hr => simp only [Tree.subtrees, Tree.leaves, List.length_cons, List.length_append]; omega

theorem leaf_mem {t : Tree} {c : Bytes} (h : .leaf c ∈ t.subtrees) : c ∈ t.leaves := by
  induction t with
  | leaf d => simp only [Tree.subtrees, List.mem_singleton, Tree.leaf.injEq] at h; simp [Tree.leaves, h]
  | node l r hl hr =>
    simp only [Tree.subtrees, List.mem_cons, List.mem_append, reduceCtorEq, false_or] at h
    simp only [Tree.leaves, List.mem_append]
    exact h.imp hl hr

theorem chunked_leaf {t : Tree} (h : t.Chunked) {c : Bytes} (hc : c ∈ t.leaves) : c.length = 32 := by
  induction t with
  | leaf d => simp only [Tree.leaves, List.mem_singleton] at hc; subst hc; exact h
  | node l r hl hr =>
    simp only [Tree.leaves, List.mem_append] at hc
    exact hc.elim (hl h.1) (hr h.2)

/-- The numbers below `m` whose bytes are not among `avoid`. -/
def fresh (avoid : List Bytes) (m : Nat) : List Nat := (List.range m).filter fun n => leBytes 32 n ∉ avoid

theorem fresh_nodup (avoid : List Bytes) (m : Nat) : (fresh avoid m).Nodup := List.nodup_range.filter _

theorem fresh_length (avoid : List Bytes) {m : Nat} (hm : m ≤ 256 ^ 32) : m ≤ (fresh avoid m).length + avoid.length := by
  have h1 : ((List.range m).filter fun n => leBytes 32 n ∈ avoid).length ≤ avoid.length := by
    have hn : (((List.range m).filter fun n => leBytes 32 n ∈ avoid).map (leBytes 32)).Nodup := by
      apply List.Nodup.map_on
      · intro a ha b hb e
        simp only [List.mem_filter, List.mem_range] at ha hb
        exact leBytes_inj (by omega) (by omega) e
      · exact List.nodup_range.filter _
    have hs : ((List.range m).filter fun n => leBytes 32 n ∈ avoid).map (leBytes 32) ⊆ avoid := by
      intro x hx
      obtain ⟨n, hn, rfl⟩ := List.mem_map.1 hx
      simpa using (List.mem_filter.1 hn).2
    have := (hn.subperm hs).length_le
    simpa using this
  have h2 := List.length_eq_length_filter_add (l := List.range m) (fun n => decide (leBytes 32 n ∈ avoid))
  simp only [List.length_range] at h2
  have h3 : (fresh avoid m).length = ((List.range m).filter fun n => !decide (leBytes 32 n ∈ avoid)).length := by
    unfold fresh
    congr 2
    funext n
    simp
  omega

/-- The digests: a leaf stands for itself, the subtrees get bytes of their own. -/
def label (t : Tree) : Tree → Bytes
  | .leaf c => c
  | .node l r => leBytes 32 ((fresh (zeroRoot :: t.leaves) (t.subtrees.length + t.leaves.length + 1))[t.subtrees.idxOf (.node l r)]?.getD 0)

variable {t : Tree}

theorem label_fresh (hd : t.depth < 200) {l r : Tree} (h : .node l r ∈ t.subtrees) :
    ∃ n, (fresh (zeroRoot :: t.leaves) (t.subtrees.length + t.leaves.length + 1))[t.subtrees.idxOf (Tree.node l r)]? = some n ∧
      label t (.node l r) = leBytes 32 n ∧ n < 256 ^ 32 ∧ leBytes 32 n ∉ zeroRoot :: t.leaves := by
  have hm : t.subtrees.length + t.leaves.length + 1 ≤ 256 ^ 32 := by
    have h1 := subtrees_length t
    have h2 := leaves_le t
    have h3 : 2 ^ (t.depth + 1) ≤ 2 ^ 200 := Nat.pow_le_pow_right (by decide) (by omega)
    have h4 : (2 : Nat) ^ 200 + 2 ^ 200 + 1 ≤ 256 ^ 32 := by decide
    omega
  have h1 := fresh_length (zeroRoot :: t.leaves) hm
  have h2 : t.subtrees.idxOf (Tree.node l r) < (fresh (zeroRoot :: t.leaves) (t.subtrees.length + t.leaves.length + 1)).length := by
    have := List.idxOf_lt_length_iff.2 h
    simp only [List.length_cons] at h1
    omega
  refine ⟨_, List.getElem?_eq_getElem h2, ?_, ?_⟩
  · simp only [label, List.getElem?_eq_getElem h2, Option.getD_some]
  · have hmem : ∀ {n}, n ∈ fresh (zeroRoot :: t.leaves) (t.subtrees.length + t.leaves.length + 1) → n < 256 ^ 32 ∧ leBytes 32 n ∉ zeroRoot :: t.leaves := by
      intro n hn
      simp only [fresh, List.mem_filter, List.mem_range, decide_eq_true_eq] at hn
      exact ⟨by omega, hn.2⟩
    exact hmem (List.getElem_mem h2)

theorem label_inj (hd : t.depth < 200) {u v : Tree} (hu : u ∈ t.subtrees) (hv : v ∈ t.subtrees) (e : label t u = label t v) : u = v := by
  cases u with
  | leaf c =>
    cases v with
    | leaf c' => simpa [label] using e
    | node l r =>
      obtain ⟨n, _, h2, _, h4⟩ := label_fresh hd hv
      rw [h2] at e
      exact absurd (List.mem_cons_of_mem _ (leaf_mem hu)) (by rw [show c = leBytes 32 n from e]; exact h4)
  | node a b =>
    cases v with
    | leaf c' =>
      obtain ⟨n, _, h2, _, h4⟩ := label_fresh hd hu
      rw [h2] at e
      exact absurd (List.mem_cons_of_mem _ (leaf_mem hv)) (by rw [show c' = leBytes 32 n from e.symm]; exact h4)
    | node l r =>
      obtain ⟨m, hm1, hm2, hm3, _⟩ := label_fresh hd hu
      obtain ⟨n, hn1, hn2, hn3, _⟩ := label_fresh hd hv
      rw [hm2, hn2] at e
      have : m = n := leBytes_inj hm3 hn3 e
      subst this
      obtain ⟨i1, e1⟩ := List.getElem?_eq_some_iff.1 hm1
      obtain ⟨i2, e2⟩ := List.getElem?_eq_some_iff.1 hn1
      have hi := (fresh_nodup _ _).getElem_inj_iff.1 (e1.trans e2.symm)
      exact (List.idxOf_inj hu).1 hi

theorem label_length (hc : t.Chunked) {u : Tree} (hu : u ∈ t.subtrees) : (label t u).length = 32 := by
  cases u with
  | leaf c => exact chunked_leaf hc (leaf_mem hu)
  | node a b => simp [label]

open Classical in
/-- The hash function. -/
noncomputable def freeHash (t : Tree) (x : Bytes) : Bytes :=
  if h : ∃ p : Tree × Tree, .node p.1 p.2 ∈ t.subtrees ∧ label t p.1 ++ label t p.2 = x then label t (.node h.choose.1 h.choose.2)
  else List.replicate 32 1

theorem freeHash_length (t : Tree) (x : Bytes) : (freeHash t x).length = 32 := by
  unfold freeHash
  split
  · simp [label]
  · simp

/-- The parameters of the model with this hash function. -/
noncomputable def freeExt (t : Tree) : Ext := { exExt with sha256 := freeHash t, sha256_length := freeHash_length t }

theorem freeHash_node (hc : t.Chunked) (hd : t.depth < 200) {l r : Tree} (h : .node l r ∈ t.subtrees) :
    freeHash t (label t l ++ label t r) = label t (.node l r) := by
  have hex : ∃ p : Tree × Tree, .node p.1 p.2 ∈ t.subtrees ∧ label t p.1 ++ label t p.2 = label t l ++ label t r := ⟨(l, r), h, rfl⟩
  unfold freeHash
  rw [dif_pos hex]
  obtain ⟨h1, h2⟩ := hex.choose_spec
  have s1 := subtrees_node h1
  have s2 := subtrees_node h
  obtain ⟨e1, e2⟩ := append_inj_32 (label_length hc s1.1) (label_length hc s2.1) h2
  rw [label_inj hd s1.1 s2.1 e1, label_inj hd s1.2 s2.2 e2]

theorem free_root (hc : t.Chunked) (hd : t.depth < 200) : ∀ {u : Tree}, u ∈ t.subtrees → u.root (freeExt t) = label t u := by
  intro u
  induction u with
  | leaf c => intro _; rfl
  | node l r hl hr =>
    intro h
    simp only [Tree.root, hl (subtrees_node h).1, hr (subtrees_node h).2]
    exact freeHash_node hc hd h

theorem free_hashed (hc : t.Chunked) (hd : t.depth < 200) : ∀ {u : Tree}, u ∈ t.subtrees → ∀ x ∈ u.hashed (freeExt t),
    ∃ l r, .node l r ∈ t.subtrees ∧ x = label t l ++ label t r := by
  intro u
  induction u with
  | leaf c => intro _ x hx; simp [Tree.hashed] at hx
  | node l r hl hr =>
    intro h x hx
    have s := subtrees_node h
    simp only [Tree.hashed, List.mem_cons, List.mem_append] at hx
    rcases hx with rfl | hx | hx
    · exact ⟨l, r, h, by rw [free_root hc hd s.1, free_root hc hd s.2]⟩
    · exact hl s.1 x hx
    · exact hr s.2 x hx

/-- On the tree it has no collision. -/
theorem free_noCollision (hc : t.Chunked) (hd : t.depth < 200) : NoCollisionOn (freeExt t) (t.hashed (freeExt t)) := by
  intro x hx y hy e
  obtain ⟨l, r, h1, rfl⟩ := free_hashed hc hd (subtrees_self t) x hx
  obtain ⟨l', r', h2, rfl⟩ := free_hashed hc hd (subtrees_self t) y hy
  have e' : label t (.node l r) = label t (.node l' r') := by
    rw [← freeHash_node hc hd h1, ← freeHash_node hc hd h2]
    exact e
  cases label_inj hd h1 h2 e'
  rfl

/-- No digest in the tree is one of its leaves or zero. -/
theorem free_noPreimage (hc : t.Chunked) (hd : t.depth < 200) : ∀ x ∈ t.hashed (freeExt t), (freeExt t).sha256 x ∉ zeroRoot :: t.leaves := by
  intro x hx
  obtain ⟨l, r, h1, rfl⟩ := free_hashed hc hd (subtrees_self t) x hx
  obtain ⟨n, _, h2, _, h4⟩ := label_fresh hd h1
  rw [show (freeExt t).sha256 (label t l ++ label t r) = label t (.node l r) from freeHash_node hc hd h1, h2]
  exact h4

end Signal
