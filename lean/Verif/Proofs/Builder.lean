import Verif.Model.Builder
import Verif.Spec.Request
import Verif.Props.Multiproof
import Mathlib.Data.List.Sort
import Mathlib.Data.List.Dedup

/-! Helper lemmas on the builder. -/

namespace Signal
open Spec

variable (X : Ext)

/-! ## Ancestors -/

theorem Spec.Below.refl (x : Nat) : Below x x := ⟨0, by simp⟩

theorem below_half {x g : Nat} (h : Below (x / 2) g) : Below x g := by
  obtain ⟨k, hk⟩ := h
  exact ⟨k + 1, by rw [Nat.pow_succ, Nat.mul_comm, ← Nat.div_div_eq_div_mul]; exact hk⟩

theorem below_iff {x g : Nat} : Below x g ↔ x = g ∨ Below (x / 2) g := by
  constructor
  · rintro ⟨k, hk⟩
    cases k with
    | zero => left; simpa using hk
    | succ k =>
      right
      exact ⟨k, by rw [Nat.div_div_eq_div_mul, Nat.mul_comm, ← Nat.pow_succ]; exact hk⟩
  · rintro (h | h)
    · subst h; exact Below.refl _
    · exact below_half h

theorem Spec.Below.trans {x y z : Nat} (h1 : Below x y) (h2 : Below y z) : Below x z := by
  obtain ⟨j, rfl⟩ := h1
  obtain ⟨k, rfl⟩ := h2
  exact ⟨j + k, by rw [Nat.pow_add, Nat.div_div_eq_div_mul]⟩

theorem Spec.Below.le {x g : Nat} (h : Below x g) : g ≤ x := by
  obtain ⟨k, rfl⟩ := h; exact Nat.div_le_self _ _

theorem Spec.Below.half {x y : Nat} (h : Below x y) : Below (x / 2) (y / 2) := by
  obtain ⟨k, rfl⟩ := h
  exact ⟨k, by rw [Nat.div_div_eq_div_mul, Nat.div_div_eq_div_mul, Nat.mul_comm]⟩

/-- Below a positive node means at it or below one of its children. -/
theorem below_children {x g : Nat} (hg : 0 < g) :
    Below x g ↔ x = g ∨ Below x (2 * g) ∨ Below x (2 * g + 1) := by
  constructor
  · rintro ⟨k, hk⟩
    cases k with
    | zero => left; simpa using hk
    | succ k =>
      right
      rw [Nat.pow_succ, ← Nat.div_div_eq_div_mul] at hk
      rcases Nat.mod_two_eq_zero_or_one (x / 2 ^ k) with h | h
      · left; exact ⟨k, by omega⟩
      · right; exact ⟨k, by omega⟩
  · rintro (h | h | h)
    · subst h; exact Below.refl _
    · exact h.trans ⟨1, by omega⟩
    · exact h.trans ⟨1, by omega⟩

/-- Strictly below: the parent is at or below. -/
theorem strict_children {x g : Nat} (hg : 0 < g) :
    Below (x / 2) g ↔ Below x (2 * g) ∨ Below x (2 * g + 1) := by
  constructor
  · intro h
    rcases (below_children hg).1 (below_half h) with h1 | h1
    · subst h1; have := h.le; omega
    · exact h1
  · rintro (h | h)
    · have := h.half; rwa [Nat.mul_div_cancel_left _ (by omega)] at this
    · have := h.half; rwa [show (2 * g + 1) / 2 = g by omega] at this

theorem below_sibling {x g : Nat} (hg : 0 < g) (h1 : Below x (2 * g)) (h2 : Below x (2 * g + 1)) :
    False := by
  obtain ⟨j, hj⟩ := h1
  obtain ⟨k, hk⟩ := h2
  have pj : 0 < 2 ^ j := Nat.pow_pos (by omega)
  have pk : 0 < 2 ^ k := Nat.pow_pos (by omega)
  have a := Nat.div_add_mod x (2 ^ j)
  have b := Nat.div_add_mod x (2 ^ k)
  have aj := Nat.mod_lt x pj
  have bk := Nat.mod_lt x pk
  rw [hj, Nat.mul_comm] at a
  rw [hk, Nat.mul_comm] at b
  refine below_disjoint hg (j := j) (k := k) (x := x) (by omega) ?_ (by omega) ?_
  · rw [Nat.add_mul]; omega
  · rw [Nat.add_mul (2 * g + 1)]; omega

/-! ## Branch and path indices -/

theorem pathLoop_ne_nil (f : Nat) : pathLoop f ≠ [] := by rw [pathLoop]; split <;> simp

theorem branchLoop_ne_nil (f : Nat) : branchLoop f ≠ [] := by rw [branchLoop]; split <;> simp

theorem getPathIndices_cons {f : Nat} (h : 1 < f) :
    getPathIndices f = f :: getPathIndices (f / 2) := by
  unfold getPathIndices
  rw [pathLoop, if_pos h, List.dropLast_cons_of_ne_nil (pathLoop_ne_nil _)]
  rfl

theorem getBranchIndices_cons {f : Nat} (h : 1 < f) :
    getBranchIndices f = sibling f :: getBranchIndices (f / 2) := by
  unfold getBranchIndices
  have h1 : 1 < sibling f := by unfold sibling; split <;> omega
  have h2 : parent (sibling f) = f / 2 := by unfold sibling parent; split <;> omega
  rw [branchLoop, if_pos h1, List.dropLast_cons_of_ne_nil (branchLoop_ne_nil _), h2]

theorem mem_getPathIndices {f a : Nat} (hf : 0 < f) :
    a ∈ getPathIndices f ↔ 2 ≤ a ∧ Below f a := by
  induction f using Nat.strongRecOn with
  | _ f ih =>
    by_cases h : 1 < f
    · rw [getPathIndices_cons h, List.mem_cons, ih (f / 2) (by omega) (by omega), below_iff (x := f)]
      constructor
      · rintro (rfl | ⟨h1, h2⟩)
        · exact ⟨h, .inl rfl⟩
        · exact ⟨h1, .inr h2⟩
      · rintro ⟨h1, h2 | h2⟩
        · exact .inl h2.symm
        · exact .inr ⟨h1, h2⟩
    · have : f = 1 := by omega
      subst this
      have : getPathIndices 1 = [] := by unfold getPathIndices; rw [pathLoop]; simp
      rw [this]
      constructor
      · intro h; cases h
      · rintro ⟨h1, h2⟩; have := h2.le; omega

theorem mem_getBranchIndices {f b : Nat} (hf : 0 < f) :
    b ∈ getBranchIndices f ↔ ∃ a, 2 ≤ a ∧ Below f a ∧ b = sibling a := by
  induction f using Nat.strongRecOn with
  | _ f ih =>
    by_cases h : 1 < f
    · rw [getBranchIndices_cons h, List.mem_cons, ih (f / 2) (by omega) (by omega)]
      constructor
      · rintro (rfl | ⟨a, h1, h2, h3⟩)
        · exact ⟨f, h, Below.refl _, rfl⟩
        · exact ⟨a, h1, below_half h2, h3⟩
      · rintro ⟨a, h1, h2, h3⟩
        rcases below_iff.1 h2 with h2 | h2
        · subst h2; exact .inl h3
        · exact .inr ⟨a, h1, h2, h3⟩
    · have : f = 1 := by omega
      subst this
      have : getBranchIndices 1 = [] := by
        unfold getBranchIndices; simp [sibling]; rw [branchLoop]; simp
      rw [this]
      constructor
      · intro h; cases h
      · rintro ⟨a, h1, h2, h3⟩; have := h2.le; omega

/-! ## The cut of a tree at a request -/

/-- Some requested index lies strictly below `g`. -/
def SB (S : List Nat) (g : Nat) : Prop := ∃ s ∈ S, Below (s / 2) g

open Classical in
/-- The tree with everything collapsed that is not above a requested index. -/
noncomputable def cut (S : List Nat) : Tree → Nat → Tree
  | .leaf c, _ => .leaf c
  | .node l r, g =>
    if SB S g then .node (cut S l (2 * g)) (cut S r (2 * g + 1)) else .leaf ((Tree.node l r).root X)

theorem cut_root (S : List Nat) (t : Tree) : ∀ g, (cut X S t g).root X = t.root X := by
  induction t with
  | leaf c => intro g; rfl
  | node l r ihl ihr =>
    intro g; rw [cut]; split
    · simp [Tree.root, ihl, ihr]
    · rfl

theorem cut_chunked (S : List Nat) (t : Tree) (h : t.Chunked) : ∀ g, (cut X S t g).Chunked := by
  induction t with
  | leaf c => intro g; exact h
  | node l r ihl ihr =>
    intro g; rw [cut]; split
    · exact ⟨ihl h.1 _, ihr h.2 _⟩
    · exact Tree.root_length X h

theorem cut_depth (S : List Nat) (t : Tree) (hS : ∀ s ∈ S, s < 2 ^ 64) :
    ∀ g k, 0 < g → 2 ^ k ≤ g → k < 64 → k + (cut X S t g).depth < 64 := by
  induction t with
  | leaf c => intro g k _ _ h; simpa [cut, Tree.depth] using h
  | node l r ihl ihr =>
    intro g k hg hk h
    rw [cut]; split
    · rename_i hsb
      obtain ⟨s, hs, hb⟩ := hsb
      have h1 := hb.le
      have h2 := hS s hs
      have hk' : 2 ^ (k + 1) ≤ 2 * g := by rw [Nat.pow_succ]; omega
      have : k + 1 < 64 := by
        by_contra hc
        have : 2 ^ 64 ≤ 2 ^ (k + 1) := Nat.pow_le_pow_right (by omega) (by omega)
        omega
      have a := ihl (2 * g) (k + 1) (by omega) hk' this
      have b := ihr (2 * g + 1) (k + 1) (by omega) (by omega) this
      simp only [Tree.depth]; omega
    · simpa [Tree.depth] using h

theorem sb_of_half {S : List Nat} {g x : Nat} (h : Below (x / 2) g) (hx : SB S (x / 2)) : SB S g := by
  obtain ⟨s, hs, hb⟩ := hx
  exact ⟨s, hs, hb.trans h⟩

theorem nodeAt_below_none {T : Tree} {c : Bytes} {g x : Nat} (hg : 0 < g)
    (h : T.nodeAt g = some (.leaf c)) (hx : Below (x / 2) g) : T.nodeAt x = none := by
  induction x using Nat.strongRecOn with
  | _ x ih =>
    have hle := hx.le
    rw [Tree.nodeAt, if_neg (by omega), if_neg (by omega)]
    rcases below_iff.1 hx with he | hb
    · rw [he, h]
    · rw [ih (x / 2) (by omega) hb]

theorem mem_cut (S : List Nat) (T : Tree) (hS : ∀ s ∈ S, (T.nodeAt s).isSome) (t : Tree) :
    ∀ g, 0 < g → T.nodeAt g = some t → ∀ x,
      x ∈ (cut X S t g).leafIndices g ↔
        (x = g ∧ ¬ SB S g) ∨ (Below (x / 2) g ∧ SB S (x / 2) ∧ ¬ SB S x) := by
  induction t with
  | leaf c =>
    intro g hg h x
    have hsb : ¬ SB S g := by
      rintro ⟨s, hs, hb⟩
      have := hS s hs
      rw [nodeAt_below_none hg h hb] at this
      cases this
    simp only [cut, Tree.leafIndices, List.mem_singleton]
    constructor
    · intro h; exact .inl ⟨h, hsb⟩
    · rintro (h | ⟨h1, h2, _⟩)
      · exact h.1
      · exact absurd (sb_of_half h1 h2) hsb
  | node l r ihl ihr =>
    intro g hg h x
    rw [cut]; split
    · rename_i hsb
      have el : T.nodeAt (2 * g) = some l := by rw [nodeAt_even _ _ hg, h]
      have er : T.nodeAt (2 * g + 1) = some r := by rw [nodeAt_odd _ _ hg, h]
      simp only [Tree.leafIndices, List.mem_append]
      rw [ihl (2 * g) (by omega) el x, ihr (2 * g + 1) (by omega) er x]
      constructor
      · rintro ((⟨rfl, h1⟩ | ⟨h1, h2, h3⟩) | (⟨rfl, h1⟩ | ⟨h1, h2, h3⟩))
        · right
          rw [show 2 * g / 2 = g by omega]
          exact ⟨Below.refl _, hsb, h1⟩
        · exact .inr ⟨h1.trans ⟨1, by omega⟩, h2, h3⟩
        · right
          rw [show (2 * g + 1) / 2 = g by omega]
          exact ⟨Below.refl _, hsb, h1⟩
        · exact .inr ⟨h1.trans ⟨1, by omega⟩, h2, h3⟩
      · rintro (⟨_, h1⟩ | ⟨h1, h2, h3⟩)
        · exact absurd hsb h1
        · rcases (strict_children hg).1 h1 with h4 | h4
          · rcases below_iff.1 h4 with h5 | h5
            · subst h5; exact .inl (.inl ⟨rfl, h3⟩)
            · exact .inl (.inr ⟨h5, h2, h3⟩)
          · rcases below_iff.1 h4 with h5 | h5
            · subst h5; exact .inr (.inl ⟨rfl, h3⟩)
            · exact .inr (.inr ⟨h5, h2, h3⟩)
    · rename_i hsb
      simp only [Tree.leafIndices, List.mem_singleton]
      constructor
      · intro h; exact .inl ⟨h, hsb⟩
      · rintro (h | ⟨h1, h2, _⟩)
        · exact h.1
        · exact absurd (sb_of_half h1 h2) hsb

/-- The leaves of the cut hold the values of the tree. -/
theorem cut_leaves (S : List Nat) (T : Tree) (t : Tree) : ∀ g, 0 < g → T.nodeAt g = some t →
    ((cut X S t g).leafIndices g).map (fun i => (T.nodeAt i).map (·.root X)) =
      (cut X S t g).leaves.map some := by
  induction t with
  | leaf c => intro g _ h; simp [cut, Tree.leafIndices, Tree.leaves, h, Tree.root]
  | node l r ihl ihr =>
    intro g hg h
    rw [cut]; split
    · simp only [Tree.leafIndices, Tree.leaves, List.map_append]
      rw [ihl (2 * g) (by omega) (by rw [nodeAt_even _ _ hg, h]),
        ihr (2 * g + 1) (by omega) (by rw [nodeAt_odd _ _ hg, h])]
    · simp [Tree.leafIndices, Tree.leaves, h]

/-! ## Descriptor -/

theorem trailingZeros_double {g : Nat} (hg : 0 < g) :
    trailingZeros (2 * g) = 1 + trailingZeros g := by
  rw [trailingZeros, if_neg (by omega), if_neg (by omega), Nat.mul_div_cancel_left _ (by omega)]

theorem trailingZeros_odd (g : Nat) : trailingZeros (2 * g + 1) = 0 := by
  rw [trailingZeros, if_neg (by omega), if_pos (by omega)]

theorem descriptor_tree (P : Tree) : ∀ g, 0 < g →
    computeProofDescriptor (P.leafIndices g) =
      List.replicate (trailingZeros g) false ++ P.preorder := by
  induction P with
  | leaf c => intro g _; simp [computeProofDescriptor, Tree.leafIndices, Tree.preorder]
  | node l r ihl ihr =>
    intro g hg
    have : computeProofDescriptor (l.leafIndices (2 * g) ++ r.leafIndices (2 * g + 1)) =
        computeProofDescriptor (l.leafIndices (2 * g)) ++
          computeProofDescriptor (r.leafIndices (2 * g + 1)) := by
      simp [computeProofDescriptor]
    simp only [Tree.leafIndices, Tree.preorder]
    rw [this, ihl _ (by omega), ihr _ (by omega), trailingZeros_double hg, trailingZeros_odd]
    rw [Nat.add_comm 1, List.replicate_succ']
    simp

/-! ## Order -/

theorem log2_bounds {a : Nat} (h : a ≠ 0) : 2 ^ a.log2 ≤ a ∧ a < 2 ^ (a.log2 + 1) :=
  ⟨Nat.log2_self_le h, Nat.lt_log2_self⟩

theorem bitLen_eq {a k : Nat} (h1 : 2 ^ k ≤ a) (h2 : a < 2 ^ (k + 1)) : bitLen a = k + 1 := by
  have h0 : a ≠ 0 := by have : 0 < 2 ^ k := Nat.pow_pos (by omega); omega
  unfold bitLen
  rw [if_neg h0, Nat.log2_eq_iff h0 |>.2 ⟨h1, h2⟩]

theorem bitLen_below {x g k : Nat} (hg : 0 < g) (h : x / 2 ^ k = g) : bitLen x = bitLen g + k := by
  obtain ⟨a, b⟩ := log2_bounds (a := g) (by omega)
  have pk : 0 < 2 ^ k := Nat.pow_pos (by omega)
  have e := Nat.div_add_mod x (2 ^ k)
  have m := Nat.mod_lt x pk
  rw [h] at e
  rw [bitLen_eq a b, bitLen_eq (k := g.log2 + k)]
  · omega
  · rw [Nat.pow_add, Nat.mul_comm]
    have := Nat.mul_le_mul_left (2 ^ k) a
    omega
  · rw [show g.log2 + k + 1 = k + (g.log2 + 1) by omega, Nat.pow_add]
    have := Nat.mul_le_mul_left (2 ^ k) (show g + 1 ≤ 2 ^ (g.log2 + 1) by omega)
    rw [Nat.mul_add] at this; omega

theorem bitLen_le {x : Nat} (h : x < 2 ^ 64) : bitLen x ≤ 64 := by
  unfold bitLen
  split
  · omega
  · rename_i h0
    obtain ⟨a, _⟩ := log2_bounds h0
    by_contra hc
    have : 2 ^ 64 ≤ 2 ^ x.log2 := Nat.pow_le_pow_right (by omega) (by omega)
    omega

theorem shifted_bounds {x g k : Nat} (hg : 0 < g) (h : x / 2 ^ k = g) (hx : x < 2 ^ 64) :
    g * 2 ^ (64 - bitLen g) ≤ shifted x ∧ shifted x < (g + 1) * 2 ^ (64 - bitLen g) := by
  have hl := bitLen_below hg h
  have hle := bitLen_le hx
  have pk : 0 < 2 ^ k := Nat.pow_pos (by omega)
  have e := Nat.div_add_mod x (2 ^ k)
  have m := Nat.mod_lt x pk
  rw [h] at e
  have hp : 2 ^ (64 - bitLen g) = 2 ^ k * 2 ^ (64 - bitLen x) := by
    rw [← Nat.pow_add]; congr 1; omega
  have pl : 0 < 2 ^ (64 - bitLen x) := Nat.pow_pos (by omega)
  unfold shifted
  rw [hp, ← Nat.mul_assoc, ← Nat.mul_assoc]
  constructor
  · apply Nat.mul_le_mul_right; rw [Nat.mul_comm]; omega
  · apply Nat.mul_lt_mul_of_pos_right _ pl
    rw [Nat.add_mul, Nat.mul_comm]; omega

theorem shifted_lt {x y : Nat} (h : LeftOf x y) (hx : x < 2 ^ 64) (hy : y < 2 ^ 64) :
    shifted x < shifted y := by
  obtain ⟨g, hg, ⟨j, hj⟩, ⟨k, hk⟩⟩ := h
  have a := (shifted_bounds (by omega) hj hx).2
  have b := (shifted_bounds (by omega) hk hy).1
  have e1 : bitLen (2 * g) = bitLen g + 1 := bitLen_below hg (k := 1) (by omega)
  have e2 : bitLen (2 * g + 1) = bitLen g + 1 := bitLen_below hg (k := 1) (by omega)
  rw [e1] at a
  rw [e2] at b
  omega

theorem leafIndices_below (P : Tree) : ∀ g, 0 < g → ∀ x ∈ P.leafIndices g, Below x g := by
  induction P with
  | leaf c => intro g _ x hx; simp [Tree.leafIndices] at hx; subst hx; exact Below.refl _
  | node l r ihl ihr =>
    intro g hg x hx
    simp only [Tree.leafIndices, List.mem_append] at hx
    rcases hx with hx | hx
    · exact (ihl _ (by omega) x hx).trans ⟨1, by omega⟩
    · exact (ihr _ (by omega) x hx).trans ⟨1, by omega⟩

theorem leafIndices_leftOf (P : Tree) : ∀ g, 0 < g → (P.leafIndices g).Pairwise LeftOf := by
  induction P with
  | leaf c => intro g _; simp [Tree.leafIndices]
  | node l r ihl ihr =>
    intro g hg
    simp only [Tree.leafIndices]
    rw [List.pairwise_append]
    exact ⟨ihl _ (by omega), ihr _ (by omega), fun x hx y hy =>
      ⟨g, hg, leafIndices_below l _ (by omega) x hx, leafIndices_below r _ (by omega) y hy⟩⟩

theorem lexLe_trans (a b c : Nat) : lexLe a b = true → lexLe b c = true → lexLe a c = true := by
  unfold lexLe
  intro h1 h2
  split at h1 <;> split at h2 <;> split <;> simp_all <;> omega

theorem lexLe_total (a b : Nat) : (lexLe a b || lexLe b a) = true := by
  unfold lexLe
  by_cases h : shifted a = shifted b
  · simp [h]; omega
  · simp [h, Ne.symm h]

theorem shifted_inj {a b : Nat} (h1 : shifted a = shifted b) (h2 : bitLen a = bitLen b) : a = b := by
  unfold shifted at h1
  rw [h2] at h1
  exact Nat.eq_of_mul_eq_mul_right (Nat.pow_pos (by omega)) h1

theorem lexLe_antisymm {a b : Nat} (h1 : lexLe a b = true) (h2 : lexLe b a = true) : a = b := by
  unfold lexLe at h1 h2
  by_cases h : shifted a = shifted b
  · rw [if_pos h] at h1
    rw [if_pos h.symm] at h2
    simp at h1 h2
    exact shifted_inj h (by omega)
  · rw [if_neg h] at h1
    rw [if_neg (Ne.symm h)] at h2
    simp at h1 h2
    omega

/-! ## Stack depth hint -/

theorem depthReduce_open (st : List Bool) (m : Nat) :
    depthReduce (true :: false :: st) m = (true :: false :: st, m) := by
  rw [depthReduce]; intros; simp_all

theorem depthLoop_tree (P : Tree) : ∀ (d : List Bool) (st : List Bool) (m : Nat),
    ∃ m', m' ≤ max m (st.length + 2 * P.depth) ∧
      depthLoop (P.preorder ++ d) st m =
        depthLoop d (depthReduce (true :: st) m').1 (depthReduce (true :: st) m').2 := by
  induction P with
  | leaf c => intro d st m; exact ⟨m, by omega, rfl⟩
  | node l r ihl ihr =>
    intro d st m
    obtain ⟨m1, h1, e1⟩ := ihl (r.preorder ++ d) (false :: st) (max m (st.length + 1))
    rw [depthReduce_open] at e1
    obtain ⟨m2, h2, e2⟩ := ihr d (true :: false :: st) m1
    refine ⟨max m2 (st.length + 1), ?_, ?_⟩
    · simp only [Tree.depth, List.length_cons] at h1 h2 ⊢; omega
    · simp only [Tree.preorder, List.cons_append, List.append_assoc, depthLoop]
      rw [e1, e2]
      rw [depthReduce]

theorem maxStackDepth_tree (P : Tree) :
    ∃ m, calculateMaxStackDepth P.preorder = .ok m ∧ m ≤ 2 * P.depth := by
  obtain ⟨m, h1, h2⟩ := depthLoop_tree P [] [] 0
  have hr : depthReduce [true] m = ([true], m) := by rw [depthReduce]; intros; simp_all
  rw [List.append_nil, hr] at h2
  refine ⟨m, ?_, by simpa using h1⟩
  unfold calculateMaxStackDepth
  rw [h2]
  rfl

/-! ## The builder computes the cut -/

theorem sibling_sibling {a : Nat} : sibling (sibling a) = a := by
  unfold sibling; split <;> split <;> omega

theorem sibling_half {a : Nat} : sibling a / 2 = a / 2 := by unfold sibling; split <;> omega

theorem nodup_eraseDups (l : List Nat) : l.eraseDups.Nodup := by
  induction hn : l.length using Nat.strongRecOn generalizing l with
  | _ n ih =>
    cases l with
    | nil => simp
    | cons a l =>
      rw [List.eraseDups_cons, List.nodup_cons]
      refine ⟨by simp [List.mem_eraseDups], ih _ ?_ _ rfl⟩
      have := List.length_filter_le (fun b => !b == a) l
      simp only [List.length_cons] at hn
      omega

theorem sorted_nodup {S : OSet} (h : OSet.Sorted S) : S.Nodup :=
  h.imp (fun hab => Nat.ne_of_lt hab)

/-- The helper indices are the leaves of the cut that were not requested. -/
theorem mem_helper {T : Tree} {S : List Nat} (h : GoodRequest T S) (x : Nat) :
    (x ∈ ((S.flatMap getBranchIndices).eraseDups.filter
        (fun a => !(S.flatMap getPathIndices).eraseDups.contains a))) ↔
      x ∈ (cut X S T 1).leafIndices 1 ∧ x ∉ S := by
  have hpos : ∀ s ∈ S, 0 < s := fun s hs => by have := (h.range s hs).1; omega
  rw [mem_cut X S T h.present T 1 (by omega) (nodeAt_one T) x]
  simp only [List.mem_filter, List.mem_eraseDups, List.contains_eq_mem, List.mem_flatMap,
    Bool.not_eq_true', decide_eq_false_iff_not]
  have hroot : SB S 1 := by
    obtain ⟨s, hs⟩ := List.exists_mem_of_ne_nil _ h.ne
    have := (h.range s hs).1
    have hone : ∀ y, 0 < y → Below y 1 := by
      intro y
      induction y using Nat.strongRecOn with
      | _ y ih =>
        intro hy
        by_cases h1 : y = 1
        · subst h1; exact Below.refl _
        · exact below_half (ih (y / 2) (by omega) (by omega))
    exact ⟨s, hs, hone _ (by omega)⟩
  constructor
  · rintro ⟨⟨s, hs, hb⟩, hn⟩
    obtain ⟨a, ha, hsa, rfl⟩ := (mem_getBranchIndices (hpos s hs)).1 hb
    have h2 : 2 ≤ sibling a := by unfold sibling; split <;> omega
    have hnot : ∀ t ∈ S, ¬ Below t (sibling a) := by
      intro t ht hbt
      exact hn ⟨t, ht, (mem_getPathIndices (hpos t ht)).2 ⟨h2, hbt⟩⟩
    refine ⟨.inr ⟨?_, ⟨s, hs, ?_⟩, ?_⟩, ?_⟩
    · have : ∀ y, 0 < y → Below y 1 := by
        intro y
        induction y using Nat.strongRecOn with
        | _ y ih =>
          intro hy
          by_cases h1 : y = 1
          · subst h1; exact Below.refl _
          · exact below_half (ih (y / 2) (by omega) (by omega))
      exact this _ (by omega)
    · rw [sibling_half]; exact hsa.half
    · rintro ⟨t, ht, hbt⟩; exact hnot t ht (below_half hbt)
    · intro hm; exact hnot _ hm (Below.refl _)
  · rintro ⟨h1 | ⟨_, ⟨s, hs, hb⟩, h3⟩, hn⟩
    · exact absurd hroot h1.2
    · have hx2 : 2 ≤ x := by
        by_contra hc
        have : x / 2 = 0 := by omega
        rw [this] at hb
        -- then some requested index would be 0 or 1 above everything
        rcases Nat.lt_or_ge x 1 with h0 | h0
        · have : x = 0 := by omega
          subst this
          exact h3 ⟨s, hs, hb⟩
        · have : x = 1 := by omega
          subst this
          exact h3 hroot
      have hx0 : 0 < x / 2 := by omega
      refine ⟨⟨s, hs, (mem_getBranchIndices (hpos s hs)).2 ⟨sibling x, ?_, ?_, sibling_sibling.symm⟩⟩, ?_⟩
      · unfold sibling; split <;> omega
      · have hnx : ¬ Below s x := by
          intro hbx
          rcases below_iff.1 hbx with he | hb'
          · exact hn (he ▸ hs)
          · exact h3 ⟨s, hs, hb'⟩
        rcases (strict_children hx0).1 hb with h4 | h4
        · have e : sibling x = 2 * (x / 2) := by
            unfold sibling; split
            · exfalso; apply hnx; rwa [show 2 * (x / 2) = x by omega] at h4
            · omega
          rw [e]; exact h4
        · have e : sibling x = 2 * (x / 2) + 1 := by
            unfold sibling; split
            · omega
            · exfalso; apply hnx; rwa [show 2 * (x / 2) + 1 = x by omega] at h4
          rw [e]; exact h4
      · rintro ⟨t, ht, hp⟩
        have hb' := ((mem_getPathIndices (hpos t ht)).1 hp).2
        rcases below_iff.1 hb' with he | hb''
        · exact hn (he ▸ ht)
        · exact h3 ⟨t, ht, hb''⟩

theorem below_one {y : Nat} (hy : 0 < y) : Below y 1 := by
  induction y using Nat.strongRecOn with
  | _ y ih =>
    by_cases h1 : y = 1
    · subst h1; exact Below.refl _
    · exact below_half (ih (y / 2) (by omega) (by omega))

/-- Requested indices are leaves of the cut. -/
theorem mem_cut_of_mem {T : Tree} {S : List Nat} (h : GoodRequest T S) {s : Nat} (hs : s ∈ S) :
    s ∈ (cut X S T 1).leafIndices 1 := by
  rw [mem_cut X S T h.present T 1 (by omega) (nodeAt_one T) s]
  have h2 := (h.range s hs).1
  refine .inr ⟨below_one (by omega), ⟨s, hs, Below.refl _⟩, ?_⟩
  rintro ⟨t, ht, hb⟩
  have := h.antichain t ht s hs (below_half hb)
  subst this
  have := hb.le
  omega

theorem cut_is_node {T : Tree} {S : List Nat} (h : GoodRequest T S) :
    ∃ l r, cut X S T 1 = .node l r := by
  obtain ⟨s, hs⟩ := List.exists_mem_of_ne_nil _ h.ne
  have hm := mem_cut_of_mem X h hs
  have h2 := (h.range s hs).1
  cases hc : cut X S T 1 with
  | leaf c => rw [hc] at hm; simp [Tree.leafIndices] at hm; omega
  | node l r => exact ⟨l, r, rfl⟩

theorem proofIndices_eq {T : Tree} {S : OSet} (hS : OSet.Sorted S) (h : GoodRequest T S)
    (order : List Nat → List Nat) (ho : ∀ l, (order l).Perm l) :
    computeProofIndicesAndValueMask order S =
      ((cut X S T 1).leafIndices 1, ((cut X S T 1).leafIndices 1).map (fun i => decide (i ∈ S))) := by
  have hd : (cut X S T 1).depth < 64 := by
    have := cut_depth X S T (fun s hs => (h.range s hs).2) 1 0 (by omega) (by omega) (by omega)
    omega
  have hlt : ∀ x ∈ (cut X S T 1).leafIndices 1, x < 2 ^ 64 := by
    intro x hx
    have h1 := leafIndices_lt (cut X S T 1) 1 1 (by omega) x hx
    have h2 : 2 ^ (1 + (cut X S T 1).depth) ≤ 2 ^ 64 := Nat.pow_le_pow_right (by omega) (by omega)
    omega
  have key : ((order ((S.flatMap getBranchIndices).eraseDups.filter
        (fun a => !(S.flatMap getPathIndices).eraseDups.contains a))).map (·, false) ++
        S.map (·, true)).mergeSort (fun a b => lexLe a.1 b.1) =
      ((cut X S T 1).leafIndices 1).map (fun i => (i, decide (i ∈ S))) := by
    apply List.Perm.eq_of_pairwise (le := fun a b => lexLe a.1 b.1 = true)
    · intro a b ha hb h1 h2
      have e := lexLe_antisymm h1 h2
      rw [List.mem_mergeSort, List.mem_append] at ha
      simp only [List.mem_map] at ha hb
      obtain ⟨y, hy, rfl⟩ := hb
      rcases ha with ⟨z, hz, rfl⟩ | ⟨z, hz, rfl⟩
      · have hz' := ((mem_helper X h z).1 ((ho _).mem_iff.1 hz)).2
        simp at e; subst e; simp [hz']
      · simp at e; subst e; simp [hz]
    · exact List.pairwise_mergeSort (fun a b c => lexLe_trans a.1 b.1 c.1)
        (fun a b => lexLe_total a.1 b.1) _
    · rw [List.pairwise_map]
      have hp := leafIndices_leftOf (cut X S T 1) 1 (by omega)
      refine List.Pairwise.imp_of_mem ?_ hp
      intro a b ha hb hab
      have := shifted_lt hab (hlt a ha) (hlt b hb)
      simp [lexLe]
      rw [if_neg (by omega)]; exact this
    · refine (List.mergeSort_perm _ _).trans ?_
      rw [List.perm_ext_iff_of_nodup]
      · rintro ⟨i, b⟩
        simp only [List.mem_append, List.mem_map, Prod.mk.injEq]
        constructor
        · rintro (⟨z, hz, rfl, rfl⟩ | ⟨z, hz, rfl, rfl⟩)
          · have := (mem_helper X h z).1 ((ho _).mem_iff.1 hz)
            exact ⟨z, this.1, rfl, by simp [this.2]⟩
          · exact ⟨z, mem_cut_of_mem X h hz, rfl, by simp [hz]⟩
        · rintro ⟨z, hz, rfl, rfl⟩
          by_cases hzS : z ∈ S
          · right; exact ⟨z, hzS, rfl, by simp [hzS]⟩
          · left; exact ⟨z, (ho _).mem_iff.2 ((mem_helper X h z).2 ⟨hz, hzS⟩), rfl, by simp [hzS]⟩
      · rw [List.nodup_append]
        refine ⟨?_, ?_, ?_⟩
        · apply List.Nodup.map (fun a b hab => by simpa using hab)
          rw [(ho _).nodup_iff]
          exact (nodup_eraseDups _).filter _
        · exact List.Nodup.map (fun a b hab => by simpa using hab) (sorted_nodup hS)
        · rintro ⟨a, b⟩ ha ⟨a', b'⟩ ha' hab
          simp at ha ha' hab
          have := ha.2; have := ha'.2; simp_all
      · exact List.Nodup.map (fun a b hab => by simpa using (Prod.mk.inj hab).1)
          (leafIndices_nodup _ 1 (by omega))
  unfold computeProofIndicesAndValueMask
  simp only [key, List.map_map]
  congr 1
  conv => rhs; rw [← List.map_id ((cut X S T 1).leafIndices 1)]
  rfl

/-- The proof the builder makes for a good request. -/
theorem build_eq {T : Tree} (hT : T.Chunked) {S : OSet} (hS : OSet.Sorted S) (h : GoodRequest T S)
    (order : List Nat → List Nat) (ho : ∀ l, (order l).Perm l) :
    ∃ m, m ≤ 126 ∧ build X order S T = .ok
      { data := (cut X S T 1).leaves.flatten
        valueMask := ((cut X S T 1).leafIndices 1).map (fun i => decide (i ∈ S))
        descriptor := (cut X S T 1).preorder
        maxStackDepth := m } := by
  have hd : (cut X S T 1).depth < 64 := by
    have := cut_depth X S T (fun s hs => (h.range s hs).2) 1 0 (by omega) (by omega) (by omega)
    omega
  obtain ⟨m, h1, h2⟩ := maxStackDepth_tree (cut X S T 1)
  refine ⟨m, by omega, ?_⟩
  unfold build
  rw [proofIndices_eq X hS h order ho]
  have hn : mapRes (fun i => okOr ProofError.merkleization ((T.nodeAt i).map (·.root X)))
      ((cut X S T 1).leafIndices 1) = .ok (cut X S T 1).leaves := by
    rw [mapRes_eq_ok]
    have := congrArg (List.map (okOr ProofError.merkleization)) (cut_leaves X S T T 1 (by omega) (nodeAt_one T))
    simpa [List.map_map, Function.comp_def, okOr] using this
  have hdesc := descriptor_tree (cut X S T 1) 1 (by omega)
  have ht1 : trailingZeros 1 = 0 := by rw [trailingZeros]; simp
  rw [ht1] at hdesc
  simp only [hn, Res.ok_bind, hdesc, List.replicate_zero, List.nil_append, h1, Res.pure_eq]

end Signal
