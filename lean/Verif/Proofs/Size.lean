import Verif.Spec.Size
import Verif.Proofs.RegistryProof
import Mathlib.Tactic.NormNum
import Mathlib.Data.List.Perm.Subperm
import Mathlib.Algebra.BigOperators.Group.List.Basic

/-! Helper lemmas: the number of inner nodes of a proof. -/

namespace Signal
open Spec

/-- Indices of the inner nodes. -/
def Spec.Tree.inner : Tree → Nat → List Nat
  | .leaf _, _ => []
  | .node l r, g => g :: (l.inner (2 * g) ++ r.inner (2 * g + 1))

theorem leaves_length_inner (t : Tree) : ∀ g, t.leaves.length = (t.inner g).length + 1 := by
  induction t with
  | leaf c => intro g; rfl
  | node l r ihl ihr =>
    intro g
    simp only [Tree.leaves, Tree.inner, List.length_append, List.length_cons]
    rw [ihl (2 * g), ihr (2 * g + 1)]; omega

theorem preorder_length_inner (t : Tree) : ∀ g, t.preorder.length = 2 * (t.inner g).length + 1 := by
  induction t with
  | leaf c => intro g; rfl
  | node l r ihl ihr =>
    intro g
    simp only [Tree.preorder, Tree.inner, List.length_append, List.length_cons]
    rw [ihl (2 * g), ihr (2 * g + 1)]; omega

theorem leafIndices_length_inner (t : Tree) : ∀ g, (t.leafIndices g).length = (t.inner g).length + 1 := by
  induction t with
  | leaf c => intro g; rfl
  | node l r ihl ihr =>
    intro g
    simp only [Tree.leafIndices, Tree.inner, List.length_append, List.length_cons]
    rw [ihl (2 * g), ihr (2 * g + 1)]; omega

theorem inner_below (P : Tree) : ∀ g, 0 < g → ∀ x ∈ P.inner g, Below x g := by
  induction P with
  | leaf c => intro g _ x hx; simp [Tree.inner] at hx
  | node l r ihl ihr =>
    intro g hg x hx
    simp only [Tree.inner, List.mem_cons, List.mem_append] at hx
    rcases hx with rfl | hx | hx
    · exact Below.refl _
    · exact (ihl _ (by omega) x hx).trans ⟨1, by omega⟩
    · exact (ihr _ (by omega) x hx).trans ⟨1, by omega⟩

theorem inner_nodup (P : Tree) : ∀ g, 0 < g → (P.inner g).Nodup := by
  induction P with
  | leaf c => intro g _; simp [Tree.inner]
  | node l r ihl ihr =>
    intro g hg
    simp only [Tree.inner]
    rw [List.nodup_cons, List.nodup_append]
    refine ⟨?_, ihl _ (by omega), ihr _ (by omega), ?_⟩
    · rw [List.mem_append]
      rintro (h | h)
      · have := (inner_below l _ (by omega) g h).le; omega
      · have := (inner_below r _ (by omega) g h).le; omega
    · rintro a ha b hb rfl
      exact below_sibling hg (inner_below l _ (by omega) a ha) (inner_below r _ (by omega) a hb)

variable (X : Ext)

theorem mem_inner_cut (S : List Nat) (T : Tree) (hS : ∀ s ∈ S, (T.nodeAt s).isSome) (t : Tree) :
    ∀ g, 0 < g → T.nodeAt g = some t → ∀ n, n ∈ (cut X S t g).inner g ↔ Below n g ∧ SB S n := by
  induction t with
  | leaf c =>
    intro g hg h n
    simp only [cut, Tree.inner, List.not_mem_nil, false_iff]
    rintro ⟨hb, s, hs, hsb⟩
    have := hS s hs
    rw [nodeAt_below_none hg h (hsb.trans hb)] at this
    cases this
  | node l r ihl ihr =>
    intro g hg h n
    rw [cut]; split
    · rename_i hsb
      have el : T.nodeAt (2 * g) = some l := by rw [nodeAt_even _ _ hg, h]
      have er : T.nodeAt (2 * g + 1) = some r := by rw [nodeAt_odd _ _ hg, h]
      simp only [Tree.inner, List.mem_cons, List.mem_append]
      rw [ihl (2 * g) (by omega) el n, ihr (2 * g + 1) (by omega) er n]
      constructor
      · rintro (rfl | ⟨h1, h2⟩ | ⟨h1, h2⟩)
        · exact ⟨Below.refl _, hsb⟩
        · exact ⟨h1.trans ⟨1, by omega⟩, h2⟩
        · exact ⟨h1.trans ⟨1, by omega⟩, h2⟩
      · rintro ⟨h1, h2⟩
        rcases below_iff.1 h1 with h1 | h1
        · exact Or.inl h1
        · rcases (strict_children hg).1 h1 with h1 | h1
          · exact Or.inr (Or.inl ⟨h1, h2⟩)
          · exact Or.inr (Or.inr ⟨h1, h2⟩)
    · rename_i hsb
      simp only [Tree.inner, List.not_mem_nil, false_iff]
      rintro ⟨hb, s, hs, h2⟩
      exact hsb ⟨s, hs, h2.trans hb⟩

theorem mem_ancestorsOf {S : List Nat} (hS : ∀ s ∈ S, s < 2 ^ 64) {n : Nat} :
    n ∈ ancestorsOf S ↔ 0 < n ∧ SB S n := by
  unfold ancestorsOf
  simp only [List.mem_dedup, List.mem_filter, List.mem_flatMap, List.mem_map, List.mem_range, decide_eq_true_eq]
  constructor
  · rintro ⟨⟨s, hs, k, -, rfl⟩, h⟩
    refine ⟨h, s, hs, k, ?_⟩
    rw [Nat.div_div_eq_div_mul, Nat.pow_succ, Nat.mul_comm]
  · rintro ⟨h, s, hs, k, hk⟩
    rw [Nat.div_div_eq_div_mul, Nat.mul_comm, ← Nat.pow_succ] at hk
    refine ⟨⟨s, hs, k, ?_, hk⟩, h⟩
    by_contra hc
    have h1 := hS s hs
    have : 2 ^ 64 ≤ 2 ^ (k + 1) := Nat.pow_le_pow_right (by omega) (by omega)
    rw [Nat.div_eq_of_lt (by omega)] at hk
    omega

/-- The size of a built proof. -/
theorem build_size {T : Tree} (hT : T.Chunked) {S : OSet} (hS : OSet.Sorted S) (h : GoodRequest T S)
    (order : List Nat → List Nat) (ho : ∀ l, (order l).Perm l) {p : Multiproof} (hb : build X order S T = .ok p) :
    ProofSize (ancestorsOf S).length p := by
  obtain ⟨m, hm, hb'⟩ := build_eq X hT hS h order ho
  rw [hb] at hb'
  cases hb'
  have hlen : ((cut X S T 1).inner 1).length = (ancestorsOf S).length := by
    refine List.Perm.length_eq ((List.perm_ext_iff_of_nodup (inner_nodup _ 1 (by omega)) (List.nodup_dedup _)).2 ?_)
    intro n
    rw [mem_inner_cut X S T h.present T 1 (by omega) (nodeAt_one T) n]
    refine Iff.trans ?_ (mem_ancestorsOf (fun s hs => (h.range s hs).2)).symm
    constructor
    · rintro ⟨h1, h2⟩
      exact ⟨h1.le, h2⟩
    · rintro ⟨h1, h2⟩
      exact ⟨below_one h1, h2⟩
  have hflat : ∀ P : Tree, P.Chunked → P.leaves.flatten.length = 32 * P.leaves.length := by
    intro P
    induction P with
    | leaf c => intro hc; simp only [Tree.leaves, List.flatten_cons, List.flatten_nil, List.append_nil, List.length_cons, List.length_nil]; exact hc
    | node l r ihl ihr =>
      intro hc
      simp only [Tree.leaves, List.flatten_append, List.length_append]
      rw [ihl hc.1, ihr hc.2]; omega
  refine ⟨?_, ?_, ?_, hm⟩
  · show (cut X S T 1).leaves.flatten.length = _
    rw [hflat _ (cut_chunked X S T hT 1), leaves_length_inner _ 1, hlen]
  · rw [List.length_map, leafIndices_length_inner, hlen]
  · show (cut X S T 1).preorder.length = _
    rw [preorder_length_inner _ 1, hlen]

/-! ## The registry -/

/-- All nodes that can be above a requested node of a registry with `n` validators. -/
def registryAncestors (n : Nat) : List Nat :=
  1 :: ((List.range 41).flatMap (fun k => (List.range (n / 2 ^ k + 1)).map (fun i => 2 ^ (41 - k) + i)) ++
    (List.range n).flatMap (fun i => [2 * (2 ^ 41 + i), 2 * (2 ^ 41 + i) + 1, 4 * (2 ^ 41 + i), 4 * (2 ^ 41 + i) + 1,
      4 * (2 ^ 41 + i) + 2, 4 * (2 ^ 41 + i) + 3, 8 * (2 ^ 41 + i)]))

theorem sum_halves (n m : Nat) : ((List.range m).map (fun k => n / 2 ^ k)).sum + 2 * (n / 2 ^ m) ≤ 2 * n := by
  induction m with
  | zero => simp
  | succ m ih =>
    rw [List.range_succ, List.map_append, List.sum_append, Nat.pow_succ, ← Nat.div_div_eq_div_mul]
    simp only [List.map_cons, List.map_nil, List.sum_cons, List.sum_nil]
    omega

theorem sum_succ (f : Nat → Nat) (l : List Nat) : (l.map (fun k => f k + 1)).sum = (l.map f).sum + l.length := by
  induction l with
  | nil => rfl
  | cons a l ih => simp only [List.map_cons, List.sum_cons, List.length_cons, ih]; omega

theorem sum_const7 (l : List Nat) : (l.map (fun _ => 7)).sum = 7 * l.length := by
  induction l with
  | nil => rfl
  | cons a l ih => simp only [List.map_cons, List.sum_cons, List.length_cons, ih]; omega

theorem registryAncestors_length (n : Nat) : (registryAncestors n).length ≤ 9 * n + 42 := by
  unfold registryAncestors
  rw [List.length_cons, List.length_append, List.length_flatMap, List.length_flatMap]
  simp only [List.length_map, List.length_range, List.length_cons, List.length_nil]
  have h1 := sum_succ (fun k => n / 2 ^ k) (List.range 41)
  have h2 := sum_halves n 41
  have h3 := sum_const7 (List.range n)
  simp only [List.length_range] at h1 h3
  simp only [Nat.zero_add]
  rw [h1, h3]
  omega

theorem mem_registryAncestors {n i : Nat} (hi : i < n) (hn : i < 2 ^ 40) {x : Nat} (hx : 0 < x)
    (h : Below (2 ^ 41 + i) x) : x ∈ registryAncestors n := by
  obtain ⟨k, rfl⟩ := h
  unfold registryAncestors
  by_cases hk : k < 41
  · refine List.mem_cons_of_mem _ (List.mem_append_left _ (List.mem_flatMap.2 ⟨k, List.mem_range.2 hk, List.mem_map.2 ⟨i / 2 ^ k, ?_, ?_⟩⟩))
    · rw [List.mem_range]
      exact Nat.lt_succ_of_le (Nat.div_le_div_right (by omega))
    · have : 2 ^ 41 + i = i + 2 ^ k * 2 ^ (41 - k) := by
        rw [← Nat.pow_add, show k + (41 - k) = 41 by omega]; omega
      rw [this, Nat.add_mul_div_left _ _ (Nat.pow_pos (by omega))]
      omega
  · by_cases hk' : k = 41
    · subst hk'
      have : (2 ^ 41 + i) / 2 ^ 41 = 1 := by omega
      rw [this]
      exact List.mem_cons_self
    · exfalso
      have : 2 ^ 42 ≤ 2 ^ k := Nat.pow_le_pow_right (by omega) (by omega)
      rw [Nat.div_eq_of_lt (by omega)] at hx
      omega

theorem registry_ancestors {t : Nat} {vs : List Validator} (hl : vs.length ≤ 2 ^ 40) :
    (ancestorsOf (registryRequest t vs)).length ≤ 9 * vs.length + 42 := by
  refine le_trans ?_ (registryAncestors_length vs.length)
  refine List.Subperm.length_le (List.subperm_of_subset (List.nodup_dedup _) ?_)
  -- the requested nodes
  have hmem : ∀ s ∈ registryRequest t vs, s = 3 ∨ ∃ i, i < vs.length ∧ ((∃ f, f < 8 ∧ s = 8 * (2 ^ 41 + i) + f) ∨
      s / 2 = 8 * (2 ^ 41 + i)) := by
    intro s hs
    unfold registryRequest at hs
    rw [OSet.mem_extend] at hs
    rcases hs with hs | hs
    · cases hs
    rcases List.mem_cons.1 hs with hs | hs
    · exact Or.inl hs
    · obtain ⟨⟨v, i⟩, hv, hs⟩ := List.mem_flatMap.1 hs
      have hi := (List.getElem?_eq_some_iff.1 (List.mem_zipIdx_iff_getElem?.1 hv)).1
      refine Or.inr ⟨i, hi, ?_⟩
      simp only [validatorRequest, validatorPath] at hs
      split at hs
      · simp only [List.mem_cons, List.not_mem_nil, or_false] at hs
        exact Or.inl ⟨6, by omega, by omega⟩
      · simp only [List.mem_cons, List.not_mem_nil, or_false] at hs
        rcases hs with hs | hs | hs | hs | hs | hs | hs
        · exact Or.inr (by omega)
        · exact Or.inr (by omega)
        · exact Or.inl ⟨2, by omega, by omega⟩
        · exact Or.inl ⟨3, by omega, by omega⟩
        · exact Or.inl ⟨4, by omega, by omega⟩
        · exact Or.inl ⟨5, by omega, by omega⟩
        · exact Or.inl ⟨6, by omega, by omega⟩
  intro n hn
  obtain ⟨hpos, s, hs, hb⟩ := (mem_ancestorsOf (S := registryRequest t vs) (by
    intro s hs
    rcases hmem s hs with h | ⟨i, hi, ⟨f, hf, h⟩ | h⟩ <;> omega)).1 hn
  have inside : ∀ i, i < vs.length → ∀ x, x ∈ [2 * (2 ^ 41 + i), 2 * (2 ^ 41 + i) + 1, 4 * (2 ^ 41 + i), 4 * (2 ^ 41 + i) + 1,
      4 * (2 ^ 41 + i) + 2, 4 * (2 ^ 41 + i) + 3, 8 * (2 ^ 41 + i)] → x ∈ registryAncestors vs.length := by
    intro i hi x hx
    exact List.mem_cons_of_mem _ (List.mem_append_right _ (List.mem_flatMap.2 ⟨i, List.mem_range.2 hi, hx⟩))
  have two : ∀ i, i < vs.length → ∀ x, x / 2 = 2 ^ 41 + i → Below x n → n ∈ registryAncestors vs.length := by
    intro i hi x hx hb
    rcases below_iff.1 hb with h | h
    · subst h
      refine inside i hi x ?_
      simp only [List.mem_cons, List.not_mem_nil, or_false]
      omega
    · rw [hx] at h
      exact mem_registryAncestors hi (by omega) hpos h
  have four : ∀ i, i < vs.length → ∀ x, x / 4 = 2 ^ 41 + i → Below x n → n ∈ registryAncestors vs.length := by
    intro i hi x hx hb
    rcases below_iff.1 hb with h | h
    · subst h
      refine inside i hi x ?_
      simp only [List.mem_cons, List.not_mem_nil, or_false]
      omega
    · exact two i hi (x / 2) (by omega) h
  rcases hmem s hs with h | ⟨i, hi, ⟨f, hf, h⟩ | h⟩
  · subst h
    have := hb.le
    have : n = 1 := by omega
    rw [this]
    exact List.mem_cons_self
  · exact four i hi (s / 2) (by omega) hb
  · rw [h] at hb
    rcases below_iff.1 hb with h | h
    · subst h
      refine inside i hi _ ?_
      simp
    · exact four i hi _ (by omega) h

theorem block_ancestors : (ancestorsOf [11]).length = 3 := by decide +kernel
theorem slot_ancestors : (ancestorsOf [8]).length = 3 := by decide +kernel
theorem state_ancestors : (ancestorsOf [65, 66, 75, 95, 97, 168, 268, 269, 270]).length = 26 := by decide +kernel

end Signal
