import Verif.Proofs.Multiproof

/-! Helper lemmas on single-path proofs, used for the index-wrapping counterexample. -/

namespace Signal
open Spec

variable (X : Ext)

/-- A proof tree that is a path with opaque siblings, ending in `S`. -/
def pathTree (S : Tree) : List (Bool × Bytes) → Tree
  | [] => S
  | (true, sib) :: ps => .node (.leaf sib) (pathTree S ps)
  | (false, sib) :: ps => .node (pathTree S ps) (.leaf sib)

/-- Mask selecting only the end of the path. -/
def pathMask : List (Bool × Bytes) → List Bool
  | [] => [true]
  | (true, _) :: ps => false :: pathMask ps
  | (false, _) :: ps => pathMask ps ++ [false]

/-- Index at the end of the path. -/
def pathIndex (g : Nat) : List (Bool × Bytes) → Nat
  | [] => g
  | (b, _) :: ps => pathIndex (2 * g + b.toNat) ps

theorem pathTree_append (S : Tree) (ps qs : List (Bool × Bytes)) :
    pathTree S (ps ++ qs) = pathTree (pathTree S qs) ps := by
  induction ps with
  | nil => rfl
  | cons p ps ih => obtain ⟨_ | _, s⟩ := p <;> simp [pathTree, ih]

theorem pathIndex_append (g : Nat) (ps qs : List (Bool × Bytes)) :
    pathIndex g (ps ++ qs) = pathIndex (pathIndex g ps) qs := by
  induction ps generalizing g with
  | nil => rfl
  | cons p ps ih => obtain ⟨b, s⟩ := p; simp [pathIndex, ih]

theorem pathIndex_eq (g : Nat) (ps : List (Bool × Bytes)) :
    pathIndex g ps = g * 2 ^ ps.length + pathIndex 0 ps := by
  induction ps generalizing g with
  | nil => simp [pathIndex]
  | cons p ps ih =>
    obtain ⟨b, s⟩ := p
    simp only [pathIndex, List.length_cons]
    rw [ih (2 * g + b.toNat), ih (2 * 0 + b.toNat), Nat.pow_succ]
    simp only [Nat.mul_zero, Nat.zero_add, Nat.add_mul]
    rw [Nat.add_assoc, Nat.mul_comm 2 g, Nat.mul_assoc, Nat.mul_comm 2]

theorem pathTree_chunked {S : Tree} (hS : S.Chunked) {ps : List (Bool × Bytes)}
    (h : ∀ p ∈ ps, p.2.length = 32) : (pathTree S ps).Chunked := by
  induction ps with
  | nil => exact hS
  | cons p ps ih =>
    have h1 := h p (by simp)
    have h2 := ih (fun q hq => h q (by simp [hq]))
    obtain ⟨_ | _, s⟩ := p
    · exact ⟨h2, h1⟩
    · exact ⟨h1, h2⟩

/-- Selection of values by a mask, as in `Multiproof.values`. -/
def select {α : Type} (l : List α) (m : List Bool) : List α :=
  (l.zip m).filterMap (fun (node, isValue) => if isValue then some node else none)

theorem select_append {α : Type} {l l' : List α} {m m' : List Bool} (h : l.length = m.length) :
    select (l ++ l') (m ++ m') = select l m ++ select l' m' := by
  unfold select
  rw [List.zip_append h, List.filterMap_append]

theorem pathMask_length (v : Bytes) (ps : List (Bool × Bytes)) (g : Nat) :
    (pathMask ps).length = ((pathTree (.leaf v) ps).leafIndices g).length := by
  induction ps generalizing g with
  | nil => rfl
  | cons p ps ih =>
    obtain ⟨_ | _, s⟩ := p
    · simp [pathMask, pathTree, Tree.leafIndices, ih (2 * g)]
    · simp [pathMask, pathTree, Tree.leafIndices, ih (2 * g + 1)]

theorem select_path (f : Nat → Nat) (v : Bytes) (ps : List (Bool × Bytes)) (g : Nat) :
    select ((((pathTree (.leaf v) ps).leafIndices g).map f).zip (pathTree (.leaf v) ps).leaves)
      (pathMask ps) = [(f (pathIndex g ps), v)] := by
  induction ps generalizing g with
  | nil => rfl
  | cons p ps ih =>
    obtain ⟨_ | _, s⟩ := p
    · simp only [pathTree, pathMask, Tree.leafIndices, Tree.leaves, List.map_append, pathIndex]
      rw [List.zip_append (by rw [List.length_map, ← leaves_length]), select_append, ih]
      · simp [select]
      · rw [List.length_zip, List.length_map, ← leaves_length, Nat.min_self,
          pathMask_length v ps (2 * g), ← leaves_length]
    · simp only [pathTree, pathMask, Tree.leafIndices, Tree.leaves, List.map_append, pathIndex]
      have : select (((List.map f [2 * g] ++ ((pathTree (.leaf v) ps).leafIndices (2 * g + 1)).map f).zip
          ([s] ++ (pathTree (.leaf v) ps).leaves))) ([false] ++ pathMask ps) =
          [(f (pathIndex (2 * g + 1) ps), v)] := by
        rw [List.zip_append (by simp), select_append (by simp), ih]
        simp [select]
      simpa using this

/-- The path from the root of a tree to any of its nodes, with the sibling roots. -/
theorem exists_path (T : Tree) (hT : T.Chunked) : ∀ g t, T.nodeAt g = some t →
    ∃ ps : List (Bool × Bytes), pathIndex 1 ps = g ∧ (∀ p ∈ ps, p.2.length = 32) ∧
      ∀ S : Tree, S.root X = t.root X → (pathTree S ps).root X = T.root X := by
  intro g
  induction g using Nat.strongRecOn with
  | _ g ih =>
    intro t h
    rw [Tree.nodeAt] at h
    split at h
    · cases h
    · split at h
      · cases h; rename_i h1; exact ⟨[], by simp [pathIndex, h1], by simp, fun S hS => hS⟩
      · rename_i h0 h1
        split at h
        · rename_i l r hlr
          obtain ⟨ps, p1, p2, p3⟩ := ih (g / 2) (by omega) _ hlr
          have hc := chunked_nodeAt hT hlr
          split at h <;> cases h
          · rename_i he
            refine ⟨ps ++ [(false, r.root X)], ?_, ?_, ?_⟩
            · rw [pathIndex_append, p1]; simp [pathIndex]; omega
            · intro p hp; simp at hp; rcases hp with hp | hp
              · exact p2 p hp
              · subst hp; exact Tree.root_length X hc.2
            · intro S hS
              rw [pathTree_append]
              apply p3; simp [pathTree, Tree.root, hS]
          · rename_i he
            refine ⟨ps ++ [(true, l.root X)], ?_, ?_, ?_⟩
            · rw [pathIndex_append, p1]; simp [pathIndex]; omega
            · intro p hp; simp at hp; rcases hp with hp | hp
              · exact p2 p hp
              · subst hp; exact Tree.root_length X hc.1
            · intro S hS
              rw [pathTree_append]
              apply p3; simp [pathTree, Tree.root, hS]
        · cases h

/-- The proof along a path which reports only its end. -/
def pathProof (v : Bytes) (ps : List (Bool × Bytes)) : Multiproof :=
  { data := (pathTree (.leaf v) ps).leaves.flatten
    valueMask := pathMask ps
    descriptor := (pathTree (.leaf v) ps).preorder
    maxStackDepth := 0 }

theorem pathProof_encodes {v : Bytes} (hv : v.length = 32) {ps : List (Bool × Bytes)}
    (h : ∀ p ∈ ps, p.2.length = 32) : Encodes (pathProof v ps) (pathTree (.leaf v) ps) :=
  ⟨rfl, pathTree_chunked (S := .leaf v) hv h, [], by simp [pathProof]⟩

theorem pathProof_values {v : Bytes} (hv : v.length = 32) {ps : List (Bool × Bytes)}
    (h : ∀ p ∈ ps, p.2.length = 32) :
    (pathProof v ps).values = [(pathIndex 1 ps % U64, v)] := by
  have := select_path (· % U64) v ps 1
  rw [← nodes_encodes (pathProof_encodes hv h)] at this
  exact this

theorem pathProof_root {v : Bytes} (hv : v.length = 32) {ps : List (Bool × Bytes)}
    (h : ∀ p ∈ ps, p.2.length = 32) (hne : ps ≠ []) :
    (pathProof v ps).calculateRoot X = .ok ((pathTree (.leaf v) ps).root X) := by
  have he := pathProof_encodes hv h
  match ps, hne with
  | (true, s) :: ps, _ => exact calculateRoot_encodes X he (Nat.zero_le _)
  | (false, s) :: ps, _ => exact calculateRoot_encodes X he (Nat.zero_le _)

/-- The low `k` bits of `n` as a path with zero siblings, most significant first. -/
def bitPath : (k : Nat) → Nat → List (Bool × Bytes)
  | 0, _ => []
  | k + 1, n => bitPath k (n / 2) ++ [(decide (n % 2 = 1), zeroRoot)]

theorem bitPath_length (k n : Nat) : (bitPath k n).length = k := by
  induction k generalizing n with
  | zero => rfl
  | succ k ih => simp [bitPath, ih]

theorem bitPath_chunk (k n : Nat) : ∀ p ∈ bitPath k n, p.2.length = 32 := by
  induction k generalizing n with
  | zero => simp [bitPath]
  | succ k ih =>
    intro p hp
    simp only [bitPath, List.mem_append, List.mem_singleton] at hp
    rcases hp with hp | hp
    · exact ih _ p hp
    · subst hp; simp [zeroRoot]

theorem bitPath_index (k n : Nat) (h : n < 2 ^ k) : pathIndex 0 (bitPath k n) = n := by
  induction k generalizing n with
  | zero => simp [bitPath, pathIndex]; omega
  | succ k ih =>
    rw [bitPath, pathIndex_append, ih (n / 2) (by rw [Nat.pow_succ] at h; omega)]
    simp only [pathIndex]
    by_cases h2 : n % 2 = 1 <;> simp [h2] <;> omega

end Signal
