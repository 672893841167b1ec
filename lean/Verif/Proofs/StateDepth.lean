import Verif.Spec.StateTree
import Verif.Proofs.FreeHash
import Verif.Props.Depth

/-!
# The depth of the trees of states
-/

namespace Signal.StateSsz
open Signal.Spec Gen

set_option maxRecDepth 100000

mutual
/-- A bound for the depth of the tree of a value. -/
def typDepth : Typ → Nat
  | .bytes n => depthFor ((n + 31) / 32)
  | .bool => 0
  | .bitvector n => depthFor ((n + 255) / 256)
  | .bitlist limit => 1 + depthFor ((limit + 255) / 256)
  | .vector n elem => (match basicSize elem with
    | some k => depthFor ((n * k + 31) / 32)
    | none => depthFor n) + typDepth elem
  | .list limit elem => 1 + ((match basicSize elem with
    | some k => depthFor ((limit * k + 31) / 32)
    | none => depthFor limit) + typDepth elem)
  | .container fields => depthFor fields.length + fieldsDepth fields

/-- The same for all of them. -/
def fieldsDepth : List Typ → Nat
  | [] => 0
  | t :: ts => max (typDepth t) (fieldsDepth ts)
end

theorem chunksTree_depth (limit : Nat) (b : Bytes) : (chunksTree limit b).depth ≤ depthFor limit := perfect_depth _ 0 _ fun _ => Nat.le_refl _

theorem seriesTree_depth {limit n : Nat} {basic : Option Nat} {f : Val → Tree} (hf : ∀ v, (f v).depth ≤ n) (l : List Val) :
    (seriesTree limit basic f l).depth ≤ (match basic with
      | some k => depthFor ((limit * k + 31) / 32)
      | none => depthFor limit) + n := by
  cases basic with
  | some k => exact (chunksTree_depth _ _).trans (Nat.le_add_right _ _)
  | none =>
    apply perfect_depth
    intro i
    split
    · exact hf _
    · exact Nat.zero_le _

mutual
theorem valTree_depth : ∀ (t : Typ) (v : Val), (valTree t v).depth ≤ typDepth t
  | .bytes n, v => by
    cases v <;> simp only [valTree, typDepth] <;> first | exact chunksTree_depth _ _ | exact Nat.zero_le _
  | .bool, v => by cases v <;> simp [valTree, typDepth, Tree.depth]
  | .bitvector n, v => by
    cases v <;> simp only [valTree, typDepth] <;> first | exact chunksTree_depth _ _ | exact Nat.zero_le _
  | .bitlist n, v => by
    cases v <;> simp only [valTree, typDepth, Tree.depth] <;> first | exact Nat.zero_le _ | skip
    have := chunksTree_depth ((n + 255) / 256) (bitBytes ‹_›)
    omega
  | .vector n elem, v => by
    cases v <;> simp only [valTree, typDepth] <;> first | exact Nat.zero_le _ | exact seriesTree_depth (valTree_depth elem) _
  | .list n elem, v => by
    cases v <;> simp only [valTree, typDepth, Tree.depth] <;> first | exact Nat.zero_le _ | skip
    have := seriesTree_depth (limit := n) (basic := basicSize elem) (valTree_depth elem) ‹_›
    simp only [Nat.max_zero]
    omega
  | .container fields, v => by
    cases v <;> simp only [valTree, typDepth] <;> first | exact Nat.zero_le _ | exact container_depth _ _ _ (fieldTrees_depth fields _)

theorem fieldTrees_depth : ∀ (ts : List Typ) (vs : List Val), ∀ t ∈ fieldTrees ts vs, t.depth ≤ fieldsDepth ts
  | [], vs => by simp [fieldTrees]
  | t :: ts, vs => by
    intro u hu
    cases vs with
    | nil => simp [fieldTrees] at hu
    | cons v vs =>
      simp only [fieldTrees, List.mem_cons] at hu
      simp only [fieldsDepth]
      rcases hu with rfl | hu
      · exact (valTree_depth t v).trans (Nat.le_max_left _ _)
      · exact (fieldTrees_depth ts vs u hu).trans (Nat.le_max_right _ _)
end

theorem stateTree_depth (s : State) : (stateTree s).depth ≤ 100 := by
  have h : ∀ f : Variant, typDepth f.typ ≤ 100 := by intro f; cases f <;> decide +kernel
  exact (valTree_depth _ _).trans (h s.variant)

end Signal.StateSsz
