import Verif.Spec.Ssz
import Verif.Model.GuestReader
import Verif.Proofs.Multiproof
import Verif.Proofs.Bytes
import Mathlib.Tactic.Ring

/-! Helper lemmas on SSZ trees and chunks. -/

namespace Signal
open Spec

/-- Descending from node `g` by the low `k` bits `j`. -/
theorem nodeAt_mul (T : Tree) (g : Nat) (hg : 0 < g) (k : Nat) : ∀ j, j < 2 ^ k →
    T.nodeAt (g * 2 ^ k + j) = (T.nodeAt g).bind (fun t => t.nodeAt (2 ^ k + j)) := by
  induction k with
  | zero =>
    intro j hj
    have : j = 0 := by simpa using hj
    subst this
    simp [nodeAt_one]
  | succ k ih =>
    intro j hj
    have h2 : j / 2 < 2 ^ k := by rw [Nat.pow_succ] at hj; omega
    have pk : 0 < 2 ^ k := Nat.pow_pos (by omega)
    have hp : 0 < g * 2 ^ k + j / 2 := Nat.lt_of_lt_of_le (Nat.mul_pos hg pk) (Nat.le_add_right _ _)
    have e1 : g * 2 ^ (k + 1) = 2 * (g * 2 ^ k) := by rw [Nat.pow_succ]; ring
    have e2 : 2 ^ (k + 1) = 2 * 2 ^ k := by rw [Nat.pow_succ]; ring
    rcases Nat.mod_two_eq_zero_or_one j with h | h
    · have a1 : g * 2 ^ (k + 1) + j = 2 * (g * 2 ^ k + j / 2) := by omega
      have a2 : 2 ^ (k + 1) + j = 2 * (2 ^ k + j / 2) := by omega
      rw [a1, nodeAt_even _ _ hp, ih _ h2, a2]
      cases T.nodeAt g with
      | none => rfl
      | some t => simp only [Option.bind_some]; rw [nodeAt_even _ _ (by omega)]
    · have a1 : g * 2 ^ (k + 1) + j = 2 * (g * 2 ^ k + j / 2) + 1 := by omega
      have a2 : 2 ^ (k + 1) + j = 2 * (2 ^ k + j / 2) + 1 := by omega
      rw [a1, nodeAt_odd _ _ hp, ih _ h2, a2]
      cases T.nodeAt g with
      | none => rfl
      | some t => simp only [Option.bind_some]; rw [nodeAt_odd _ _ (by omega)]

theorem nodeAt_mul' {T t : Tree} {g : Nat} (hg : 0 < g) (h : T.nodeAt g = some t) (k j : Nat)
    (hj : j < 2 ^ k) : T.nodeAt (g * 2 ^ k + j) = t.nodeAt (2 ^ k + j) := by
  rw [nodeAt_mul T g hg k j hj, h]; rfl

theorem nodeAt_two (l r : Tree) : (Tree.node l r).nodeAt 2 = some l := by
  have := nodeAt_even (.node l r) 1 (by omega)
  rw [nodeAt_one] at this; simpa using this

theorem nodeAt_three (l r : Tree) : (Tree.node l r).nodeAt 3 = some r := by
  have := nodeAt_odd (.node l r) 1 (by omega)
  rw [nodeAt_one] at this; simpa using this

/-- The subtrees of a perfect tree. -/
theorem nodeAt_perfect (d : Nat) : ∀ (f : Nat → Tree) (i : Nat), i < 2 ^ d →
    (perfect d f).nodeAt (2 ^ d + i) = some (f i) := by
  induction d with
  | zero => intro f i hi; have : i = 0 := by simpa using hi
            subst this; simp [perfect, nodeAt_one]
  | succ d ih =>
    intro f i hi
    have e : 2 ^ (d + 1) = 2 * 2 ^ d := by rw [Nat.pow_succ]; ring
    by_cases h : i < 2 ^ d
    · have : 2 ^ (d + 1) + i = 2 * 2 ^ d + i := by omega
      rw [this, perfect, nodeAt_mul' (by omega) (nodeAt_two _ _) d i h, ih _ _ h]
    · have : 2 ^ (d + 1) + i = 3 * 2 ^ d + (i - 2 ^ d) := by omega
      rw [this, perfect, nodeAt_mul' (by omega) (nodeAt_three _ _) d _ (by omega), ih _ _ (by omega)]
      congr 2; omega

theorem nodeAt_container (d : Nat) (l : List Tree) (i : Nat) (t : Tree) (hi : i < 2 ^ d)
    (h : l[i]? = some t) : (container d l).nodeAt (2 ^ d + i) = some t := by
  rw [container, nodeAt_perfect d _ i hi]
  simp [List.getD, h]

theorem perfect_chunked (d : Nat) : ∀ (f : Nat → Tree), (∀ i, (f i).Chunked) → (perfect d f).Chunked := by
  induction d with
  | zero => intro f h; exact h 0
  | succ d ih => intro f h; exact ⟨ih _ h, ih _ (fun i => h _)⟩

theorem zeroRoot_length : zeroRoot.length = 32 := by simp [zeroRoot]

theorem container_chunked (d : Nat) (l : List Tree) (h : ∀ t ∈ l, t.Chunked) :
    (container d l).Chunked := by
  apply perfect_chunked
  intro i
  rw [List.getD_eq_getElem?_getD]
  cases hl : l[i]? with
  | none => exact zeroRoot_length
  | some t => exact h t (List.mem_of_getElem? hl)

theorem u64Chunk_length (n : Nat) : (u64Chunk n).length = 32 := by simp [u64Chunk, leBytes_length]
theorem boolChunk_length (b : Bool) : (boolChunk b).length = 32 := by simp [boolChunk]

theorem u64FromChunk_u64Chunk (n : Nat) (h : n < 2 ^ 64) : u64FromChunk (u64Chunk n) = n := by
  unfold u64FromChunk u64Chunk
  rw [List.take_left' (leBytes_length 8 n), ofLE_leBytes]
  apply Nat.mod_eq_of_lt
  omega

theorem boolFromChunk_boolChunk {ε : Type} (b : Bool) :
    (boolFromChunk (boolChunk b) : Res ε Bool) = .ok b := by
  cases b <;> simp [boolFromChunk, boolChunk, assert]

theorem Spec.Validator.tree_chunked {v : Validator} (h : v.WF) : v.tree.Chunked := by
  apply container_chunked
  intro t ht
  simp only [List.mem_cons, List.not_mem_nil, or_false] at ht
  rcases ht with rfl | rfl | rfl | rfl | rfl | rfl | rfl | rfl
  · have := h.pubkey
    constructor
    · simp [Tree.Chunked]; omega
    · simp [Tree.Chunked]; omega
  · exact h.withdrawalCredentials
  all_goals first | exact u64Chunk_length _ | exact boolChunk_length _

theorem registryTree_chunked {vs : List Validator} (h : RegistryWF vs) : (registryTree vs).Chunked := by
  refine ⟨perfect_chunked _ _ ?_, u64Chunk_length _⟩
  intro i
  cases hv : vs[i]? with
  | none => exact zeroRoot_length
  | some v => exact Spec.Validator.tree_chunked (h.wf v (List.mem_of_getElem? hv))

/-- Generalized index of field `g` (an index in the validator's tree) of validator `i`. -/
theorem validatorFieldGindex_eq (g i k : Nat) (hg : g < 2 ^ (k + 1)) (hg' : 2 ^ k ≤ g) (hk : k = 3 ∨ k = 4)
    (hk4 : k = 4 → g < 18) (hi : i < 2 ^ 40) :
    validatorFieldGindex g i = (2 ^ 41 + i) * 2 ^ k + (g - 2 ^ k) := by
  unfold validatorFieldGindex wrapAdd wrapMul
  rcases hk with rfl | rfl
  · have : g / 8 = 1 := by omega
    rw [this]; omega
  · have := hk4 rfl
    have : g / 8 = 2 := by omega
    rw [this]; omega

theorem registryTree_validator {vs : List Validator} {i : Nat} {v : Validator} (hi : i < 2 ^ 40)
    (h : vs[i]? = some v) : (registryTree vs).nodeAt (2 ^ 41 + i) = some v.tree := by
  have e : 2 ^ 41 + i = 2 * 2 ^ 40 + i := by omega
  rw [e, registryTree, nodeAt_mul' (by omega) (nodeAt_two _ _) 40 i hi, nodeAt_perfect 40 _ i hi, h]

theorem registryTree_field {vs : List Validator} {i : Nat} {v : Validator} (hi : i < 2 ^ 40)
    (h : vs[i]? = some v) (g k : Nat) (hg : g < 2 ^ (k + 1)) (hg' : 2 ^ k ≤ g) (hk : k = 3 ∨ k = 4)
    (hk4 : k = 4 → g < 18) :
    (registryTree vs).nodeAt (validatorFieldGindex g i) = v.tree.nodeAt g := by
  rw [validatorFieldGindex_eq g i k hg hg' hk hk4 hi,
    nodeAt_mul' (by omega) (registryTree_validator hi h) k _ (by rw [Nat.pow_succ] at hg; omega)]
  congr 1; omega

theorem Spec.Validator.nodeAt_field (v : Validator) (i : Nat) (t : Tree) (hi : i < 8)
    (h : [pubkeyTree v.pubkey, .leaf v.withdrawalCredentials, .leaf (u64Chunk v.effectiveBalance),
      .leaf (boolChunk v.slashed), .leaf (u64Chunk v.activationEligibilityEpoch),
      .leaf (u64Chunk v.activationEpoch), .leaf (u64Chunk v.exitEpoch),
      .leaf (u64Chunk v.withdrawableEpoch)][i]? = some t) :
    v.tree.nodeAt (8 + i) = some t :=
  nodeAt_container 3 _ i t (by omega) h

end Signal
