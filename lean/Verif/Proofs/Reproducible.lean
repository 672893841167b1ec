import Verif.Proofs.Builder
import Verif.Model.GuestReader
import Verif.Model.Timed

/-!
# Helper lemmas: nothing that the code leaves to chance reaches a result

The iteration order of the builder's hash set, and the order that an unstable sort gives to entries with equal keys.
-/

namespace Signal
open Spec

/-! ## The order of the helper indices -/

theorem one_lt_of_mem_branchLoop (i : Nat) : ∀ x ∈ (branchLoop i).dropLast, 1 < x := by
  induction i using Nat.strongRecOn with
  | ind i ih =>
    intro x hx
    rw [branchLoop] at hx
    split at hx
    · rename_i h
      rw [List.dropLast_cons_of_ne_nil (by rw [branchLoop]; split <;> simp)] at hx
      rcases List.mem_cons.1 hx with rfl | hx
      · exact h
      · refine ih (sibling (parent i)) ?_ x hx
        unfold sibling parent; split <;> omega
    · simp at hx

theorem self_mem_path {i : Nat} (h : 1 < i) : i ∈ getPathIndices i := by
  unfold getPathIndices
  rw [pathLoop, if_pos h, List.dropLast_cons_of_ne_nil (by rw [pathLoop]; split <;> simp)]
  exact List.mem_cons_self

/-- The sorted list of indices does not depend on the order in which the hash set yields the helper indices. No condition on the request. -/
theorem proofIndices_order (order order' : List Nat → List Nat) (ho : ∀ l, (order l).Perm l) (ho' : ∀ l, (order' l).Perm l)
    (S : List Nat) : computeProofIndicesAndValueMask order S = computeProofIndicesAndValueMask order' S := by
  have hdis : ∀ x, x ∈ (S.flatMap getBranchIndices).eraseDups.filter
      (fun a => !(S.flatMap getPathIndices).eraseDups.contains a) → x ∉ S := by
    intro x hx hxS
    obtain ⟨h1, h2⟩ := List.mem_filter.1 hx
    rw [List.mem_eraseDups, List.mem_flatMap] at h1
    obtain ⟨i, -, hi⟩ := h1
    have := one_lt_of_mem_branchLoop _ x hi
    have hm : x ∈ (S.flatMap getPathIndices).eraseDups := by
      rw [List.mem_eraseDups, List.mem_flatMap]
      exact ⟨x, hxS, self_mem_path this⟩
    rw [List.contains_iff_mem.2 hm] at h2
    exact absurd h2 (by simp)
  have key : ((order ((S.flatMap getBranchIndices).eraseDups.filter
        (fun a => !(S.flatMap getPathIndices).eraseDups.contains a))).map (·, false) ++
        S.map (·, true)).mergeSort (fun a b => lexLe a.1 b.1) =
      ((order' ((S.flatMap getBranchIndices).eraseDups.filter
        (fun a => !(S.flatMap getPathIndices).eraseDups.contains a))).map (·, false) ++
        S.map (·, true)).mergeSort (fun a b => lexLe a.1 b.1) := by
    apply List.Perm.eq_of_pairwise (le := fun a b => lexLe a.1 b.1 = true)
    · intro a b ha hb h1 h2
      have e := lexLe_antisymm h1 h2
      rw [List.mem_mergeSort, List.mem_append, List.mem_map, List.mem_map] at ha hb
      rcases ha with ⟨y, hy, rfl⟩ | ⟨y, hy, rfl⟩ <;> rcases hb with ⟨z, hz, rfl⟩ | ⟨z, hz, rfl⟩ <;>
        simp only at e <;> subst e
      · rfl
      · exact absurd hz (hdis _ ((ho _).mem_iff.1 hy))
      · exact absurd hy (hdis _ ((ho' _).mem_iff.1 hz))
      · rfl
    · exact List.pairwise_mergeSort (fun a b c => lexLe_trans a.1 b.1 c.1) (fun a b => lexLe_total a.1 b.1) _
    · exact List.pairwise_mergeSort (fun a b c => lexLe_trans a.1 b.1 c.1) (fun a b => lexLe_total a.1 b.1) _
    · refine (List.mergeSort_perm _ _).trans (List.Perm.trans ?_ (List.mergeSort_perm _ _).symm)
      exact (((ho _).trans (ho' _).symm).map _).append_right _
  unfold computeProofIndicesAndValueMask
  simp only [key]

theorem build_order (X : Ext) (order order' : List Nat → List Nat) (ho : ∀ l, (order l).Perm l) (ho' : ∀ l, (order' l).Perm l) :
    build X order = build X order' := by
  funext S T
  unfold build
  rw [proofIndices_order order order' ho ho']

/-! ## The order of exits in the same epoch -/

section

variable {ε : Type} (spec : ChainSpec) (patches : OMap StatePatch) (validators : OMap ValidatorInfo) (pe churn : Nat)

/-- One turn of the loop. -/
def exitStep (i e : Nat) (x : Nat × Nat) : Option (Nat × Nat) :=
  match validators.get? i with
  | none => none
  | some v =>
    if prevExitEpoch patches pe i v = e then some x
    else if prevExitEpoch patches pe i v = spec.farFutureEpoch ∧ x.1 ≤ e ∧
        v.effectiveBalance ≤ wrapAdd x.2 (wrapMul (satSub e x.1) churn) then
      some (e, wrapAdd x.2 (wrapMul (satSub e x.1) churn) - v.effectiveBalance)
    else none

theorem validateExits_step (i e : Nat) (l : List (Nat × Nat)) (earliest t : Nat) :
    (validateExits spec patches validators pe churn ((i, e) :: l) earliest t : Res ε Nat) =
      match exitStep spec patches validators pe churn i e (earliest, t) with
      | none => .panic
      | some x => validateExits spec patches validators pe churn l x.1 x.2 := by
  rw [validateExits]
  unfold exitStep
  cases hi : validators.get? i with
  | none => rfl
  | some v =>
    simp only [expect, Res.ok_bind]
    by_cases h0 : prevExitEpoch patches pe i v = e
    · rw [if_pos h0, if_pos h0]
    · rw [if_neg h0, if_neg h0]
      by_cases h1 : prevExitEpoch patches pe i v = spec.farFutureEpoch
      · by_cases h2 : earliest ≤ e
        · by_cases h3 : v.effectiveBalance ≤ wrapAdd t (wrapMul (satSub e earliest) churn)
          · simp [assert, h1, h2, h3, Res.ok_bind]
          · simp [assert, h1, h2, h3, Res.ok_bind]
        · simp [assert, h1, h2, Res.ok_bind]
      · simp [assert, h1]

theorem exitStep_comm (i j e : Nat) (x : Nat × Nat) :
    (exitStep spec patches validators pe churn i e x).bind (exitStep spec patches validators pe churn j e) =
      (exitStep spec patches validators pe churn j e x).bind (exitStep spec patches validators pe churn i e) := by
  obtain ⟨E, t⟩ := x
  have sub : satSub e e = 0 := by unfold satSub; omega
  have add : ∀ b, wrapAdd (wrapAdd t (wrapMul (satSub e E) churn) - b) (wrapMul (satSub e e) churn) =
      wrapAdd t (wrapMul (satSub e E) churn) - b := by
    intro b
    have : wrapAdd t (wrapMul (satSub e E) churn) < U64 := Nat.mod_lt _ (by decide)
    rw [sub]
    generalize wrapAdd t (wrapMul (satSub e E) churn) = y at *
    unfold wrapMul wrapAdd
    simp only [Nat.zero_mul, Nat.zero_mod, Nat.add_zero]
    exact Nat.mod_eq_of_lt (by omega)
  unfold exitStep
  cases hi : validators.get? i with
  | none => cases hj : validators.get? j with
    | none => rfl
    | some vj =>
      simp only [Option.bind_none]
      split_ifs <;> rfl
  | some vi =>
    cases hj : validators.get? j with
    | none => simp only [Option.bind_none]; split_ifs <;> rfl
    | some vj =>
      simp only
      by_cases hi0 : prevExitEpoch patches pe i vi = e
      · by_cases hj0 : prevExitEpoch patches pe j vj = e
        · simp [hi0, hj0]
        · simp only [hi0, if_true, Option.bind_some]
          split_ifs <;> rfl
      · by_cases hj0 : prevExitEpoch patches pe j vj = e
        · simp only [hj0, if_true, Option.bind_some]
          split_ifs <;> rfl
        · simp only [hi0, hj0, if_false]
          by_cases hi1 : prevExitEpoch patches pe i vi = spec.farFutureEpoch
          · by_cases hj1 : prevExitEpoch patches pe j vj = spec.farFutureEpoch
            · by_cases hE : E ≤ e
              · simp only [hi1, hj1, hE, true_and]
                by_cases h1 : vi.effectiveBalance ≤ wrapAdd t (wrapMul (satSub e E) churn) <;>
                by_cases h2 : vj.effectiveBalance ≤ wrapAdd t (wrapMul (satSub e E) churn) <;>
                simp only [h1, h2, if_true, if_false, Option.bind_some, Option.bind_none, add, le_refl, true_and]
                · by_cases h3 : vj.effectiveBalance ≤ wrapAdd t (wrapMul (satSub e E) churn) - vi.effectiveBalance
                  · rw [if_pos h3, if_pos (by omega)]
                    congr 2; omega
                  · rw [if_neg h3, if_neg (by omega)]
                · rw [if_neg (by omega)]
                · rw [if_neg (by omega)]
              · simp [hE]
            · simp [hj1]
          · simp [hi1]

theorem validateExits_tail (y : Nat × Nat) {l l' : List (Nat × Nat)}
    (h : ∀ E t, (validateExits spec patches validators pe churn l E t : Res ε Nat) = validateExits spec patches validators pe churn l' E t)
    (E t : Nat) : (validateExits spec patches validators pe churn (y :: l) E t : Res ε Nat) =
      validateExits spec patches validators pe churn (y :: l') E t := by
  rw [validateExits_step, validateExits_step]
  cases exitStep spec patches validators pe churn y.1 y.2 (E, t) with
  | none => rfl
  | some x => exact h _ _

theorem validateExits_swap (i j e : Nat) (l : List (Nat × Nat)) (E t : Nat) :
    (validateExits spec patches validators pe churn ((i, e) :: (j, e) :: l) E t : Res ε Nat) =
      validateExits spec patches validators pe churn ((j, e) :: (i, e) :: l) E t := by
  have two : ∀ i j, (validateExits spec patches validators pe churn ((i, e) :: (j, e) :: l) E t : Res ε Nat) =
      match (exitStep spec patches validators pe churn i e (E, t)).bind (exitStep spec patches validators pe churn j e) with
      | none => .panic
      | some x => validateExits spec patches validators pe churn l x.1 x.2 := by
    intro i j
    rw [validateExits_step]
    cases exitStep spec patches validators pe churn i e (E, t) with
    | none => rfl
    | some x => simp only [Option.bind_some]; rw [validateExits_step]
  rw [two, two, exitStep_comm]

/-- An entry may be moved in front of entries of the same epoch. -/
theorem validateExits_move (x : Nat × Nat) (l₁ l₂ : List (Nat × Nat)) (h : ∀ y ∈ l₁, y.2 = x.2) : ∀ E t,
    (validateExits spec patches validators pe churn (l₁ ++ x :: l₂) E t : Res ε Nat) =
      validateExits spec patches validators pe churn (x :: (l₁ ++ l₂)) E t := by
  induction l₁ with
  | nil => intros; rfl
  | cons y l₁ ih =>
    intro E t
    rw [List.cons_append, validateExits_tail spec patches validators pe churn y (ih (fun z hz => h z (List.mem_cons_of_mem _ hz))) E t]
    obtain ⟨i, e⟩ := x
    obtain ⟨j, e'⟩ := y
    have : e' = e := h _ List.mem_cons_self
    subst this
    exact validateExits_swap spec patches validators pe churn _ _ _ _ _ _

/-- All orders by epoch give the same result. -/
theorem validateExits_sorted (l : List (Nat × Nat)) : ∀ l', l.Perm l' → l.Pairwise (fun a b => a.2 ≤ b.2) →
    l'.Pairwise (fun a b => a.2 ≤ b.2) → ∀ E t,
    (validateExits spec patches validators pe churn l E t : Res ε Nat) = validateExits spec patches validators pe churn l' E t := by
  induction l with
  | nil => intro l' hp _ _ E t; rw [hp.nil_eq]
  | cons x l ih =>
    intro l' hp h1 h2 E t
    obtain ⟨l₁, l₂, rfl⟩ := List.append_of_mem (hp.mem_iff.1 List.mem_cons_self)
    have heq : ∀ y ∈ l₁, y.2 = x.2 := by
      intro y hy
      have a : y.2 ≤ x.2 := (List.pairwise_append.1 h2).2.2 y hy x List.mem_cons_self
      rcases List.mem_cons.1 (hp.mem_iff.2 (List.mem_append_left _ hy)) with rfl | hm
      · rfl
      · have := (List.pairwise_cons.1 h1).1 y hm
        omega
    rw [validateExits_move spec patches validators pe churn x l₁ l₂ heq]
    refine validateExits_tail spec patches validators pe churn x (ih _ ?_ (List.pairwise_cons.1 h1).2 ?_) E t
    · exact (hp.trans List.perm_middle).cons_inv
    · exact h2.sublist (List.Sublist.append_left (List.sublist_cons_self _ _) _)

end

end Signal
