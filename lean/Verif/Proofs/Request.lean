import Verif.Props.Builder
import Verif.Props.Layout
import Verif.Props.Guest
import Mathlib.Data.List.Sort

/-! Helper lemmas: proofs for requests given in left-to-right order. -/

namespace Signal
open Spec

theorem Spec.LeftOf.below {x y x' y' : Nat} (h : LeftOf x y) (hx : Below x' x) (hy : Below y' y) : LeftOf x' y' := by
  obtain ⟨g, hg, h1, h2⟩ := h
  exact ⟨g, hg, hx.trans h1, hy.trans h2⟩

/-- Nodes of the same level are ordered by their indices. -/
theorem leftOf_of_lt (d : Nat) : ∀ a b, 2 ^ d ≤ a → b < 2 ^ (d + 1) → a < b → LeftOf a b := by
  induction d with
  | zero => intro a b h1 h2 h3; omega
  | succ d ih =>
    intro a b h1 h2 h3
    rw [Nat.pow_succ] at h1
    rw [Nat.pow_succ] at h2
    by_cases h : a / 2 = b / 2
    · have := Nat.pow_pos (n := d) (show 0 < 2 by omega)
      refine ⟨a / 2, by omega, ?_, ?_⟩
      · have : a = 2 * (a / 2) := by omega
        rw [← this]; exact Below.refl _
      · have : b = 2 * (a / 2) + 1 := by omega
        rw [← this]; exact Below.refl _
    · exact (ih (a / 2) (b / 2) (by omega) (by omega) (by omega)).below (below_half (Below.refl _))
        (below_half (Below.refl _))

theorem Spec.LeftOf.not_below {x y : Nat} (h : LeftOf x y) : ¬ Below x y ∧ ¬ Below y x := by
  obtain ⟨g, hg, h1, h2⟩ := h
  exact ⟨fun hb => below_sibling hg h1 (hb.trans h2), fun hb => below_sibling hg (hb.trans h1) h2⟩

theorem Spec.LeftOf.ne {x y : Nat} (h : LeftOf x y) : x ≠ y := by
  rintro rfl
  exact h.not_below.1 (Below.refl _)

/-- Two arrangements of the same indices from left to right are the same. -/
theorem leftOf_unique {l l' : List Nat} (hp : l.Perm l') (h : l.Pairwise LeftOf) (h' : l'.Pairwise LeftOf)
    (hl : ∀ x ∈ l, x < 2 ^ 64) : l = l' := by
  have hl' : ∀ x ∈ l', x < 2 ^ 64 := fun x hx => hl x (hp.mem_iff.2 hx)
  refine List.Perm.eq_of_pairwise (le := fun a b => shifted a < shifted b) ?_ ?_ ?_ hp
  · intro a b _ _ h1 h2; omega
  · exact h.imp_of_mem (fun ha hb hab => shifted_lt hab (hl _ ha) (hl _ hb))
  · exact h'.imp_of_mem (fun ha hb hab => shifted_lt hab (hl' _ ha) (hl' _ hb))

theorem pairwise_cases {α : Type} {R : α → α → Prop} {l : List α} (h : l.Pairwise R) {a b : α} (ha : a ∈ l)
    (hb : b ∈ l) : a = b ∨ R a b ∨ R b a := by
  induction l with
  | nil => simp at ha
  | cons c l ih =>
    obtain ⟨h1, h2⟩ := List.pairwise_cons.1 h
    rcases List.mem_cons.1 ha with ha | ha <;> rcases List.mem_cons.1 hb with hb | hb
    · exact Or.inl (ha.trans hb.symm)
    · exact Or.inr (Or.inl (ha ▸ h1 _ hb))
    · exact Or.inr (Or.inr (hb ▸ h1 _ ha))
    · exact ih h2 ha hb

theorem goodRequest_of_leftOf {T : Tree} {L : List Nat} {S : OSet} (hS : ∀ x, x ∈ S ↔ x ∈ L)
    (hL : L.Pairwise LeftOf) (hne : L ≠ []) (hr : ∀ x ∈ L, 2 ≤ x ∧ x < 2 ^ 64)
    (hp : ∀ x ∈ L, (T.nodeAt x).isSome) : GoodRequest T S := by
  refine ⟨?_, fun s hs => hr s ((hS s).1 hs), fun s hs => hp s ((hS s).1 hs), ?_⟩
  · rintro rfl
    obtain ⟨x, hx⟩ := List.exists_mem_of_ne_nil L hne
    have := (hS x).2 hx
    simp at this
  · intro s hs t ht hb
    rcases pairwise_cases hL ((hS s).1 hs) ((hS t).1 ht) with h | h | h
    · exact h
    · exact absurd hb h.not_below.1
    · exact absurd hb h.not_below.2

/-- A request given from left to right is served, and the values come in that order. -/
theorem build_request (X : Ext) {T : Tree} (hT : T.Chunked) {L : List (Nat × Bytes)} {S : OSet}
    (hS : OSet.Sorted S) (hm : ∀ x, x ∈ S ↔ x ∈ L.map (·.1)) (hL : (L.map (·.1)).Pairwise LeftOf) (hne : L ≠ [])
    (hr : ∀ x ∈ L.map (·.1), 2 ≤ x ∧ x < 2 ^ 64)
    (hv : ∀ x ∈ L, ∃ t, T.nodeAt x.1 = some t ∧ t.root X = x.2)
    (order : List Nat → List Nat) (ho : ∀ l, (order l).Perm l) (hcap : 126 ≤ X.stackCapacity) :
    ∃ p, build X order S T = .ok p ∧ p.verify X (T.root X) = .ok () ∧ p.values = L ∧ GoodRequest T S := by
  have hg : GoodRequest T S := by
    refine goodRequest_of_leftOf hm hL (by simpa using hne) hr ?_
    intro x hx
    obtain ⟨y, hy, rfl⟩ := List.mem_map.1 hx
    obtain ⟨t, ht, -⟩ := hv y hy
    rw [ht]; rfl
  obtain ⟨p, h1, h2⟩ := C28_built_proof_verifies X T hT S hS hg order ho hcap
  refine ⟨p, h1, h2, ?_, hg⟩
  obtain ⟨h3, h4, h5, -⟩ := C29_built_proof_values X T hT S hS hg order ho p h1
  have hnd : (L.map (·.1)).Nodup := hL.imp (fun h => h.ne)
  have hperm : S.Perm (L.map (·.1)) := (List.perm_ext_iff_of_nodup (sorted_nodup hS) hnd).2 hm
  have hk : p.values.map (·.1) = L.map (·.1) := by
    refine leftOf_unique (h3.trans hperm) h4 hL ?_
    intro x hx
    exact (hr x ((h3.trans hperm).mem_iff.1 hx)).2
  -- the values are determined by the indices
  apply List.ext_getElem
  · simpa using congrArg List.length hk
  · intro n hn hn'
    have hi : (p.values[n]).1 = (L[n]).1 := by
      have h6 := congrArg (fun l => l[n]?) hk
      simp only [List.getElem?_map, List.getElem?_eq_getElem hn, List.getElem?_eq_getElem hn', Option.map_some,
        Option.some.injEq] at h6
      exact h6
    obtain ⟨t, ht, hroot⟩ := h5 (p.values[n]).1 (p.values[n]).2 (List.getElem_mem hn)
    obtain ⟨t', ht', hroot'⟩ := hv _ (List.getElem_mem hn')
    rw [hi, ht'] at ht
    cases ht
    exact Prod.ext hi (hroot.symm.trans hroot')

/-- Decidable sufficient condition for `LeftOf` among small indices. -/
def leftOfB (x y : Nat) : Bool :=
  (List.range 10).any (fun d => (List.range 4).any (fun j => (List.range 4).any (fun k =>
    decide (2 ^ d ≤ x / 2 ^ j) && decide (y / 2 ^ k < 2 ^ (d + 1)) && decide (x / 2 ^ j < y / 2 ^ k))))

theorem leftOf_of_leftOfB {x y : Nat} (h : leftOfB x y = true) : LeftOf x y := by
  unfold leftOfB at h
  simp only [List.any_eq_true, List.mem_range, Bool.and_eq_true, decide_eq_true_eq] at h
  obtain ⟨d, -, j, -, k, -, ⟨h1, h2⟩, h3⟩ := h
  exact (leftOf_of_lt d _ _ h1 h2 h3).below ⟨j, rfl⟩ ⟨k, rfl⟩

theorem pairwise_leftOf {l : List Nat} (h : l.Pairwise (fun x y => leftOfB x y = true)) : l.Pairwise LeftOf :=
  h.imp leftOf_of_leftOfB

/-- The proof for the state root of a block. -/
theorem build_block (X : Ext) (h : Header) (hw : h.WF) (order : List Nat → List Nat) (ho : ∀ l, (order l).Perm l)
    (hcap : 126 ≤ X.stackCapacity) :
    ∃ p, build X order [11] h.tree = .ok p ∧ p.verify X (h.tree.root X) = .ok () ∧
      p.values = [(stateRootGindex, h.stateRoot)] ∧ GoodRequest h.tree [11] := by
  refine build_request X (Spec.Header.tree_chunked hw) (by decide) (by simp [stateRootGindex]) (by simp) (by simp)
    (by simp [stateRootGindex]) ?_
    order ho hcap
  intro x hx
  simp only [List.mem_cons, List.not_mem_nil, or_false] at hx
  subst hx
  exact ⟨_, (C50_header h).2, rfl⟩

/-- The proof for the slot of a block. -/
theorem build_slot (X : Ext) (h : Header) (hw : h.WF) (order : List Nat → List Nat) (ho : ∀ l, (order l).Perm l)
    (hcap : 126 ≤ X.stackCapacity) :
    ∃ p, build X order [8] h.tree = .ok p ∧ p.verify X (h.tree.root X) = .ok () ∧
      p.values = [(blockSlotGindex, u64Chunk h.slot)] ∧ GoodRequest h.tree [8] := by
  refine build_request X (Spec.Header.tree_chunked hw) (by decide) (by simp [blockSlotGindex]) (by simp) (by simp)
    (by simp [blockSlotGindex]) ?_
    order ho hcap
  intro x hx
  simp only [List.mem_cons, List.not_mem_nil, or_false] at hx
  subst hx
  exact ⟨_, (C50_header h).1, rfl⟩

/-- The proof for the fields of a state. -/
theorem build_state (X : Ext) (s : BeaconState) (hw : s.WF) (order : List Nat → List Nat)
    (ho : ∀ l, (order l).Perm l) (hcap : 126 ≤ X.stackCapacity) :
    ∃ p, build X order [65, 66, 75, 95, 97, 168, 268, 269, 270] s.tree = .ok p ∧
      p.verify X (s.tree.root X) = .ok () ∧
      p.values = [(genesisValidatorsRootGindex, s.genesisValidatorsRoot), (slotGindex, u64Chunk s.slot),
        (forkPreviousVersionGindex, versionChunk s.fork.previousVersion),
        (forkCurrentVersionGindex, versionChunk s.fork.currentVersion), (forkEpochGindex, u64Chunk s.fork.epoch),
        (validatorsGindex, (registryTree s.validators).root X),
        (finalizedCheckpointEpochGindex, u64Chunk s.finalizedEpoch),
        (earliestExitEpochGindex, u64Chunk s.earliestExitEpoch),
        (earliestConsolidationEpochGindex, u64Chunk s.earliestConsolidationEpoch)] ∧
      GoodRequest s.tree [65, 66, 75, 95, 97, 168, 268, 269, 270] := by
  refine build_request X (Spec.BeaconState.tree_chunked hw) (by decide) ?_ ?_ (by simp) ?_ ?_ order ho hcap
  · intro x
    simp only [List.map_cons, List.map_nil, List.mem_cons, List.not_mem_nil, or_false, genesisValidatorsRootGindex,
      slotGindex, forkPreviousVersionGindex, forkCurrentVersionGindex, forkEpochGindex, validatorsGindex,
      finalizedCheckpointEpochGindex, earliestExitEpochGindex, earliestConsolidationEpochGindex]
    omega
  · simp only [List.map_cons, List.map_nil]
    exact pairwise_leftOf (by decide +kernel)
  · simp only [List.map_cons, List.map_nil]
    decide
  · obtain ⟨h1, h2, h3, h4, h5, h6, h7, h8, h9⟩ := C50_state s
    intro x hx
    simp only [List.mem_cons, List.not_mem_nil, or_false] at hx
    rcases hx with rfl | rfl | rfl | rfl | rfl | rfl | rfl | rfl | rfl
    · exact ⟨_, h1, rfl⟩
    · exact ⟨_, h2, rfl⟩
    · exact ⟨_, h3, rfl⟩
    · exact ⟨_, h4, rfl⟩
    · exact ⟨_, h5, rfl⟩
    · exact ⟨_, h6, rfl⟩
    · exact ⟨_, h7, rfl⟩
    · exact ⟨_, h8, rfl⟩
    · exact ⟨_, h9, rfl⟩

end Signal
