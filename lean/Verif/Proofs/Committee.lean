import Verif.Model.Committee
import Verif.Spec.Committee
import Verif.Proofs.OMap
import Mathlib.Data.List.Basic
import Mathlib.Tactic.Ring
import Mathlib.Data.List.Perm.Basic

namespace Signal
open Spec

/-! ## The cache -/

theorem fillPositions_ok {sh : List Nat} : ∀ {i : Nat} {pos pos' : List (Option Nat)},
    fillPositions sh i pos = .ok pos' →
    pos'.length = pos.length ∧ (∀ v ∈ sh, v < pos.length) ∧
    (sh.Nodup → ∀ v, (v ∉ sh → pos'[v]? = pos[v]?) ∧
      ∀ j, sh[j]? = some v → pos'[v]? = some (some (i + j + 1))) := by
  induction sh with
  | nil => intro i pos pos' h; simp [fillPositions] at h; subst h; simp
  | cons w sh ih =>
    intro i pos pos' h
    simp only [fillPositions, Res.bind_eq_ok, ensure_eq_ok, decide_eq_true_eq] at h
    obtain ⟨_, hw, h⟩ := h
    obtain ⟨h1, h2, h3⟩ := ih h
    simp only [List.length_set] at h1 h2
    refine ⟨h1, by simpa [hw] using h2, ?_⟩
    intro hnd v
    obtain ⟨hwn, hnd⟩ := List.nodup_cons.1 hnd
    obtain ⟨h4, h5⟩ := h3 hnd v
    constructor
    · intro hv
      simp only [List.mem_cons, not_or] at hv
      rw [h4 hv.2, List.getElem?_set_ne (by omega)]
    · intro j hj
      cases j with
      | zero =>
        simp at hj; subst hj
        rw [h4 hwn, List.getElem?_set_self hw]
      | succ j =>
        simp at hj
        rw [h5 j hj]
        congr 2; omega

/-- What a successfully built cache looks like. -/
theorem initialized_ok {X : Ext} {spec : ChainSpec} {seed : Bytes} {indices : List Nat}
    {cps epoch : Nat} {c : CommitteeCache}
    (h : CommitteeCache.initialized X spec seed indices cps epoch = .ok c) :
    0 < cps ∧ indices ≠ [] ∧ X.shuffleList indices spec.shuffleRoundCount seed = some c.shuffling ∧
    c.initializedEpoch = some epoch ∧ c.committeesPerSlot = cps ∧ c.slotsPerEpoch = spec.slotsPerEpoch ∧
    ∃ m, indices.max? = some m ∧ m < X.usizeMod - 1 ∧
      fillPositions c.shuffling 0 (List.replicate (m + 1) none) = .ok c.shufflingPositions := by
  simp only [CommitteeCache.initialized, Res.bind_eq_ok, ensure_eq_ok, okOr_eq_ok, Res.pure_eq,
    decide_eq_true_eq] at h
  obtain ⟨_, h1, m, h2, sh, h3, _, h4, pos, h5, h⟩ := h
  cases h
  refine ⟨h1, ?_, h3, rfl, rfl, rfl, m, h2, h4, h5⟩
  rintro rfl; simp at h2

/-! ## Committees -/

theorem range_bound {n i count : Nat} (hi : i < count) : n * (i + 1) / count ≤ n := by
  have : n * (i + 1) ≤ n * count := Nat.mul_le_mul_left _ hi
  calc n * (i + 1) / count ≤ n * count / count := Nat.div_le_div_right this
    _ = n := Nat.mul_div_cancel _ (by omega)

theorem range_mono {n i count : Nat} : n * i / count ≤ n * (i + 1) / count :=
  Nat.div_le_div_right (Nat.mul_le_mul_left _ (by omega))

theorem committeeIndex_lt {r s cps i : Nat} (hr : r < s) (hi : i < cps) : r * cps + i < cps * s := by
  calc r * cps + i < r * cps + cps := by omega
    _ = (r + 1) * cps := by ring
    _ ≤ s * cps := Nat.mul_le_mul_right _ hr
    _ = cps * s := by ring

theorem computeCommittee_eq {X : Ext} {c : CommitteeCache} {index : Nat}
    (hw : NoUsizeWrap X.usizeMod c.shuffling.length c.committeesPerSlot c.slotsPerEpoch)
    (hi : index < c.committeesPerSlot * c.slotsPerEpoch) :
    c.computeCommittee X index =
      some (committee c.shuffling (c.committeesPerSlot * c.slotsPerEpoch) index) := by
  have hcount : c.epochCount X = c.committeesPerSlot * c.slotsPerEpoch :=
    Nat.mod_eq_of_lt hw.count
  unfold CommitteeCache.computeCommittee computeCommitteeRangeInEpoch
  rw [hcount]
  generalize hC : c.committeesPerSlot * c.slotsPerEpoch = C at *
  have h1 : c.shuffling.length * index < X.usizeMod :=
    lt_of_le_of_lt (Nat.mul_le_mul_left _ (by omega)) (hC ▸ hw.range)
  have h2 : c.shuffling.length * (index + 1) < X.usizeMod :=
    lt_of_le_of_lt (Nat.mul_le_mul_left _ (by omega)) (hC ▸ hw.range)
  have h3 : index + 1 < X.usizeMod := lt_of_le_of_lt hi (hC ▸ hw.count)
  rw [if_neg (by omega), Nat.mod_eq_of_lt h3, Nat.mod_eq_of_lt h1, Nat.mod_eq_of_lt h2]
  simp only
  rw [if_pos ⟨range_mono, range_bound hi⟩]
  rfl

/-- `get_beacon_committee` on a built cache is the specification's. -/
theorem getBeaconCommittee_eq {X : Ext} {spec : ChainSpec} {c : CommitteeCache} {e slot i : Nat}
    (hw : NoUsizeWrap X.usizeMod c.shuffling.length c.committeesPerSlot c.slotsPerEpoch)
    (hs : c.slotsPerEpoch = spec.slotsPerEpoch) (he : c.initializedEpoch = some e)
    (hslot : slot / spec.slotsPerEpoch = e) (hi : i < c.committeesPerSlot) :
    c.getBeaconCommittee X spec slot i =
      .ok (beaconCommittee c.shuffling c.committeesPerSlot spec.slotsPerEpoch slot i) := by
  have hpos := hw.slots_pos
  have hlt := committeeIndex_lt (Nat.mod_lt slot hpos) hi
  unfold CommitteeCache.getBeaconCommittee slotEpoch
  rw [if_neg (by omega)]
  simp only [he, Option.isSome_some, ensure, if_true, Res.ok_bind, hslot, decide_true, hi, assert,
    show c.slotsPerEpoch ≠ 0 by omega, ne_eq, not_false_eq_true]
  unfold computeCommitteeIndexInEpoch
  rw [Nat.mod_mod_of_dvd _ hw.slots, Nat.mod_eq_of_lt (lt_trans hlt hw.count),
    computeCommittee_eq hw hlt]
  simp [okOr, beaconCommittee, hs]

theorem getBeaconCommittee_ok {X : Ext} {spec : ChainSpec} {c : CommitteeCache} {slot i : Nat}
    {l : List Nat} (h : c.getBeaconCommittee X spec slot i = .ok l) :
    c.initializedEpoch = some (slot / spec.slotsPerEpoch) ∧ i < c.committeesPerSlot ∧
      (∀ v ∈ l, v ∈ c.shuffling) := by
  unfold CommitteeCache.getBeaconCommittee slotEpoch at h
  split at h
  · simp [Res.bind_eq_ok] at h
  · simp only [Res.bind_eq_ok, ensure_eq_ok, assert_eq_ok, okOr_eq_ok, decide_eq_true_eq] at h
    obtain ⟨_, _, e, he, _, h1, _, h2, _, _, h3⟩ := h
    cases he
    refine ⟨h1, h2, ?_⟩
    unfold CommitteeCache.computeCommittee at h3
    split at h3
    · cases h3
    · split at h3
      · cases h3
        intro v hv
        exact List.mem_of_mem_drop (List.mem_of_mem_take hv)
      · cases h3

/-- Consecutive committees tile the shuffled list. -/
theorem committees_tile (l : List Nat) {count k : Nat} (hk : k ≤ count) (hc : 0 < count) :
    (List.range k).flatMap (committee l count) = l.take (l.length * k / count) := by
  induction k with
  | zero => simp
  | succ k ih =>
    rw [List.range_succ, List.flatMap_append, ih (by omega)]
    simp only [List.flatMap_cons, List.flatMap_nil, List.append_nil, committee]
    have := @range_mono l.length k count
    conv_rhs => rw [show l.length * (k + 1) / count =
      l.length * k / count + (l.length * (k + 1) / count - l.length * k / count) by omega]
    rw [List.take_add]

theorem flatMap_range_mul {α : Type} (f : Nat → List α) (s p : Nat) :
    (List.range s).flatMap (fun a => (List.range p).flatMap (fun b => f (a * p + b))) =
      (List.range (p * s)).flatMap f := by
  induction s with
  | zero => simp
  | succ s ih =>
    rw [List.range_succ, List.flatMap_append, ih, Nat.mul_succ, List.range_add]
    simp [List.flatMap_append, List.flatMap_map, Nat.mul_comm]

/-! ## Attesting indices -/

theorem setBits_cons_aux (bits : List Bool) (k : Nat) :
    ((bits.zipIdx k).filter (·.1)).map (·.2) =
      ((List.range bits.length).filter (fun i => bits[i]? == some true)).map (· + k) := by
  induction bits generalizing k with
  | nil => rfl
  | cons b bits ih =>
    rw [List.zipIdx_cons, List.length_cons, List.range_succ_eq_map]
    have hmap : ∀ l : List Nat, (List.filter (fun i => (b :: bits)[i]? == some true) (l.map Nat.succ)) =
        (l.filter (fun i => bits[i]? == some true)).map Nat.succ := by
      intro l; rw [List.filter_map]; congr 1
    cases b with
    | true =>
      rw [List.filter_cons_of_pos (by rfl), List.filter_cons_of_pos (by simp), hmap, List.map_cons,
        List.map_cons, ih, List.map_map]
      simp only [Nat.zero_add, List.cons.injEq, true_and]
      apply List.map_congr_left
      intro a _; simp; omega
    | false =>
      rw [List.filter_cons_of_neg (by simp), List.filter_cons_of_neg (by simp), hmap, ih, List.map_map]
      apply List.map_congr_left
      intro a _; simp; omega

theorem getCommitteeIndices_eq (bits : List Bool) : getCommitteeIndices bits = setBits bits := by
  unfold getCommitteeIndices setBits
  rw [setBits_cons_aux]
  simp

/-- The members selected by the bits. -/
def selectBits (members : List Nat) (bits : List Bool) : List Nat :=
  ((members.zip bits).filter (·.2)).map (·.1)

theorem selectBits_cons (v : Nat) (vs : List Nat) (b : Bool) (bs : List Bool) :
    selectBits (v :: vs) (b :: bs) = if b then v :: selectBits vs bs else selectBits vs bs := by
  cases b <;> simp [selectBits]

theorem selectBits_append (l₁ l₂ : List Nat) (bits : List Bool) (h : l₁.length ≤ bits.length) :
    selectBits (l₁ ++ l₂) bits = selectBits l₁ bits ++ selectBits l₂ (bits.drop l₁.length) := by
  induction l₁ generalizing bits with
  | nil => simp [selectBits]
  | cons v vs ih =>
    cases bits with
    | nil => simp at h
    | cons b bs =>
      simp only [List.length_cons, Nat.succ_le_succ_iff, Nat.add_le_add_iff_right] at h
      rw [List.cons_append, selectBits_cons, selectBits_cons, ih bs (by omega)]
      cases b <;> simp

theorem selectBits_ne_nil (l : List Nat) (bits : List Bool) :
    selectBits l bits ≠ [] ↔ ∃ j < l.length, bits[j]? = some true := by
  induction l generalizing bits with
  | nil => simp [selectBits]
  | cons v vs ih =>
    cases bits with
    | nil => simp [selectBits]
    | cons b bs =>
      rw [selectBits_cons]
      cases b with
      | true => simp; exact ⟨0, by simp⟩
      | false =>
        simp only [Bool.false_eq_true, if_false]
        rw [ih]
        constructor
        · rintro ⟨j, h1, h2⟩; exact ⟨j + 1, by simp; omega, by simpa using h2⟩
        · rintro ⟨j, h1, h2⟩
          cases j with
          | zero => simp at h2
          | succ j => exact ⟨j, by simpa using h1, by simpa using h2⟩

theorem selectBits_mem {l : List Nat} {bits : List Bool} {v : Nat} (h : v ∈ selectBits l bits) :
    v ∈ l := by
  simp only [selectBits, List.mem_map, List.mem_filter] at h
  obtain ⟨p, ⟨h1, _⟩, rfl⟩ := h
  exact (List.of_mem_zip h1).1

theorem committeeAttesters_ok_iff {bits : List Bool} {off : Nat} {l : List Nat} :
    ∀ {i : Nat} {r : List Nat}, committeeAttesters bits off l i = .ok r ↔
      (l = [] ∨ off + i + l.length ≤ bits.length) ∧ r = selectBits l (bits.drop (off + i)) := by
  induction l with
  | nil => intro i r; simp [committeeAttesters, selectBits, eq_comm]
  | cons v vs ih =>
    intro i r
    simp only [committeeAttesters, Res.bind_eq_ok, expect_eq_ok, ih, Res.pure_eq, Res.ok.injEq,
      List.length_cons, reduceCtorEq, false_or]
    constructor
    · rintro ⟨b, hb, rest, ⟨h1, h2⟩, h3⟩
      obtain ⟨hlt, hb'⟩ := List.getElem?_eq_some_iff.1 hb
      constructor
      · rcases h1 with h1 | h1
        · subst h1; simp; omega
        · omega
      · rw [List.drop_eq_getElem_cons hlt, selectBits_cons, hb', ← h3, h2]
        rfl
    · rintro ⟨h1, h2⟩
      have hlt : off + i < bits.length := by omega
      refine ⟨bits[off + i], by simp [hlt], _, ⟨by right; omega, rfl⟩, ?_⟩
      rw [h2, List.drop_eq_getElem_cons hlt, selectBits_cons]
      rfl

theorem extend_extend (s : OSet) (l₁ l₂ : List Nat) :
    (s.extend l₁).extend l₂ = s.extend (l₁ ++ l₂) := by
  simp [OSet.extend, List.foldl_append]

theorem attestingLoop_ok_iff {X : Ext} {spec : ChainSpec} {c : CommitteeCache}
    {a : AttestationElectra} {com : Nat → List Nat}
    (hcom : ∀ ci < c.committeesPerSlot, c.getBeaconCommittee X spec a.data.slot ci = .ok (com ci))
    {cis : List Nat} : ∀ {acc s : OSet} {off off' : Nat},
    attestingLoop X spec c a cis acc off = .ok (s, off') ↔
      (∀ ci ∈ cis, ci < c.committeesPerSlot) ∧
      off' = off + (cis.flatMap com).length ∧
      (cis = [] ∨ off' ≤ a.aggregationBits.length) ∧
      (∀ pre ci post, cis = pre ++ ci :: post → ∃ j < (com ci).length,
        a.aggregationBits[off + (pre.flatMap com).length + j]? = some true) ∧
      s = acc.extend (selectBits (cis.flatMap com) (a.aggregationBits.drop off)) := by
  induction cis with
  | nil =>
    intro acc s off off'
    simp [attestingLoop, selectBits, OSet.extend, eq_comm, and_comm]
  | cons ci cis ih =>
    intro acc s off off'
    simp only [attestingLoop, Res.bind_eq_ok, assert_eq_ok, decide_eq_true_eq]
    constructor
    · rintro ⟨_, h1, l, hl, r, hr, _, hne, h⟩
      rw [hcom ci h1] at hl; cases hl
      obtain ⟨hb, rfl⟩ := committeeAttesters_ok_iff.1 hr
      obtain ⟨g1, g2, g3, g4, g5⟩ := ih.1 h
      rw [Nat.add_zero] at *
      obtain ⟨j, hj, hj'⟩ := (selectBits_ne_nil _ _).1 hne
      have hlen : off + (com ci).length ≤ a.aggregationBits.length := by
        rcases hb with hb | hb
        · rw [hb] at hj; simp at hj
        · exact hb
      refine ⟨by simpa [h1] using g1, by simp only [List.flatMap_cons, List.length_append]; omega, Or.inr ?_, ?_, ?_⟩
      · rcases g3 with g3 | g3
        · subst g3; simp at g2; omega
        · exact g3
      · intro pre ci' post hsplit
        cases pre with
        | nil =>
          simp only [List.nil_append, List.cons.injEq] at hsplit
          obtain ⟨rfl, rfl⟩ := hsplit
          refine ⟨j, hj, ?_⟩
          rw [List.getElem?_drop] at hj'
          simpa using hj'
        | cons p pre =>
          simp only [List.cons_append, List.cons.injEq] at hsplit
          obtain ⟨rfl, rfl⟩ := hsplit
          obtain ⟨j, h1, h2⟩ := g4 pre ci' post rfl
          refine ⟨j, h1, ?_⟩
          simp only [List.flatMap_cons, List.length_append]
          rw [← h2]; congr 1; omega
      · rw [g5, extend_extend, List.flatMap_cons, selectBits_append _ _ _ (by simp; omega),
          List.drop_drop]
    · rintro ⟨h1, h2, h3, h4, h5⟩
      have hci := h1 ci (by simp)
      simp only [List.flatMap_cons, List.length_append, reduceCtorEq, false_or] at h2 h3
      obtain ⟨j, hj, hj'⟩ := h4 [] ci cis rfl
      refine ⟨(), hci, _, hcom ci hci, selectBits (com ci) (a.aggregationBits.drop off),
        committeeAttesters_ok_iff.2 ⟨by right; omega, by simp⟩, (), ?_, ?_⟩
      · rw [selectBits_ne_nil]
        exact ⟨j, hj, by rw [List.getElem?_drop]; simpa using hj'⟩
      · rw [ih]
        refine ⟨fun x hx => h1 x (by simp [hx]), by omega, Or.inr h3, ?_, ?_⟩
        · intro pre ci' post hsplit
          obtain ⟨j, h6, h7⟩ := h4 (ci :: pre) ci' post (by simp [hsplit])
          refine ⟨j, h6, ?_⟩
          simp only [List.flatMap_cons, List.length_append] at h7
          rw [← h7]; congr 1; omega
        · rw [h5, extend_extend, List.flatMap_cons, selectBits_append _ _ _ (by simp; omega),
            List.drop_drop]

/-- Without any assumption on the arithmetic: the indices form a sorted set of members of the
shuffled list. -/
theorem attestingLoop_sound {X : Ext} {spec : ChainSpec} {c : CommitteeCache}
    {a : AttestationElectra} {cis : List Nat} : ∀ {acc s : OSet} {off off' : Nat},
    attestingLoop X spec c a cis acc off = .ok (s, off') → acc.Sorted →
    (∀ i ∈ acc, i ∈ c.shuffling) → s.Sorted ∧ ∀ i ∈ s, i ∈ c.shuffling := by
  induction cis with
  | nil => intro acc s off off' h; simp [attestingLoop] at h; obtain ⟨rfl, rfl⟩ := h; exact fun a b => ⟨a, b⟩
  | cons ci cis ih =>
    intro acc s off off' h hs hm
    simp only [attestingLoop, Res.bind_eq_ok, assert_eq_ok, decide_eq_true_eq] at h
    obtain ⟨_, h1, l, hl, r, hr, _, hne, h⟩ := h
    obtain ⟨_, rfl⟩ := committeeAttesters_ok_iff.1 hr
    refine ih h (OSet.sorted_extend hs _) ?_
    intro i hi
    rcases OSet.mem_extend.1 hi with hi | hi
    · exact hm i hi
    · exact (getBeaconCommittee_ok hl).2.2 i (selectBits_mem hi)

theorem getAttestingIndices_sound {X : Ext} {spec : ChainSpec} {c : CommitteeCache}
    {a : AttestationElectra} {s : OSet} (h : getAttestingIndices X spec a c = .ok s) :
    s.Sorted ∧ ∀ i ∈ s, i ∈ c.shuffling := by
  simp only [getAttestingIndices, Res.bind_eq_ok, assert_eq_ok, decide_eq_true_eq, Res.pure_eq] at h
  obtain ⟨⟨s', off⟩, h1, _, _, h2⟩ := h
  cases h2
  exact attestingLoop_sound h1 List.Pairwise.nil (by simp)

end Signal
