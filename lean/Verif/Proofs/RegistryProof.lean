import Verif.Proofs.Request
import Verif.Spec.Preflight

/-! Helper lemmas: the registry proof built by the host and what the guest extracts from it. -/

namespace Signal
open Spec

/-- The values proven for one validator. -/
def entries (t : Nat) (v : Validator) (i : Nat) : List (Nat × Bytes) :=
  if v.exitEpoch ≤ t then [(exitEpochGindex i, u64Chunk v.exitEpoch)]
  else [(publicKey0Gindex i, v.pubkey.take 32), (publicKey1Gindex i, v.pubkey.drop 32 ++ List.replicate 16 0),
    (effectiveBalanceGindex i, u64Chunk v.effectiveBalance), (slashedGindex i, boolChunk v.slashed),
    (activationEligibilityEpochGindex i, u64Chunk v.activationEligibilityEpoch),
    (activationEpochGindex i, u64Chunk v.activationEpoch), (exitEpochGindex i, u64Chunk v.exitEpoch)]

/-- The values proven for a registry whose first validator has index `k`. -/
def registryEntries (t : Nat) : (k : Nat) → List Validator → List (Nat × Bytes)
  | _, [] => []
  | k, v :: vs => entries t v k ++ registryEntries t (k + 1) vs

theorem gindex_values (i : Nat) (hi : i < 2 ^ 40) :
    publicKey0Gindex i = 16 * (2 ^ 41 + i) ∧ publicKey1Gindex i = 16 * (2 ^ 41 + i) + 1 ∧
    effectiveBalanceGindex i = 8 * (2 ^ 41 + i) + 2 ∧ slashedGindex i = 8 * (2 ^ 41 + i) + 3 ∧
    activationEligibilityEpochGindex i = 8 * (2 ^ 41 + i) + 4 ∧ activationEpochGindex i = 8 * (2 ^ 41 + i) + 5 ∧
    exitEpochGindex i = 8 * (2 ^ 41 + i) + 6 := by
  have h := (C50_no_overflow i hi).1
  simp only [validatorGindices, List.cons.injEq, and_true] at h
  exact h

theorem entries_fst (t : Nat) (v : Validator) (i : Nat) (hi : i < 2 ^ 40) :
    (entries t v i).map (·.1) = validatorRequest t v i := by
  obtain ⟨h1, h2, h3, h4, h5, h6, h7⟩ := gindex_values i hi
  unfold entries validatorRequest
  split
  · simp only [List.map_cons, List.map_nil, h7, validatorPath]; congr 1; omega
  · simp only [List.map_cons, List.map_nil, h1, h2, h3, h4, h5, h6, h7, validatorPath]
    simp only [List.cons.injEq, and_true]
    omega

theorem mem_entries_range {t : Nat} {v : Validator} {i : Nat} (hi : i < 2 ^ 40) :
    ∀ x ∈ (entries t v i).map (·.1), Below x (2 ^ 41 + i) ∧ 2 ≤ x ∧ x < 2 ^ 64 := by
  obtain ⟨h1, h2, h3, h4, h5, h6, h7⟩ := gindex_values i hi
  have key : ∀ x, (x / 2 ^ 3 = 2 ^ 41 + i ∨ x / 2 ^ 4 = 2 ^ 41 + i) → Below x (2 ^ 41 + i) ∧ 2 ≤ x ∧ x < 2 ^ 64 := by
    intro x hx
    refine ⟨?_, by omega, by omega⟩
    rcases hx with hx | hx
    · exact ⟨3, hx⟩
    · exact ⟨4, hx⟩
  intro x hx
  apply key
  unfold entries at hx
  split at hx
  · simp only [List.map_cons, List.map_nil, List.mem_cons, List.not_mem_nil, or_false] at hx
    omega
  · simp only [List.map_cons, List.map_nil, List.mem_cons, List.not_mem_nil, or_false] at hx
    omega

theorem entries_leftOf (t : Nat) (v : Validator) (i : Nat) (hi : i < 2 ^ 40) :
    ((entries t v i).map (·.1)).Pairwise LeftOf := by
  obtain ⟨h1, h2, h3, h4, h5, h6, h7⟩ := gindex_values i hi
  unfold entries
  split
  · simp
  · simp only [List.map_cons, List.map_nil, h1, h2, h3, h4, h5, h6, h7]
    have hf : ∀ a b, a < b → b < 8 → LeftOf (8 * (2 ^ 41 + i) + a) (8 * (2 ^ 41 + i) + b) := by
      intro a b ha hb
      exact leftOf_of_lt 44 _ _ (by omega) (by omega) (by omega)
    have hb0 : Below (16 * (2 ^ 41 + i)) (8 * (2 ^ 41 + i) + 0) := ⟨1, by omega⟩
    have hb1 : Below (16 * (2 ^ 41 + i) + 1) (8 * (2 ^ 41 + i) + 0) := ⟨1, by omega⟩
    have h01 : LeftOf (16 * (2 ^ 41 + i)) (16 * (2 ^ 41 + i) + 1) :=
      leftOf_of_lt 45 _ _ (by omega) (by omega) (by omega)
    have g0 : ∀ b, 0 < b → b < 8 → LeftOf (16 * (2 ^ 41 + i)) (8 * (2 ^ 41 + i) + b) :=
      fun b h1 h2 => (hf 0 b h1 h2).below hb0 (Below.refl _)
    have g1 : ∀ b, 0 < b → b < 8 → LeftOf (16 * (2 ^ 41 + i) + 1) (8 * (2 ^ 41 + i) + b) :=
      fun b h1 h2 => (hf 0 b h1 h2).below hb1 (Below.refl _)
    simp only [List.pairwise_cons, List.mem_cons, List.not_mem_nil, or_false, forall_eq_or_imp, forall_eq,
      List.Pairwise.nil, and_true, false_imp_iff, implies_true]
    refine ⟨⟨h01, g0 _ ?_ ?_, g0 _ ?_ ?_, g0 _ ?_ ?_, g0 _ ?_ ?_, g0 _ ?_ ?_⟩,
      ⟨g1 _ ?_ ?_, g1 _ ?_ ?_, g1 _ ?_ ?_, g1 _ ?_ ?_, g1 _ ?_ ?_⟩,
      ⟨hf _ _ ?_ ?_, hf _ _ ?_ ?_, hf _ _ ?_ ?_, hf _ _ ?_ ?_⟩, ⟨hf _ _ ?_ ?_, hf _ _ ?_ ?_, hf _ _ ?_ ?_⟩,
      ⟨hf _ _ ?_ ?_, hf _ _ ?_ ?_⟩, hf _ _ ?_ ?_⟩ <;> omega

theorem mem_registryEntries {t : Nat} (vs : List Validator) : ∀ (k : Nat) (x : Nat × Bytes),
    x ∈ registryEntries t k vs → ∃ j v, vs[j]? = some v ∧ x ∈ entries t v (k + j) := by
  induction vs with
  | nil => intro k x hx; simp [registryEntries] at hx
  | cons v vs ih =>
    intro k x hx
    unfold registryEntries at hx
    rcases List.mem_append.1 hx with hx | hx
    · exact ⟨0, v, rfl, hx⟩
    · obtain ⟨j, w, h1, h2⟩ := ih (k + 1) x hx
      exact ⟨j + 1, w, h1, by rw [show k + (j + 1) = k + 1 + j by omega]; exact h2⟩

theorem registryEntries_leftOf {t : Nat} (vs : List Validator) : ∀ k, k + vs.length ≤ 2 ^ 40 →
    ((registryEntries t k vs).map (·.1)).Pairwise LeftOf := by
  induction vs with
  | nil => intro k _; simp [registryEntries]
  | cons v vs ih =>
    intro k hk
    simp only [List.length_cons] at hk
    unfold registryEntries
    rw [List.map_append, List.pairwise_append]
    refine ⟨entries_leftOf t v k (by omega), ih (k + 1) (by omega), ?_⟩
    intro a ha b hb
    obtain ⟨y, hy, rfl⟩ := List.mem_map.1 hb
    obtain ⟨j, w, h1, h2⟩ := mem_registryEntries vs (k + 1) y hy
    have hj := (List.getElem?_eq_some_iff.1 h1).1
    have hb1 := (mem_entries_range (by omega) a ha).1
    have hb2 := (mem_entries_range (by omega) y.1 (List.mem_map.2 ⟨y, h2, rfl⟩)).1
    exact (leftOf_of_lt 41 (2 ^ 41 + k) (2 ^ 41 + (k + 1 + j)) (by omega) (by omega) (by omega)).below hb1 hb2

theorem registryEntries_fst {t : Nat} (vs : List Validator) : ∀ k, k + vs.length ≤ 2 ^ 40 →
    (registryEntries t k vs).map (·.1) = (vs.zipIdx k).flatMap (fun (v, i) => validatorRequest t v i) := by
  induction vs with
  | nil => intro k _; rfl
  | cons v vs ih =>
    intro k hk
    simp only [List.length_cons] at hk
    unfold registryEntries
    rw [List.map_append, ih (k + 1) (by omega), entries_fst t v k (by omega), List.zipIdx_cons, List.flatMap_cons]

/-- The proof of the registry. -/
theorem build_registry (X : Ext) (vs : List Validator) (hw : RegistryWF vs) (t : Nat) (order : List Nat → List Nat)
    (ho : ∀ l, (order l).Perm l) (hcap : 126 ≤ X.stackCapacity) :
    ∃ p, build X order (registryRequest t vs) (registryTree vs) = .ok p ∧
      p.verify X ((registryTree vs).root X) = .ok () ∧
      p.values = registryEntries t 0 vs ++ [(3, u64Chunk vs.length)] ∧
      GoodRequest (registryTree vs) (registryRequest t vs) := by
  have hl := hw.limit
  refine build_request X (registryTree_chunked hw) (OSet.sorted_extend List.Pairwise.nil _) ?_ ?_ (by simp) ?_ ?_
    order ho hcap
  · intro x
    rw [OSet.mem_extend, List.map_append, registryEntries_fst vs 0 (by omega)]
    simp only [List.not_mem_nil, false_or, List.mem_cons, List.mem_append, List.map_cons, List.map_nil, or_false]
    exact or_comm
  · rw [List.map_append, List.pairwise_append]
    refine ⟨registryEntries_leftOf vs 0 (by omega), by simp, ?_⟩
    intro a ha b hb
    simp only [List.map_cons, List.map_nil, List.mem_cons, List.not_mem_nil, or_false] at hb
    subst hb
    obtain ⟨y, hy, rfl⟩ := List.mem_map.1 ha
    obtain ⟨j, w, h1, h2⟩ := mem_registryEntries vs 0 y hy
    have hj := (List.getElem?_eq_some_iff.1 h1).1
    have hb1 := (mem_entries_range (by omega) y.1 (List.mem_map.2 ⟨y, h2, rfl⟩)).1
    refine ⟨1, by omega, hb1.trans ⟨40, by omega⟩, Below.refl _⟩
  · intro x hx
    rw [List.map_append, List.mem_append] at hx
    rcases hx with hx | hx
    · obtain ⟨y, hy, rfl⟩ := List.mem_map.1 hx
      obtain ⟨j, w, h1, h2⟩ := mem_registryEntries vs 0 y hy
      have hj := (List.getElem?_eq_some_iff.1 h1).1
      exact (mem_entries_range (by omega) y.1 (List.mem_map.2 ⟨y, h2, rfl⟩)).2
    · simp only [List.map_cons, List.map_nil, List.mem_cons, List.not_mem_nil, or_false] at hx
      omega
  · intro x hx
    rcases List.mem_append.1 hx with hx | hx
    · obtain ⟨j, w, h1, h2⟩ := mem_registryEntries vs 0 x hx
      rw [Nat.zero_add] at h2
      obtain ⟨c1, c2, c3, c4, c5, c6, c7, -⟩ := C50_validator vs hl j w h1
      unfold entries at h2
      split at h2
      · simp only [List.mem_cons, List.not_mem_nil, or_false] at h2
        subst h2
        exact ⟨_, c7, rfl⟩
      · simp only [List.mem_cons, List.not_mem_nil, or_false] at h2
        rcases h2 with rfl | rfl | rfl | rfl | rfl | rfl | rfl
        · exact ⟨_, c1, rfl⟩
        · exact ⟨_, c2, rfl⟩
        · exact ⟨_, c3, rfl⟩
        · exact ⟨_, c4, rfl⟩
        · exact ⟨_, c5, rfl⟩
        · exact ⟨_, c6, rfl⟩
        · exact ⟨_, c7, rfl⟩
    · simp only [List.mem_cons, List.not_mem_nil, or_false] at hx
      subst hx
      exact ⟨_, nodeAt_three _ _, rfl⟩

/-! ## Extraction -/

/-- The keys of the validators that have not exited. -/
def presentKeys (dec : Bytes → Option Bytes) (t : Nat) : List Validator → List Bytes
  | [] => []
  | v :: vs => if v.exitEpoch ≤ t then presentKeys dec t vs
    else match dec v.pubkey with
      | some k => k :: presentKeys dec t vs
      | none => presentKeys dec t vs

/-- `present` from index `k` on. -/
def presentFrom (dec : Bytes → Option Bytes) (t k : Nat) (vs : List Validator) : OMap ValidatorInfo :=
  (vs.zipIdx k).filterMap (fun (v, i) =>
    if v.exitEpoch ≤ t then none else (dec v.pubkey).map (fun key => (i, v.info key)))

theorem extractLoop_complete (X : Ext) (dec : Bytes → Option Bytes) (t n : Nat) (hn : n ≤ 2 ^ 40)
    (vs : List Validator) : ∀ (k fuel : Nat) (cache : OMap ValidatorInfo), k + vs.length = n →
    (∀ v ∈ vs, v.WF) → (∀ v ∈ vs, t < v.exitEpoch → ∃ key, dec v.pubkey = some key ∧ X.pkSerialize key = v.pubkey) →
    (∀ x ∈ cache, x.1 < k) →
    (registryEntries t k vs ++ [(3, u64Chunk n)]).length < fuel →
    extractLoop X t fuel (registryEntries t k vs ++ [(3, u64Chunk n)]) (presentKeys dec t vs) k cache =
      .ok (cache ++ presentFrom dec t k vs) := by
  have hn64 : u64FromChunk (u64Chunk n) = n := u64FromChunk_u64Chunk n (by omega)
  induction vs with
  | nil =>
    intro k fuel cache hk _ _ _ hf
    obtain ⟨fuel, rfl⟩ : ∃ f, fuel = f + 1 := ⟨fuel - 1, by omega⟩
    have hkn : k = n := by simpa using hk
    simp only [registryEntries, List.nil_append, extractLoop, if_true, hn64, hkn, decide_true, assert, Res.ok_bind,
      List.isEmpty_nil, presentFrom, List.zipIdx_nil, List.filterMap_nil, List.append_nil]
    rfl
  | cons v vs ih =>
    intro k fuel cache hk hw hd hc hf
    obtain ⟨fuel, rfl⟩ : ∃ f, fuel = f + 1 := ⟨fuel - 1, by omega⟩
    simp only [List.length_cons] at hk
    obtain ⟨g1, g2, g3, g4, g5, g6, g7⟩ := gindex_values k (by omega)
    have hwv := hw v List.mem_cons_self
    have hrest := fun fuel cache => ih (k + 1) fuel cache (by omega) (fun w hw' => hw w (List.mem_cons_of_mem _ hw'))
      (fun w hw' => hd w (List.mem_cons_of_mem _ hw'))
    have hex := u64FromChunk_u64Chunk v.exitEpoch hwv.exitEpoch
    by_cases hv : v.exitEpoch ≤ t
    · have he : entries t v k = [(exitEpochGindex k, u64Chunk v.exitEpoch)] := by unfold entries; rw [if_pos hv]
      have hp : presentFrom dec t k (v :: vs) = presentFrom dec t (k + 1) vs := by
        unfold presentFrom
        rw [List.zipIdx_cons, List.filterMap_cons_none]
        simp [hv]
      have hpk : presentKeys dec t (v :: vs) = presentKeys dec t vs := by rw [presentKeys, if_pos hv]
      unfold registryEntries at hf ⊢
      rw [he] at hf ⊢
      rw [hp, hpk]
      simp only [List.cons_append, List.nil_append, List.length_cons] at hf ⊢
      unfold extractLoop
      dsimp only
      rw [if_neg (by omega), if_pos rfl, hex]
      simp only [hv, decide_true, assert, if_true, Res.ok_bind]
      exact hrest fuel cache (fun x hx => Nat.lt_succ_of_lt (hc x hx)) (by omega)
    · obtain ⟨key, hkey, hser⟩ := hd v List.mem_cons_self (by omega)
      have he : entries t v k = [(publicKey0Gindex k, v.pubkey.take 32),
          (publicKey1Gindex k, v.pubkey.drop 32 ++ List.replicate 16 0),
          (effectiveBalanceGindex k, u64Chunk v.effectiveBalance), (slashedGindex k, boolChunk v.slashed),
          (activationEligibilityEpochGindex k, u64Chunk v.activationEligibilityEpoch),
          (activationEpochGindex k, u64Chunk v.activationEpoch), (exitEpochGindex k, u64Chunk v.exitEpoch)] := by
        unfold entries; rw [if_neg hv]
      have hp : presentFrom dec t k (v :: vs) = (k, v.info key) :: presentFrom dec t (k + 1) vs := by
        unfold presentFrom
        rw [List.zipIdx_cons, List.filterMap_cons_some (b := (k, v.info key))]
        simp [hv, hkey]
      have hpk : presentKeys dec t (v :: vs) = key :: presentKeys dec t vs := by
        rw [presentKeys, if_neg hv, hkey]
      unfold registryEntries at hf ⊢
      rw [he] at hf ⊢
      rw [hp, hpk]
      simp only [List.cons_append, List.nil_append, List.length_cons] at hf ⊢
      have hval : ∀ rest, extractValidator X key ((publicKey0Gindex k, v.pubkey.take 32) ::
          (publicKey1Gindex k, v.pubkey.drop 32 ++ List.replicate 16 0) ::
          (effectiveBalanceGindex k, u64Chunk v.effectiveBalance) :: (slashedGindex k, boolChunk v.slashed) ::
          (activationEligibilityEpochGindex k, u64Chunk v.activationEligibilityEpoch) ::
          (activationEpochGindex k, u64Chunk v.activationEpoch) :: (exitEpochGindex k, u64Chunk v.exitEpoch) ::
          rest) k = .ok (v.info key, rest) := by
        intro rest
        rw [extractValidator_eq_ok]
        refine ⟨_, _, _, _, _, _, _, _, rfl, ?_, boolFromChunk_boolChunk v.slashed, ?_⟩
        · exact (C52_registered_key_only X key v.pubkey _ _ hwv.pubkey rfl).2 hser
        · unfold Validator.info
          rw [u64FromChunk_u64Chunk _ hwv.effectiveBalance, u64FromChunk_u64Chunk _ hwv.activationEligibilityEpoch,
            u64FromChunk_u64Chunk _ hwv.activationEpoch, hex]
      unfold extractLoop
      dsimp only
      rw [if_neg (by omega), if_neg (by omega), hval]
      simp only [Res.ok_bind]
      rw [OMap.insert_append cache k _ hc, hrest fuel _ ?_ (by omega)]
      · simp
      · intro x hx
        rcases List.mem_append.1 hx with hx | hx
        · exact Nat.lt_succ_of_lt (hc x hx)
        · simp only [List.mem_cons, List.not_mem_nil, or_false] at hx
          subst hx; exact Nat.lt_succ_self k

theorem extractValidators_complete (X : Ext) (dec : Bytes → Option Bytes) (t : Nat) (vs : List Validator)
    (hw : RegistryWF vs)
    (hd : ∀ v ∈ vs, t < v.exitEpoch → ∃ key, dec v.pubkey = some key ∧ X.pkSerialize key = v.pubkey)
    (p : Multiproof) (hp : p.values = registryEntries t 0 vs ++ [(3, u64Chunk vs.length)]) :
    extractValidators X p (presentKeys dec t vs) t = .ok (present dec vs t) := by
  unfold extractValidators
  rw [hp]
  exact extractLoop_complete X dec t vs.length hw.limit vs 0 _ [] (by omega) hw.wf hd (by simp) (Nat.lt_succ_self _)

end Signal
