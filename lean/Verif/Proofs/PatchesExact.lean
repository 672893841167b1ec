import Verif.Proofs.Patches

/-! Helper lemmas: which state patches are accepted. -/

namespace Signal
open Spec

/-- The last changed exit, or `earliest`. -/
def lastExit (earliest : Nat) (l : List (Nat × Nat)) : Nat := l.foldl (fun m x => max m x.1) earliest

theorem le_lastExit (l : List (Nat × Nat)) : ∀ e, e ≤ lastExit e l := by
  induction l with
  | nil => intro e; exact Nat.le_refl _
  | cons a l ih => intro e; exact Nat.le_trans (Nat.le_max_left _ _) (ih _)

theorem lastExit_append (e : Nat) (l l' : List (Nat × Nat)) : lastExit e (l ++ l') = lastExit (lastExit e l) l' := by
  unfold lastExit; rw [List.foldl_append]

theorem lastExit_perm {l l' : List (Nat × Nat)} (h : l.Perm l') : ∀ e, lastExit e l = lastExit e l' := by
  induction h with
  | nil => intro e; rfl
  | cons a _ ih => intro e; exact ih _
  | swap a b l =>
    intro e
    show lastExit _ l = lastExit _ l
    congr 1
    show max (max e b.1) a.1 = max (max e a.1) b.1
    omega
  | trans _ _ h1 h2 => intro e; rw [h1, h2]

theorem exitingBalance_perm {l l' : List (Nat × Nat)} (h : l.Perm l') (u : Nat) :
    exitingBalance l u = exitingBalance l' u := by
  unfold exitingBalance
  exact ((h.filter _).map _).sum_nat

theorem exitingBalance_cons (x b u : Nat) (l : List (Nat × Nat)) :
    exitingBalance ((x, b) :: l) u = (if x ≤ u then b else 0) + exitingBalance l u := by
  unfold exitingBalance
  by_cases h : x ≤ u
  · rw [List.filter_cons_of_pos (by simpa using h), if_pos h]; simp
  · rw [List.filter_cons_of_neg (by simpa using h), if_neg h]; simp

/-- Changed exits come from entries of the list. -/
theorem mem_changes {patches : OMap StatePatch} {validators : OMap ValidatorInfo} {pe : Nat} {l : List (Nat × Nat)}
    {y : Nat × Nat} (h : y ∈ changes patches validators pe l) :
    ∃ idx v, (idx, y.1) ∈ l ∧ validators.get? idx = some v ∧ exitIn patches (pe - 1) idx v ≠ y.1 ∧
      y.2 = v.effectiveBalance := by
  unfold changes at h
  obtain ⟨⟨idx, x⟩, hm, hy⟩ := List.mem_filterMap.1 h
  dsimp only at hy
  split at hy
  · rename_i v hv
    split at hy
    · simp at hy
    · rename_i hne
      simp only [Option.some.injEq] at hy
      subst hy
      exact ⟨idx, v, hm, hv, hne, rfl⟩
  · simp at hy

/-- One patch is accepted exactly if its exits are known and allowed, and within the limit. -/
theorem validateExits_iff {ε : Type} {spec : ChainSpec} {patches : OMap StatePatch}
    {validators : OMap ValidatorInfo} {pe churn : Nat} (l : List (Nat × Nat)) :
    ∀ (earliest toConsume out : Nat),
    l.Pairwise (fun a b => a.2 ≤ b.2) →
    (∀ y ∈ changes patches validators pe l, toConsume + churn * (y.1 - earliest) < U64) →
    ((validateExits spec patches validators pe churn l earliest toConsume : Res ε Nat) = .ok out ↔
      (∀ idx x, (idx, x) ∈ l → ∃ v, validators.get? idx = some v ∧
        (exitIn patches (pe - 1) idx v = x ∨
          exitIn patches (pe - 1) idx v = spec.farFutureEpoch ∧ earliest ≤ x)) ∧
      (∀ y ∈ changes patches validators pe l,
        exitingBalance (changes patches validators pe l) y.1 ≤ toConsume + churn * (y.1 - earliest)) ∧
      out = lastExit earliest (changes patches validators pe l)) := by
  induction l with
  | nil =>
    intro earliest toConsume out _ _
    simp [validateExits, changes, lastExit, eq_comm]
  | cons a l ih =>
    obtain ⟨idx, x⟩ := a
    intro earliest toConsume out hs hsmall
    obtain ⟨hs1, hs2⟩ := List.pairwise_cons.1 hs
    cases hv : validators.get? idx with
    | none =>
      constructor
      · intro h
        simp only [validateExits, Res.bind_eq_ok, expect_eq_ok] at h
        obtain ⟨v, hv', -⟩ := h
        rw [hv] at hv'; simp at hv'
      · rintro ⟨h, -⟩
        obtain ⟨v, hv', -⟩ := h idx x List.mem_cons_self
        rw [hv] at hv'; simp at hv'
    | some v =>
      unfold validateExits
      simp only [hv, expect, Res.ok_bind, prevExitEpoch_eq]
      rw [changes_cons _ _ _ _ _ _ hv] at hsmall ⊢
      by_cases he : exitIn patches (pe - 1) idx v = x
      · rw [if_pos he] at hsmall ⊢
        rw [if_pos he, ih _ _ _ hs2 hsmall]
        constructor
        · rintro ⟨h1, h2, h3⟩
          refine ⟨?_, h2, h3⟩
          intro i y hm
          rcases List.mem_cons.1 hm with hm | hm
          · cases hm; exact ⟨v, hv, Or.inl he⟩
          · exact h1 i y hm
        · rintro ⟨h1, h2, h3⟩
          exact ⟨fun i y hm => h1 i y (List.mem_cons_of_mem _ hm), h2, h3⟩
      · rw [if_neg he] at hsmall ⊢
        rw [if_neg he]
        simp only [Res.bind_eq_ok, assert_eq_ok, decide_eq_true_eq]
        have hx := hsmall _ List.mem_cons_self
        dsimp only at hx
        have hw : wrapAdd toConsume (wrapMul (satSub x earliest) churn) = toConsume + churn * (x - earliest) := by
          unfold wrapAdd wrapMul satSub
          rw [Nat.mul_comm (x - earliest)]
          rw [Nat.mod_eq_of_lt (a := churn * (x - earliest)) (by omega), Nat.mod_eq_of_lt hx]
        rw [hw]
        have hge : ∀ y ∈ changes patches validators pe l, x ≤ y.1 := by
          intro y hy
          obtain ⟨i, w, hm, -⟩ := mem_changes hy
          exact hs1 _ hm
        have key : ∀ u, earliest ≤ x → x ≤ u →
            churn * (u - earliest) = churn * (x - earliest) + churn * (u - x) := by
          intro u h1 hu; rw [← Nat.mul_add]; congr 1; omega
        have hsm' : earliest ≤ x → ∀ b, ∀ y ∈ changes patches validators pe l,
            toConsume + churn * (x - earliest) - b + churn * (y.1 - x) < U64 := by
          intro h1 b y hy
          have h2 := hsmall y (List.mem_cons_of_mem _ hy)
          have h3 := key y.1 h1 (hge y hy)
          omega
        have hzero : (∀ y ∈ changes patches validators pe l, y.1 ≠ x) →
            exitingBalance (changes patches validators pe l) x = 0 := by
          intro hn
          unfold exitingBalance
          have : (changes patches validators pe l).filter (fun e => decide (e.1 ≤ x)) = [] := by
            rw [List.filter_eq_nil_iff]
            intro e he'
            have h1 := hge e he'
            have h2 := hn e he'
            simp; omega
          rw [this]; rfl
        constructor
        · rintro ⟨⟨⟩, h1, ⟨⟩, h2, ⟨⟩, h3, h4⟩
          rw [ih _ _ _ hs2 (hsm' h2 _)] at h4
          obtain ⟨i1, i2, i3⟩ := h4
          refine ⟨?_, ?_, ?_⟩
          · intro i y hm
            rcases List.mem_cons.1 hm with hm | hm
            · cases hm; exact ⟨v, hv, Or.inr ⟨h1, h2⟩⟩
            · obtain ⟨w, hw', hc⟩ := i1 i y hm
              refine ⟨w, hw', ?_⟩
              rcases hc with hc | ⟨c1, c2⟩
              · exact Or.inl hc
              · exact Or.inr ⟨c1, by omega⟩
          · have hall : ∀ y ∈ changes patches validators pe l,
                v.effectiveBalance + exitingBalance (changes patches validators pe l) y.1 ≤
                  toConsume + churn * (y.1 - earliest) := by
              intro y hy
              have h5 := i2 y hy
              rw [key y.1 h2 (hge y hy)]
              omega
            intro y hm
            rw [exitingBalance_cons]
            rcases List.mem_cons.1 hm with rfl | hm
            · simp only [Nat.le_refl, if_true]
              by_cases hex : ∃ z ∈ changes patches validators pe l, z.1 = x
              · obtain ⟨z, hz, hz'⟩ := hex
                have := hall z hz
                rw [hz'] at this
                exact this
              · rw [hzero (fun z hz hz' => hex ⟨z, hz, hz'⟩)]
                omega
            · rw [if_pos (hge y hm)]
              exact hall y hm
          · rw [i3]
            show _ = lastExit (max earliest x) _
            rw [Nat.max_eq_right h2]
        · rintro ⟨h1, h2, h3⟩
          obtain ⟨w, hw', hc⟩ := h1 idx x List.mem_cons_self
          rw [hv] at hw'
          cases hw'
          rcases hc with hc | ⟨hc, hle⟩
          · exact absurd hc he
          · have hb := h2 _ List.mem_cons_self
            rw [exitingBalance_cons] at hb
            simp only [Nat.le_refl, if_true] at hb
            refine ⟨⟨⟩, hc, ⟨⟩, hle, ⟨⟩, by omega, ?_⟩
            rw [ih _ _ _ hs2 (hsm' hle _)]
            refine ⟨?_, ?_, ?_⟩
            · intro i y hm
              obtain ⟨w, hw', hc'⟩ := h1 i y (List.mem_cons_of_mem _ hm)
              refine ⟨w, hw', ?_⟩
              rcases hc' with hc' | ⟨c1, c2⟩
              · exact Or.inl hc'
              · exact Or.inr ⟨c1, hs1 _ hm⟩
            · intro y hy
              have h5 := h2 y (List.mem_cons_of_mem _ hy)
              rw [exitingBalance_cons, if_pos (hge y hy), key y.1 hle (hge y hy)] at h5
              omega
            · rw [h3]
              show lastExit (max earliest x) _ = _
              rw [Nat.max_eq_right hle]

/-- `exitFloor` at the first patch of a suffix. -/
theorem exitFloor_split {earliest : Nat} {validators : OMap ValidatorInfo} {pre : List (Nat × StatePatch)}
    {e : Nat} {p : StatePatch} {l : List (Nat × StatePatch)}
    (hs : OMap.Sorted (pre ++ (e, p) :: l)) :
    exitFloor earliest (pre ++ (e, p) :: l) validators e =
      lastExit earliest (pre.flatMap (fun x => newExits (pre ++ (e, p) :: l) validators x.1 x.2)) := by
  unfold exitFloor lastExit
  congr 2
  unfold OMap.Sorted at hs
  rw [List.pairwise_append, List.pairwise_cons] at hs
  obtain ⟨-, ⟨h1, -⟩, h2⟩ := hs
  rw [List.filter_append, List.filter_cons_of_neg (by simp)]
  rw [List.filter_eq_self.2, List.filter_eq_nil_iff.2, List.append_nil]
  · intro x hx
    have := h1 x hx
    simp only at this
    simp; omega
  · intro x hx
    have := h2 x hx (e, p) List.mem_cons_self
    simpa using this

theorem validatePatchLoop_iff {ε : Type} (X : Ext) {spec : ChainSpec} {patches : OMap StatePatch}
    {validators : OMap ValidatorInfo} {trusted churn earliest : Nat} (hs : patches.Sorted)
    (hsmall : SmallExits churn patches validators) (l : List (Nat × StatePatch)) :
    ∀ pre, patches = pre ++ l →
    ((validatePatchLoop X spec patches validators trusted churn l
        (lastExit earliest (pre.flatMap (fun x => newExits patches validators x.1 x.2))) : Res ε Unit) = .ok () ↔
      ∀ e p, (e, p) ∈ l → trusted ≤ e ∧
        (∀ idx x, (idx, x) ∈ p.validatorExits → ∃ v, validators.get? idx = some v ∧
          (exitIn patches (e - 1) idx v = x ∨
            exitIn patches (e - 1) idx v = spec.farFutureEpoch ∧ exitFloor earliest patches validators e ≤ x)) ∧
        ∀ x ∈ newExits patches validators e p, exitingBalance (newExits patches validators e p) x.1 ≤
          churn * (x.1 - exitFloor earliest patches validators e + 1)) := by
  induction l with
  | nil => intro pre _; simp [validatePatchLoop]
  | cons a l ih =>
    obtain ⟨e, p⟩ := a
    intro pre hpre
    have hfl : exitFloor earliest patches validators e =
        lastExit earliest (pre.flatMap (fun x => newExits patches validators x.1 x.2)) := by
      subst hpre; exact exitFloor_split hs
    have hperm : (changes patches validators e (X.sortByEpoch p.validatorExits)).Perm
        (newExits patches validators e p) := (X.sortByEpoch_perm _).filterMap _
    have hmem : (e, p) ∈ patches := by rw [hpre]; simp
    have hnext := ih (pre ++ [(e, p)]) (by rw [hpre]; simp)
    rw [List.flatMap_append, lastExit_append] at hnext
    simp only [List.flatMap_cons, List.flatMap_nil, List.append_nil] at hnext
    rw [← hfl] at hnext ⊢
    have hsm : ∀ y ∈ changes patches validators e (X.sortByEpoch p.validatorExits),
        churn + churn * (y.1 - exitFloor earliest patches validators e) < U64 := by
      intro y hy
      have h1 := hsmall e p hmem y (hperm.mem_iff.1 hy)
      have h2 : churn + churn * (y.1 - exitFloor earliest patches validators e) ≤ churn * (y.1 + 1) := by
        rw [Nat.mul_add, Nat.mul_one, Nat.add_comm]
        exact Nat.add_le_add_right (Nat.mul_le_mul_left _ (Nat.sub_le _ _)) _
      have h3 : (2 : Nat) ^ 64 = U64 := by norm_num
      omega
    have hval := fun out => validateExits_iff (ε := ε) (spec := spec) (patches := patches) (validators := validators)
      (pe := e) (churn := churn) (X.sortByEpoch p.validatorExits)
      (exitFloor earliest patches validators e) churn out (X.sortByEpoch_sorted _) hsm
    have hbal : ∀ u, exitingBalance (changes patches validators e (X.sortByEpoch p.validatorExits)) u =
        exitingBalance (newExits patches validators e p) u := exitingBalance_perm hperm
    have hmul : ∀ k, churn + churn * k = churn * (k + 1) := by intro k; rw [Nat.mul_add, Nat.mul_one, Nat.add_comm]
    simp only [validatePatchLoop, Res.bind_eq_ok, assert_eq_ok, decide_eq_true_eq]
    constructor
    · rintro ⟨⟨⟩, h1, out, h2, h3⟩
      obtain ⟨a1, a2, a3⟩ := (hval out).1 h2
      rw [a3, lastExit_perm hperm] at h3
      have h4 := hnext.1 h3
      intro e' p' hm
      rcases List.mem_cons.1 hm with hm | hm
      · cases hm
        refine ⟨h1, ?_, ?_⟩
        · intro idx x hx
          exact a1 idx x ((X.sortByEpoch_perm _).mem_iff.2 hx)
        · intro x hx
          have := a2 x (hperm.mem_iff.2 hx)
          rwa [hbal, hmul] at this
      · exact h4 e' p' hm
    · intro h
      obtain ⟨h1, h2, h3⟩ := h e p List.mem_cons_self
      refine ⟨⟨⟩, h1, _, (hval _).2 ⟨?_, ?_, rfl⟩, ?_⟩
      · intro idx x hx
        exact h2 idx x ((X.sortByEpoch_perm _).mem_iff.1 hx)
      · intro y hy
        rw [hbal, hmul]
        exact h3 y (hperm.mem_iff.1 hy)
      · rw [lastExit_perm hperm]
        exact hnext.2 (fun e' p' hm => h e' p' (List.mem_cons_of_mem _ hm))

theorem validatePatchLoop_lawful {ε : Type} (X : Ext) {spec : ChainSpec} {patches : OMap StatePatch}
    {validators : OMap ValidatorInfo} {trusted churn earliest : Nat} (hs : patches.Sorted)
    (hsmall : SmallExits churn patches validators) :
    (validatePatchLoop X spec patches validators trusted churn patches earliest : Res ε Unit) = .ok () ↔
      LawfulPatches spec.farFutureEpoch trusted earliest churn patches validators := by
  have h := validatePatchLoop_iff (ε := ε) X (spec := spec) (trusted := trusted) (earliest := earliest) hs hsmall
    patches [] rfl
  rw [show lastExit earliest (([] : List (Nat × StatePatch)).flatMap
    (fun x => newExits patches validators x.1 x.2)) = earliest from rfl] at h
  rw [h]
  constructor
  · intro h'
    exact ⟨fun e p hm => (h' e p hm).1, fun e p hm => (h' e p hm).2.1, fun e p hm => (h' e p hm).2.2⟩
  · rintro ⟨h1, h2, h3⟩ e p hm
    exact ⟨h1 e p hm, h2 e p hm, h3 e p hm⟩

end Signal
