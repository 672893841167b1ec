import Verif.Props.Safety

/-!
# Property C54: the raised threshold absorbs drift of the validator set

The registry that the guest counts with may be out of date. The specification is in the statements: `before i`
is the balance that the guest counts for validator `i` (zero if it is not in the reported active set), `after i`
its real balance (zero if it is not really active). `A` is the sum of all increases, `E` the sum of all
decreases, `S` the balance of the validators slashed in the meantime, as in docs/src/02_balance_drift.md 22-38.
-/

namespace Signal
open Spec

theorem sum_le_sum (f g : Nat → Nat) : ∀ (l : List Nat), (∀ i ∈ l, f i ≤ g i) →
    (l.map f).sum ≤ (l.map g).sum := by
  intro l
  induction l with
  | nil => intro _; simp
  | cons a l ih =>
    intro h
    have h1 := h a (by simp)
    have h2 := ih (fun i hi => h i (by simp [hi]))
    simp only [List.map_cons, List.sum_cons]
    omega

theorem sum_add_sum (f g : Nat → Nat) (l : List Nat) :
    (l.map f).sum + (l.map g).sum = (l.map (fun i => f i + g i)).sum := by
  induction l with
  | nil => simp
  | cons a l ih => simp only [List.map_cons, List.sum_cons]; omega

/-- The arithmetic core, over sets of validators: `act` are the validators counted as active, `voters` the voters
among them, `real` the really active ones. -/
theorem drift_core (before after : Nat → Nat) (act voters real slashed : List Nat) (F Q : Nat) (hQ : 0 < Q)
    (hvot : voters.Nodup) (hreal : real.Nodup) (hsub : ∀ i ∈ voters, i ∈ act)
    (hbefore : ∀ i, i ∉ act → before i = 0)
    (hthr : (act.map before).sum * F ≤ (voters.map before).sum * Q)
    (hdrift : 3 * Q * (slashed.map before).sum +
        Q * (2 * (real.map (fun i => after i - before i)).sum +
          (act.map (fun i => before i - after i)).sum) + 2 * Q * (act.map before).sum ≤
      3 * F * (act.map before).sum) :
    2 * (real.map after).sum ≤ 3 * ((voters.filter (fun i => decide (i ∉ slashed))).map after).sum := by
  -- the real total is at most B + A - E
  have h1 : (real.map after).sum = (real.map (fun i => after i - before i)).sum +
      (real.map (fun i => min (after i) (before i))).sum := by
    rw [sum_add_sum]
    congr 1
    apply List.map_congr_left
    intro i _
    omega
  have h2 : (act.map before).sum = (act.map (fun i => before i - after i)).sum +
      (act.map (fun i => min (after i) (before i))).sum := by
    rw [sum_add_sum]
    congr 1
    apply List.map_congr_left
    intro i _
    omega
  have h3 : (real.map (fun i => min (after i) (before i))).sum ≤
      (act.map (fun i => min (after i) (before i))).sum := by
    rw [sum_filter_add _ (fun i => decide (i ∈ act)) real]
    have hz : ((real.filter (fun i => !decide (i ∈ act))).map
        (fun i => min (after i) (before i))).sum = 0 := by
      refine Nat.le_zero.1 (Nat.le_trans (sum_le_sum _ (fun _ => 0) _ ?_) (by simp))
      intro i hi
      simp only [List.mem_filter, Bool.not_eq_true', decide_eq_false_iff_not] at hi
      simp [hbefore i hi.2]
    rw [hz, Nat.add_zero]
    apply sum_le_of_subset _ _ _ (hreal.filter _)
    intro i hi
    simp only [List.mem_filter, decide_eq_true_eq] at hi
    exact hi.2
  -- the voters lose at most E and S
  have h4 := sum_filter_add before (fun i => decide (i ∉ slashed)) voters
  have h5 : ((voters.filter (fun i => !decide (i ∉ slashed))).map before).sum ≤ (slashed.map before).sum := by
    apply sum_le_of_subset _ _ _ (hvot.filter _)
    intro i hi
    simp only [List.mem_filter, decide_not, Bool.not_not, decide_eq_true_eq] at hi
    exact hi.2
  have h6 : ((voters.filter (fun i => decide (i ∉ slashed))).map before).sum ≤
      ((voters.filter (fun i => decide (i ∉ slashed))).map after).sum +
        ((voters.filter (fun i => decide (i ∉ slashed))).map (fun i => before i - after i)).sum := by
    rw [sum_add_sum]
    exact sum_le_sum _ _ _ (fun i _ => by omega)
  have h7 : ((voters.filter (fun i => decide (i ∉ slashed))).map (fun i => before i - after i)).sum ≤
      (act.map (fun i => before i - after i)).sum :=
    sum_le_of_subset _ _ _ (hvot.filter _) (fun i hi => hsub i (List.mem_filter.1 hi).1)
  generalize (act.map before).sum = B at *
  generalize (real.map after).sum = R at *
  generalize (voters.map before).sum = V at *
  generalize (slashed.map before).sum = S at *
  generalize (real.map (fun i => after i - before i)).sum = A at *
  generalize (act.map (fun i => before i - after i)).sum = E at *
  generalize ((voters.filter (fun i => decide (i ∉ slashed))).map after).sum = K at *
  have h8 : Q * (3 * S + 2 * A + E + 2 * B) ≤ Q * (3 * V) := by
    have e1 : Q * (3 * S + 2 * A + E + 2 * B) = 3 * Q * S + Q * (2 * A + E) + 2 * Q * B := by ring
    have e2 : 3 * F * B = 3 * (B * F) := by ring
    have e3 : Q * (3 * V) = 3 * (V * Q) := by ring
    omega
  have h9 := Nat.le_of_mul_le_mul_left h8 hQ
  omega

/-- **C54.** Let a link be accepted with the voters `voters` out of the reported active set of total balance
`B`, under the threshold `t = factor / quotient`. Take any real balances `after` of a set `real` of validators, and
any set `slashed` of slashed ones. If `S + (2A + E)/3 ≤ (t - 2/3) B`, then the voters that have not been
slashed still hold two thirds of the real total. Missing: `B` so small that the floor of one increment decides, and a quotient of 0. -/
theorem C54_drift_partial (X : Ext) (cfg : Config) (R : Reader) (post : ConsensusState) (slot : Nat)
    (h : verify X cfg R = .ok (post, slot)) (atts : List Attestation)
    (hatts : R.attestations = .ok atts) (a : Attestation) (ha : a ∈ atts) :
    ∃ (l : List (Nat × ValidatorInfo)) (voters : List Nat),
      R.activeValidators a.data.target.epoch = .ok l ∧ voters.Nodup ∧
      (∀ i ∈ voters, (∃ v, (OMap.ofList l).get? i = some v ∧ v.slashed = false) ∧
        ∃ b ∈ atts, linkOf b = linkOf a ∧ ∃ signers, i ∈ signers ∧
          Vote X R (OMap.ofList l) b signers) ∧
      ∀ (after : Nat → Nat) (real slashed : List Nat), real.Nodup →
        0 < cfg.justificationThresholdQuotient →
        R.spec.effectiveBalanceIncrement * cfg.justificationThresholdQuotient <
          totalWeight (OMap.ofList l) * cfg.justificationThresholdFactor →
        3 * cfg.justificationThresholdQuotient * (slashed.map (balance (OMap.ofList l))).sum +
            cfg.justificationThresholdQuotient *
              (2 * (real.map (fun i => after i - balance (OMap.ofList l) i)).sum +
                ((OMap.ofList l).keys.map (fun i => balance (OMap.ofList l) i - after i)).sum) +
            2 * cfg.justificationThresholdQuotient * totalWeight (OMap.ofList l) ≤
          3 * cfg.justificationThresholdFactor * totalWeight (OMap.ofList l) →
        2 * (real.map after).sum ≤
          3 * ((voters.filter (fun i => decide (i ∉ slashed))).map after).sum := by
  obtain ⟨l, voters, h1, h2, h3, h4⟩ := C12_supermajority X cfg R post slot h atts hatts a ha
  refine ⟨l, voters, h1, h2, h3, ?_⟩
  intro after real slashed hr hQ hfloor hdrift
  have hsorted : (OMap.ofList l).Sorted := OMap.sorted_ofList l
  have hB : totalWeight (OMap.ofList l) = ((OMap.ofList l).keys.map (balance (OMap.ofList l))).sum := by
    unfold totalWeight OMap.keys
    rw [List.map_map]
    congr 1
    apply List.map_congr_left
    rintro ⟨i, v⟩ hm
    have hg := OMap.mem_get? hsorted hm
    simp only [Function.comp]
    simp [balance, hg]
  have hmem : ∀ i ∈ voters, i ∈ (OMap.ofList l).keys := by
    intro i hi
    obtain ⟨⟨v, hv, -⟩, -⟩ := h3 i hi
    exact List.mem_map.2 ⟨_, OMap.get?_eq_some_mem hv, rfl⟩
  refine drift_core (balance (OMap.ofList l)) after _ voters real slashed _ _ hQ h2 hr hmem ?_ ?_
    (by rw [← hB]; exact hdrift)
  · intro i hi
    unfold balance
    cases hg : (OMap.ofList l).get? i with
    | none => rfl
    | some v => exact absurd (List.mem_map.2 ⟨_, OMap.get?_eq_some_mem hg, rfl⟩) hi
  · rw [← hB]
    unfold floored at h4
    have hb : totalWeight (OMap.ofList l) * cfg.justificationThresholdFactor ≤
        max (totalWeight (OMap.ofList l)) R.spec.effectiveBalanceIncrement * cfg.justificationThresholdFactor :=
      Nat.mul_le_mul_right _ (Nat.le_max_left _ _)
    change _ ≤ weight (OMap.ofList l) voters * _
    rcases Nat.le_total R.spec.effectiveBalanceIncrement (weight (OMap.ofList l) voters) with hc | hc
    · rw [Nat.max_eq_left hc] at h4; omega
    · rw [Nat.max_eq_right hc] at h4; omega

/-- The bound is sharp: with the voters holding exactly the threshold, one unit more of slashed balance than
`(t - 2/3) B` and the rest of the voters is short of two thirds. -/
theorem C54_sharp (F Q B V S : Nat) (hV : V * Q = B * F) (hS : S ≤ V)
    (hover : 3 * F * B < 3 * Q * S + 2 * Q * B) : 3 * (V - S) < 2 * B := by
  have h1 : Q * (3 * V) < Q * (3 * S + 2 * B) := by
    have e1 : 3 * F * B = 3 * (V * Q) := by rw [hV]; ring
    have e2 : Q * (3 * V) = 3 * (V * Q) := by ring
    have e3 : Q * (3 * S + 2 * B) = 3 * Q * S + 2 * Q * B := by ring
    omega
  have h2 := Nat.lt_of_mul_lt_mul_left h1
  omega

/-- Real balances of the example: validator 9 has left, validator 11 has joined with balance 16. -/
def exAfter (i : Nat) : Nat := if i = 9 then 0 else if i = 11 then 16 else 32

/-- Non-vacuity: the accepted run of Props/VerifyOrder has votes that meet the hypotheses (`exReader_verifies`), and
its active set of ten validators of balance 32 can drift in a way that C54 absorbs: the margin is
`(0.85 - 2/3) * 320`, about 58. -/
example :
    verify exExt Config.default exReader = .ok (⟨exC7, exC6⟩, 24) ∧
      ∃ l, exReader.activeValidators 6 = .ok l ∧ totalWeight (OMap.ofList l) = 320 ∧
        exReader.spec.effectiveBalanceIncrement * Config.default.justificationThresholdQuotient <
          totalWeight (OMap.ofList l) * Config.default.justificationThresholdFactor ∧
        3 * Config.default.justificationThresholdQuotient * ([3].map (balance (OMap.ofList l))).sum +
            Config.default.justificationThresholdQuotient *
              (2 * ([0, 1, 2, 3, 4, 5, 6, 7, 8, 11].map (fun i => exAfter i - balance (OMap.ofList l) i)).sum +
                ((OMap.ofList l).keys.map (fun i => balance (OMap.ofList l) i - exAfter i)).sum) +
            2 * Config.default.justificationThresholdQuotient * totalWeight (OMap.ofList l) ≤
          3 * Config.default.justificationThresholdFactor * totalWeight (OMap.ofList l) := by
  refine ⟨exReader_verifies, _, rfl, ?_, ?_, ?_⟩ <;> decide +kernel

end Signal
