import Mathlib.Tactic.Positivity
import Mathlib.Tactic.NormNum
import Mathlib.Tactic.IntervalCases
import Verif.Spec.BalanceDrift
import Verif.Props.Drift
import Verif.Props.Divergence

/-!
# Property C88: the shipped thresholds and the documented drift of balances

Specification: `Verif/Spec/BalanceDrift.lean`, `Verif/Spec/Shipped.lean`.

Partial: `RealChainDigests` excludes proofs that go on below a leaf of the real header, state or registry. The hardness of SHA-256 does not: without the
condition the claim is false (`C40_one_deposit`, `C81_one_deposit`).
-/

namespace Signal
open Spec Wire

theorem attesting_rest (r : Actual) (voters : List Nat) (hv : voters.Nodup) :
    (r.rest voters).length + ((r.attesting voters).filter (fun i => decide (i ∈ r.active))).length ≤ r.active.length := by
  have h1 : ((r.attesting voters).filter (fun i => decide (i ∈ r.active))).length ≤
      (r.active.filter (fun i => !decide (i ∉ r.attesting voters))).length := by
    refine (List.subperm_of_subset ((hv.filter _).filter _) ?_).length_le
    intro i hi
    obtain ⟨h1, h2⟩ := List.mem_filter.1 hi
    exact List.mem_filter.2 ⟨by simpa using h2, by simpa [Actual.attesting] using h1⟩
  have h2 := List.length_eq_length_filter_add (l := r.active) (fun i => decide (i ∉ r.attesting voters))
  have h3 : r.rest voters = r.active.filter (fun i => decide (i ∉ r.attesting voters)) := rfl
  rw [h3]
  omega

/-- The arithmetic of the document: with `K` the attesting validators, `act` those the guest counts. -/
theorem margin_core (r : Actual) (hr : r.Proper) (vs : List Validator) (e : Nat) (voters : List Nat) (hv : voters.Nodup)
    (hact : ∀ i ∈ voters, i ∈ activeIndices vs e) :
    let A := ((r.rest voters).map (fun i => r.balance i - countedBalance vs e i)).sum
    let E := ((r.attesting voters).map (fun i => countedBalance vs e i - r.balance i)).sum
    let S := (r.slashed.map (countedBalance vs e)).sum
    2 * balanceOf vs (activeIndices vs e) + 2 * A + E + 3 * S ≤ 3 * balanceOf vs voters →
      2 * r.total ≤ 3 * r.attestingBalance voters := by
  intro A E S h
  have hcnt : ∀ l : List Nat, (∀ i ∈ l, i ∈ activeIndices vs e) → balanceOf vs l = (l.map (countedBalance vs e)).sum := by
    intro l hl
    unfold balanceOf
    congr 1
    refine List.map_congr_left (fun i hi => ?_)
    rw [countedBalance, if_pos (hl i hi)]
  rw [hcnt _ (fun _ h => h), hcnt _ hact] at h
  -- the attesting validators
  have h1 := sum_filter_add (countedBalance vs e) (fun i => decide (i ∉ r.slashed)) voters
  have h2 : ((voters.filter (fun i => !decide (i ∉ r.slashed))).map (countedBalance vs e)).sum ≤ S := by
    refine sum_le_of_subset _ _ _ (hv.filter _) (fun i hi => ?_)
    simp only [List.mem_filter, decide_not, Bool.not_not, decide_eq_true_eq] at hi
    exact hi.2
  have h3 : ((r.attesting voters).map (countedBalance vs e)).sum ≤ r.attestingBalance voters + E := by
    unfold Actual.attestingBalance
    rw [sum_add_sum]
    exact sum_le_sum _ _ _ (fun i _ => by omega)
  -- the rest
  have h4 : r.total ≤ r.attestingBalance voters + ((r.rest voters).map r.balance).sum := by
    unfold Actual.total
    rw [sum_filter_add _ (fun i => decide (i ∉ r.attesting voters)) r.active, Nat.add_comm]
    refine Nat.add_le_add_right (sum_le_of_subset _ _ _ (hr.once.filter _) (fun i hi => ?_)) _
    simp only [List.mem_filter, decide_not, Bool.not_not, decide_eq_true_eq] at hi
    exact hi.2
  have h5 : ((r.rest voters).map r.balance).sum ≤ A + ((r.rest voters).map (countedBalance vs e)).sum := by
    rw [sum_add_sum]
    exact sum_le_sum _ _ _ (fun i _ => by omega)
  have h6 : ((r.rest voters).map (countedBalance vs e)).sum + ((r.attesting voters).map (countedBalance vs e)).sum ≤
      ((activeIndices vs e).map (countedBalance vs e)).sum := by
    rw [sum_filter_add _ (fun i => decide (i ∈ activeIndices vs e)) (r.rest voters)]
    have hz : (((r.rest voters).filter (fun i => !decide (i ∈ activeIndices vs e))).map (countedBalance vs e)).sum = 0 := by
      refine Nat.le_zero.1 (Nat.le_trans (sum_le_sum _ (fun _ => 0) _ fun i hi => ?_) (by simp))
      simp only [List.mem_filter, Bool.not_eq_true', decide_eq_false_iff_not] at hi
      simp [countedBalance, hi.2]
    rw [hz, Nat.add_zero, ← List.sum_append, ← List.map_append]
    refine sum_le_of_subset _ _ _ ?_ (fun i hi => ?_)
    · rw [List.nodup_append]
      refine ⟨(hr.once.filter _).filter _, hv.filter _, ?_⟩
      rintro a ha b hb rfl
      simp only [Actual.rest, List.mem_filter, decide_eq_true_eq] at ha
      exact ha.1.2 hb
    · rcases List.mem_append.1 hi with hi | hi
      · simp only [List.mem_filter, decide_eq_true_eq] at hi
        exact hi.2
      · exact hact i (List.mem_filter.1 hi).1
  change _ = (List.map _ (r.attesting voters)).sum + _ at h1
  generalize ((r.attesting voters).map (countedBalance vs e)).sum = k at *
  generalize ((r.rest voters).map (countedBalance vs e)).sum = o at *
  omega

/-- **C88.** What the document bounds by `δ` is `(2A + E) / 3 + S`. -/
theorem C88_delta (r : Actual) (vs : List Validator) (e : Nat) (voters : List Nat) (hv : voters.Nodup) (n : Nat)
    (h : Documented r vs e voters n) :
    (2 * r.increase vs e voters + r.decrease vs e voters) / 3 + r.slashedBalance vs e ≤
      calculateDelta (eth (balanceOf vs (activeIndices vs e))) (activeIndices vs e).length (r.slashedBalance vs e) n := by
  refine le_trans ?_ (Int.le_ceil _)
  have h1 := h.increase
  have h2 := h.decrease
  have h3 := h.total
  have h4 := h.number
  have hlen : ((r.rest voters).length : ℚ) + ((r.attesting voters).filter (fun i => decide (i ∈ r.active))).length ≤ r.active.length := by
    exact_mod_cast attesting_rest r voters hv
  unfold deltaSum churnBound at *
  dsimp only
  generalize eth (balanceOf vs (activeIndices vs e)) = B at *
  generalize ((activeIndices vs e).length : ℚ) = V at *
  generalize eth r.total = T at *
  generalize r.slashedBalance vs e = S
  generalize r.increase vs e voters = A at *
  generalize r.decrease vs e voters = E at *
  generalize ((r.rest voters).length : ℚ) = p at *
  have hq : (0 : ℚ) ≤ (((r.attesting voters).filter (fun i => decide (i ∈ r.active))).length : ℚ) := Nat.cast_nonneg _
  generalize (((r.attesting voters).filter (fun i => decide (i ∈ r.active))).length : ℚ) = q at *
  generalize max (128 : ℚ) (B / 65536) = M at *
  have hn : (0 : ℚ) ≤ (n : ℚ) * (n + 1) := by positivity
  have h5 : T * n * (n + 1) / 33554432 ≤ (B + 256 * n + 48 * n + V + 128960 * n) * n * (n + 1) / 33554432 := by
    have := mul_le_mul_of_nonneg_right (le_trans h3 (by linarith : _ ≤ B + 256 * n + 48 * n + V + 128960 * n)) hn
    rw [mul_assoc T, mul_assoc (_ + _)]
    linarith
  have h6 : (B + 256 * n + 48 * n + V + 128960 * n) * n * (n + 1) / 100663296 =
    (B + 256 * n + 48 * n + V + 128960 * n) * n * (n + 1) / 33554432 / 3 := by ring
  rw [h6]
  generalize (B + 256 * (n : ℚ) + 48 * n + V + 128960 * n) * n * (n + 1) / 33554432 = I at *
  linarith

/-- Votes counted with a share of the balance that exceeds two thirds by `δ`. -/
theorem margin_covers {percent : Nat} (hp : 50 < percent) (r : Actual) (hr : r.Proper) (vs : List Validator) (e : Nat) (voters : List Nat)
    (hv : voters.Nodup) (hact : ∀ i ∈ voters, i ∈ activeIndices vs e)
    (hshare : percent * max 1000000000 (balanceOf vs (activeIndices vs e)) ≤ 100 * max 1000000000 (balanceOf vs voters))
    (hbig : 2 ≤ eth (balanceOf vs (activeIndices vs e))) (n : Nat) (hd : Documented r vs e voters n)
    (hm : calculateDelta (eth (balanceOf vs (activeIndices vs e))) (activeIndices vs e).length (r.slashedBalance vs e) n ≤
      ((percent : ℚ) / 100 - 2 / 3) * eth (balanceOf vs (activeIndices vs e))) :
    2 * r.total ≤ 3 * r.attestingBalance voters := by
  refine margin_core r hr vs e voters hv hact ?_
  have h1 := le_trans (C88_delta r vs e voters hv n hd) hm
  have hb : 2000000000 ≤ balanceOf vs (activeIndices vs e) := by
    unfold eth at hbig
    rw [le_div_iff₀ (by norm_num)] at hbig
    exact_mod_cast (by linarith : (2000000000 : ℚ) ≤ (balanceOf vs (activeIndices vs e) : ℚ))
  have h2 := share_unfloored hp hb hshare
  unfold Actual.increase Actual.decrease Actual.slashedBalance eth at h1
  have h2' : (percent : ℚ) * (balanceOf vs (activeIndices vs e) : ℚ) ≤ 100 * (balanceOf vs voters : ℚ) := by exact_mod_cast h2
  generalize balanceOf vs (activeIndices vs e) = B at *
  generalize balanceOf vs voters = w at *
  generalize ((r.rest voters).map (fun i => r.balance i - countedBalance vs e i)).sum = A at *
  generalize ((r.attesting voters).map (fun i => countedBalance vs e i - r.balance i)).sum = E at *
  generalize (r.slashed.map (countedBalance vs e)).sum = S at *
  have h3 : (2 * (B : ℚ) + 2 * A + E + 3 * S) ≤ 3 * w := by
    have h4 : ((percent : ℚ) / 100 - 2 / 3) * ((B : ℚ) / 1000000000) = (percent * B / 100 - 2 / 3 * B) / 1000000000 := by ring
    rw [h4] at h1
    linarith
  exact_mod_cast h3

/-- **C88.** The votes that the guest for mainnet accepts are two thirds of what is really at stake, if the balances have changed within the documented bounds and
the document's `δ` is at most what 85 % exceed two thirds by. -/
theorem C88_mainnet_partial {ε : Type} (W : WireExt) (sigValid : Bytes → Bool) (hW : WireLaws (Ssz.wire W sigValid)) (X : Ext)
    (hdomain : ∀ version root, X.computeDomain version root =
      Signing.computeDomain X.sha256 Signing.beaconAttester version root)
    (signed : Bytes → Bytes → Prop) (hu : Unforgeable X signed) (stdin journal : Bytes)
    (h : (guestMain (Ssz.wire W sigValid) X (mainnetOf X) Config.default stdin : Res ε Bytes) = .ok journal) :
    ∃ input post, Reads (Ssz.wire W sigValid) X stdin input ∧ Abi.cliReadJournal journal = .ok (input.consensusState, post) ∧
      ∀ hdr st, RealChainDigests X (mainnetOf X) input hdr st →
        ∃ links, Run input.consensusState links post ∧
          ∀ link ∈ links,
            let n := link.target.epoch - input.consensusState.finalized.epoch
            let vs := registryOf (mainnetOf X) st input.consensusState
            let e := link.target.epoch
            let B₀ := eth (balanceOf vs (activeIndices vs e))
            n ≤ 4 ∧ ∃ voters, CarriedBy X signed 85 (if link.target.epoch < 411392 then [5, 0, 0, 0] else [6, 0, 0, 0])
                st.genesisValidatorsRoot vs input.attestations link voters ∧
              ∀ actual : Actual, actual.Proper → Documented actual vs e voters n → 2 ≤ B₀ →
                (calculateDelta B₀ (activeIndices vs e).length (actual.slashedBalance vs e) n : ℚ) ≤ (85 / 100 - 2 / 3) * B₀ →
                2 * actual.total ≤ 3 * actual.attestingBalance voters := by
  obtain ⟨frame, input, post, slot, h1, h2, -, h4, -, -, -, h5⟩ := C81_mainnet_partial W sigValid hW X hdomain signed hu stdin journal h
  refine ⟨input, post, ⟨frame, h1, h2⟩, h4, fun hdr st hreal => ?_⟩
  obtain ⟨links, hrun, hall⟩ := h5 hdr st hreal
  refine ⟨links, hrun, fun link hl => ?_⟩
  obtain ⟨-, hle, voters, hc⟩ := hall link hl
  refine ⟨by omega, voters, hc, fun r hr hd hbig hm => ?_⟩
  exact margin_covers (by decide) r hr _ _ voters hc.distinct hc.active hc.share hbig _ hd (by exact_mod_cast hm)

/-- **C88.** The votes that the guest for Sepolia accepts are two thirds of what is really at stake, if the balances have changed within the documented bounds and
the document's `δ` is at most what 70 % exceed two thirds by. -/
theorem C88_sepolia_partial {ε : Type} (W : WireExt) (sigValid : Bytes → Bool) (hW : WireLaws (Ssz.wire W sigValid)) (X : Ext)
    (hdomain : ∀ version root, X.computeDomain version root =
      Signing.computeDomain X.sha256 Signing.beaconAttester version root)
    (signed : Bytes → Bytes → Prop) (hu : Unforgeable X signed) (stdin journal : Bytes)
    (h : (guestMain (Ssz.wire W sigValid) X (sepoliaOf X) Config.sepolia stdin : Res ε Bytes) = .ok journal) :
    ∃ input post, Reads (Ssz.wire W sigValid) X stdin input ∧ Abi.cliReadJournal journal = .ok (input.consensusState, post) ∧
      ∀ hdr st, RealChainDigests X (sepoliaOf X) input hdr st →
        ∃ links, Run input.consensusState links post ∧
          ∀ link ∈ links,
            let n := link.target.epoch - input.consensusState.finalized.epoch
            let vs := registryOf (sepoliaOf X) st input.consensusState
            let e := link.target.epoch
            let B₀ := eth (balanceOf vs (activeIndices vs e))
            n ≤ 4 ∧ ∃ voters, CarriedBy X signed 70 (if link.target.epoch < 272640 then [0x90, 0, 0, 0x74] else [0x90, 0, 0, 0x75])
                st.genesisValidatorsRoot vs input.attestations link voters ∧
              ∀ actual : Actual, actual.Proper → Documented actual vs e voters n → 2 ≤ B₀ →
                (calculateDelta B₀ (activeIndices vs e).length (actual.slashedBalance vs e) n : ℚ) ≤ (70 / 100 - 2 / 3) * B₀ →
                2 * actual.total ≤ 3 * actual.attestingBalance voters := by
  obtain ⟨frame, input, post, slot, h1, h2, -, h4, -, -, -, h5⟩ := C81_sepolia_partial W sigValid hW X hdomain signed hu stdin journal h
  refine ⟨input, post, ⟨frame, h1, h2⟩, h4, fun hdr st hreal => ?_⟩
  obtain ⟨links, hrun, hall⟩ := h5 hdr st hreal
  refine ⟨links, hrun, fun link hl => ?_⟩
  obtain ⟨-, hle, voters, hc⟩ := hall link hl
  refine ⟨by omega, voters, hc, fun r hr hd hbig hm => ?_⟩
  exact margin_covers (by decide) r hr _ _ voters hc.distinct hc.active hc.share hbig _ hd (by exact_mod_cast hm)

/-- **C88.** With ten million ETH at stake on mainnet, validators of 16 ETH or more on average, and at most a tenth of the stake slashed, 85 % is enough. -/
theorem C88_mainnet_margin (B₀ V₀ S : ℚ) (n : Nat) (hn : n ≤ 4) (hB : 10000000 ≤ B₀) (hV : 16 * V₀ ≤ B₀) (hS : S ≤ B₀ / 10) :
    (calculateDelta B₀ V₀ S n : ℚ) ≤ (85 / 100 - 2 / 3) * B₀ := by
  have hc := (Int.ceil_lt_add_one (deltaSum B₀ V₀ S n)).le
  refine le_trans hc ?_
  have hmax : max (128 : ℚ) (B₀ / 65536) ≤ B₀ / 65536 := max_le (by linarith) le_rfl
  unfold deltaSum
  dsimp only
  generalize max (128 : ℚ) (B₀ / 65536) = M at *
  interval_cases n <;> norm_num <;> linarith

/-- **C88.** With thirty million ETH, validators of 32 ETH on average and none slashed, 70 % would be. -/
theorem C88_sepolia_margin (B₀ V₀ : ℚ) (n : Nat) (hn : n ≤ 4) (hB : 30000000 ≤ B₀) (hV : 32 * V₀ ≤ B₀) :
    (calculateDelta B₀ V₀ 0 n : ℚ) ≤ (70 / 100 - 2 / 3) * B₀ := by
  have hc := (Int.ceil_lt_add_one (deltaSum B₀ V₀ 0 n)).le
  refine le_trans hc ?_
  have hmax : max (128 : ℚ) (B₀ / 65536) ≤ B₀ / 65536 := max_le (by linarith) le_rfl
  unfold deltaSum
  dsimp only
  generalize max (128 : ℚ) (B₀ / 65536) = M at *
  interval_cases n <;> norm_num <;> linarith

/-- **C88.** Below 2.588 million ETH at stake 70 % is less than the document asks for, for every number of epochs from 1. -/
theorem C88_sepolia_short (B₀ V₀ S : ℚ) (n : Nat) (hn : 1 ≤ n) (h0 : 0 ≤ B₀) (hB : B₀ ≤ 2588000) (hV : 0 ≤ V₀) (hS : 0 ≤ S) :
    (70 / 100 - 2 / 3) * B₀ < (calculateDelta B₀ V₀ S n : ℚ) := by
  refine lt_of_lt_of_le ?_ (Int.le_ceil _)
  have hn' : (1 : ℚ) ≤ n := by exact_mod_cast hn
  have hmax : (128 : ℚ) ≤ max (128 : ℚ) (B₀ / 65536) := le_max_left _ _
  unfold deltaSum
  dsimp only
  generalize max (128 : ℚ) (B₀ / 65536) = M at *
  have h1 : (n : ℚ) * 2 * 128 ≤ n * 2 * M := by
    refine mul_le_mul_of_nonneg_left hmax (by positivity)
  have h2 : (0 : ℚ) ≤ (B₀ + 256 * n + 48 * n + V₀ + 128960 * n) * n * (n + 1) / 100663296 := by positivity
  generalize (B₀ + 256 * (n : ℚ) + 48 * n + V₀ + 128960 * n) * n * (n + 1) / 100663296 = I at *
  norm_num
  linarith

/-! ## Drift that 70 % do not cover -/

/-- A validator of 32 ETH. -/
def drValidator : Validator := ⟨exKey 1, exRoot32 1, 32000000000, false, 0, 0, 2 ^ 64 - 1, 2 ^ 64 - 1⟩

/-- A registry of `t` of them. -/
def drVs (t : Nat) : List Validator := List.replicate t drValidator

/-- The first `m` keep their 32 ETH, the others get 38 ETH. -/
def drActual (m t : Nat) : Actual where
  active := List.range t
  balance i := if i < m then 32000000000 else if i < t then 38000000000 else 0
  slashed := []

theorem dr_active (t e : Nat) (he : e < 2 ^ 64 - 1) : activeIndices (drVs t) e = List.range t := by
  unfold activeIndices drVs
  rw [List.length_replicate, List.filter_eq_self]
  intro i hi
  have := List.mem_range.1 hi
  simp [this, drValidator]
  omega

theorem sum_const {f : Nat → Nat} {c : Nat} : ∀ {l : List Nat}, (∀ i ∈ l, f i = c) → (l.map f).sum = c * l.length := by
  intro l
  induction l with
  | nil => simp
  | cons a l ih =>
    intro h
    rw [List.map_cons, List.sum_cons, ih (fun i hi => h i (by simp [hi])), h a (by simp), List.length_cons, Nat.mul_add, Nat.mul_one, Nat.add_comm]

theorem dr_balance (t : Nat) : ∀ i < t, registeredBalance (drVs t) i = 32000000000 := by
  intro i hi
  simp [registeredBalance, drVs, hi, drValidator]

theorem dr_balanceOf {t m : Nat} (hm : m ≤ t) : balanceOf (drVs t) (List.range m) = 32000000000 * m := by
  unfold balanceOf
  rw [sum_const (fun i hi => dr_balance t i (by have := List.mem_range.1 hi; omega)), List.length_range]

theorem dr_attesting (m t : Nat) : (drActual m t).attesting (List.range m) = List.range m := by
  simp [Actual.attesting, drActual]

theorem dr_attestingBalance (m t : Nat) : (drActual m t).attestingBalance (List.range m) = 32000000000 * m := by
  unfold Actual.attestingBalance
  rw [dr_attesting, sum_const (c := 32000000000), List.length_range]
  intro i hi
  simp only [drActual]
  rw [if_pos (List.mem_range.1 hi)]

theorem dr_range {m t : Nat} (h : m ≤ t) : List.range t = List.range m ++ (List.range (t - m)).map (m + ·) := by
  rw [← List.range_add, Nat.add_sub_cancel' h]

theorem dr_rest {m t : Nat} (h : m ≤ t) : (drActual m t).rest (List.range m) = (List.range (t - m)).map (m + ·) := by
  unfold Actual.rest
  rw [dr_attesting]
  change (List.range t).filter _ = _
  rw [dr_range h, List.filter_append, List.filter_eq_nil_iff.2 (by simp), List.nil_append, List.filter_eq_self.2 (by simp)]

theorem dr_total {m t : Nat} (h : m ≤ t) : (drActual m t).total = 32000000000 * m + 38000000000 * (t - m) := by
  unfold Actual.total
  change ((List.range t).map _).sum = _
  rw [dr_range h, List.map_append, List.sum_append, sum_const (c := 32000000000), sum_const (c := 38000000000)]
  · simp
  · intro i hi
    obtain ⟨j, hj, rfl⟩ := List.mem_map.1 hi
    have := List.mem_range.1 hj
    simp only [drActual]
    rw [if_neg (by omega), if_pos (by omega)]
  · intro i hi
    simp only [drActual]
    rw [if_pos (List.mem_range.1 hi)]

theorem dr_proper {m t : Nat} (h : m ≤ t) : (drActual m t).Proper where
  once := List.nodup_range
  others i hi := by
    have : ¬ i < t := fun h => hi (List.mem_range.2 h)
    simp only [drActual]
    rw [if_neg (by omega), if_neg this]

/-- The drift is within the documented bounds. -/
theorem dr_documented {m t n e : Nat} (h : m ≤ t) (hn : 1 ≤ n) (hlt : 5 * (t - m) ≤ 129264 * n) (he : e < 2 ^ 64 - 1) :
    Documented (drActual m t) (drVs t) e (List.range m) n := by
  have ha := dr_active t e he
  have hcount : ∀ i < t, countedBalance (drVs t) e i = 32000000000 := by
    intro i hi
    rw [countedBalance, ha, if_pos (List.mem_range.2 hi), dr_balance t i hi]
  have hA : (drActual m t).increase (drVs t) e (List.range m) = 6 * ((t - m : Nat) : ℚ) := by
    unfold Actual.increase
    rw [dr_rest h, sum_const (c := 6000000000)]
    · simp only [eth, List.length_map, List.length_range, Nat.cast_mul, Nat.cast_ofNat]
      ring
    · intro i hi
      obtain ⟨j, hj, rfl⟩ := List.mem_map.1 hi
      have := List.mem_range.1 hj
      rw [hcount _ (by omega)]
      simp only [drActual]
      rw [if_neg (by omega), if_pos (by omega)]
  have hE : (drActual m t).decrease (drVs t) e (List.range m) = 0 := by
    unfold Actual.decrease
    rw [dr_attesting, sum_const (c := 0)]
    · simp [eth]
    · intro i hi
      have := List.mem_range.1 hi
      rw [hcount _ (by omega)]
      simp only [drActual]
      rw [if_pos this]
  have hn' : (1 : ℚ) ≤ n := by exact_mod_cast hn
  have hlt' : (5 : ℚ) * ((t - m : Nat) : ℚ) ≤ 129264 * n := by exact_mod_cast hlt
  have hmax : (n : ℚ) * 2 * 128 ≤ churnBound (eth (32000000000 * t)) n := mul_le_mul_of_nonneg_left (le_max_left _ _) (by positivity)
  refine ⟨?_, ?_, ?_, ?_⟩
  · rw [hA, ha, dr_balanceOf (Nat.le_refl _), dr_rest h, List.length_map, List.length_range]
    linarith
  · rw [hE, ha, dr_balanceOf (Nat.le_refl _)]
    have : (0 : ℚ) ≤ eth (drActual m t).total := by unfold eth; positivity
    have : (0 : ℚ) ≤ eth (drActual m t).total * n * (n + 1) / 33554432 := by positivity
    have : (0 : ℚ) ≤ (((drActual m t).attesting (List.range m)).filter (fun i => decide (i ∈ (drActual m t).active))).length := Nat.cast_nonneg _
    linarith
  · rw [dr_total h, ha, dr_balanceOf (Nat.le_refl _), List.length_range]
    have h1 : eth (32000000000 * m + 38000000000 * (t - m)) = eth (32000000000 * t) + 6 * ((t - m : Nat) : ℚ) := by
      have : 32000000000 * m + 38000000000 * (t - m) = 32000000000 * t + 6000000000 * (t - m) := by omega
      rw [this]
      simp only [eth, Nat.cast_add, Nat.cast_mul, Nat.cast_ofNat]
      ring
    have h2 : ((t - m : Nat) : ℚ) ≤ t := by exact_mod_cast Nat.sub_le _ _
    rw [h1]
    linarith
  · rw [ha, List.length_range]
    change ((List.range t).length : ℚ) ≤ _
    rw [List.length_range]
    linarith

/-- **C88.** For a stake of `320 * k` ETH up to 2.7 million times the number of epochs there is a change of the balances within the documented bounds, with nobody
slashed, after which votes that the guest for Sepolia counts as 70 % are less than two thirds. -/
theorem C88_sepolia_breaks (k n e : Nat) (hk : 1 ≤ k) (hn : 1 ≤ n) (hkn : 15 * k ≤ 129264 * n) (he : e < 2 ^ 64 - 1) :
    ∃ (vs : List Validator) (voters : List Nat) (actual : Actual),
      (∀ v ∈ vs, v.effectiveBalance = 32000000000 ∧ v.slashed = false) ∧ balanceOf vs (activeIndices vs e) = 320000000000 * k ∧
      voters.Nodup ∧ (∀ i ∈ voters, i ∈ activeIndices vs e) ∧
      70 * balanceOf vs (activeIndices vs e) ≤ 100 * balanceOf vs voters ∧
      actual.Proper ∧ actual.slashed = [] ∧ Documented actual vs e voters n ∧ 3 * actual.attestingBalance voters < 2 * actual.total := by
  have ha := dr_active (10 * k) e he
  have h : 7 * k ≤ 10 * k := by omega
  refine ⟨drVs (10 * k), List.range (7 * k), drActual (7 * k) (10 * k), ?_, ?_, List.nodup_range, ?_, ?_, dr_proper h, rfl,
    dr_documented h hn (by omega) he, ?_⟩
  · intro v hv
    obtain rfl := List.eq_of_mem_replicate hv
    exact ⟨rfl, rfl⟩
  · rw [ha, dr_balanceOf (Nat.le_refl _)]
    omega
  · intro i hi
    rw [ha]
    have := List.mem_range.1 hi
    exact List.mem_range.2 (by omega)
  · rw [ha, dr_balanceOf (Nat.le_refl _), dr_balanceOf h]
    omega
  · rw [dr_attestingBalance, dr_total h]
    omega

/-! ## Concrete cases -/

/-- The document's own case (line 156), for 10 epochs: with 35475927 ETH at stake and 1087747 validators 4.9 million ETH may be slashed. -/
example : (calculateDelta 35475927 1087747 4900000 10 : ℚ) ≤ (85 / 100 - 2 / 3) * 35475927 := by
  have : calculateDelta 35475927 1087747 4900000 10 ≤ 6496300 := Int.ceil_le.2 (by unfold deltaSum; norm_num)
  have : (calculateDelta 35475927 1087747 4900000 10 : ℚ) ≤ 6496300 := by exact_mod_cast this
  norm_num at this ⊢
  linarith

/-- 312500 validators of 32 ETH, of which nine tenths vote, the others then get 38 ETH: the hypotheses that the mainnet theorem has on balances are met, for
four epochs. -/
example : (drActual 281250 312500).Proper ∧ Documented (drActual 281250 312500) (drVs 312500) 411391 (List.range 281250) (4 : Nat) ∧
    2 ≤ eth (balanceOf (drVs 312500) (activeIndices (drVs 312500) 411391)) ∧
    (calculateDelta (eth (balanceOf (drVs 312500) (activeIndices (drVs 312500) 411391))) (activeIndices (drVs 312500) 411391).length
      ((drActual 281250 312500).slashedBalance (drVs 312500) 411391) (4 : Nat) : ℚ) ≤
      (85 / 100 - 2 / 3) * eth (balanceOf (drVs 312500) (activeIndices (drVs 312500) 411391)) ∧
    2 * (drActual 281250 312500).total ≤ 3 * (drActual 281250 312500).attestingBalance (List.range 281250) := by
  have ha := dr_active 312500 411391 (by decide)
  have hB : eth (balanceOf (drVs 312500) (activeIndices (drVs 312500) 411391)) = 10000000 := by
    rw [ha, dr_balanceOf (Nat.le_refl _)]
    norm_num [eth]
  have hd := dr_documented (m := 281250) (t := 312500) (n := 4) (e := 411391) (by decide) (by decide) (by decide) (by decide)
  have hS : (drActual 281250 312500).slashedBalance (drVs 312500) 411391 = 0 := by simp [Actual.slashedBalance, drActual, eth]
  have hm : (calculateDelta (eth (balanceOf (drVs 312500) (activeIndices (drVs 312500) 411391))) (activeIndices (drVs 312500) 411391).length
      ((drActual 281250 312500).slashedBalance (drVs 312500) 411391) (4 : Nat) : ℚ) ≤
      (85 / 100 - 2 / 3) * eth (balanceOf (drVs 312500) (activeIndices (drVs 312500) 411391)) := by
    rw [hB, hS, ha, List.length_range]
    exact C88_mainnet_margin _ _ _ _ (by decide) (by norm_num) (by norm_num) (by norm_num)
  refine ⟨dr_proper (by decide), hd, by rw [hB]; norm_num, hm, ?_⟩
  refine margin_covers (percent := 85) (by decide) _ (dr_proper (by decide)) _ _ _ List.nodup_range ?_ ?_ (by rw [hB]; norm_num) _ hd (by exact_mod_cast hm)
  · intro i hi
    rw [ha]
    have := List.mem_range.1 hi
    exact List.mem_range.2 (by omega)
  · rw [ha, dr_balanceOf (Nat.le_refl _), dr_balanceOf (by decide)]
    decide

/-- The example file that the guest for mainnet accepts starts from a real state. -/
example : ∃ links, Run ⟨Net.mainnet.justified, Net.mainnet.trusted⟩ links ⟨Net.mainnet.first, Net.mainnet.last⟩ ∧
    ∀ link ∈ links, link.target.epoch - Net.mainnet.trusted.epoch ≤ 4 := by
  have hn : Net.mainnet.Shipped := Or.inl rfl
  have key := @C88_mainnet_partial Unit exWire (fun _ => true) szWire_laws exExt (fun _ _ => rfl) swSigned swSigned_unforgeable
  rw [dv_mainnet, dv_mainnet_cfg] at key
  obtain ⟨input, post, hr, hj, hall⟩ := key _ _ (Net.file_runs hn)
  obtain rfl := dv_reads_one hn hr
  obtain ⟨links, hrun, hl⟩ := hall _ _ (Net.input_real hn)
  cases dv_follows hn with
  | cons hg hread hrest =>
    rw [Net.file_runs hn, Res.ok.injEq] at hg
    subst hg
    cases hrest
    rw [hj] at hread
    have hp := (Prod.mk.inj (Res.ok.inj hread)).2
    subst hp
    exact ⟨links, hrun, fun link h => (hl link h).1⟩

/-- The example file that the guest for Sepolia accepts starts from a real state. -/
example : ∃ links, Run ⟨Net.sepolia.justified, Net.sepolia.trusted⟩ links ⟨Net.sepolia.first, Net.sepolia.last⟩ ∧
    ∀ link ∈ links, link.target.epoch - Net.sepolia.trusted.epoch ≤ 4 := by
  have hn : Net.sepolia.Shipped := Or.inr rfl
  have key := @C88_sepolia_partial Unit exWire (fun _ => true) szWire_laws exExt (fun _ _ => rfl) swSigned swSigned_unforgeable
  rw [dv_sepolia, dv_sepolia_cfg] at key
  obtain ⟨input, post, hr, hj, hall⟩ := key _ _ (Net.file_runs hn)
  obtain rfl := dv_reads_one hn hr
  obtain ⟨links, hrun, hl⟩ := hall _ _ (Net.input_real hn)
  cases dv_follows hn with
  | cons hg hread hrest =>
    rw [Net.file_runs hn, Res.ok.injEq] at hg
    subst hg
    cases hrest
    rw [hj] at hread
    have hp := (Prod.mk.inj (Res.ok.inj hread)).2
    subst hp
    exact ⟨links, hrun, fun link h => (hl link h).1⟩

end Signal
