import Verif.Proofs.Ssz
import Verif.Proofs.OMap
import Verif.Spec.Registry

/-! Helper lemmas on the extraction of values from verified proofs. -/

namespace Signal
open Spec

variable (X : Ext)

theorem nextAssertGindex_eq_ok {vs : List (Nat × Bytes)} {g : Nat} {r : Bytes × List (Nat × Bytes)} :
    nextAssertGindex vs g = .ok r ↔ vs = (g, r.1) :: r.2 := by
  cases vs with
  | nil => simp [nextAssertGindex]
  | cons x vs =>
    obtain ⟨g', n⟩ := x
    obtain ⟨a, b⟩ := r
    simp only [nextAssertGindex]
    split
    · rename_i h; subst h; simp
    · rename_i h; simp [h]

theorem nextExpecting_eq_ok {vs : List (Nat × Bytes)} {g : Nat} {r : Bytes × List (Nat × Bytes)} :
    nextExpecting vs g = .ok r ↔ vs = (g, r.1) :: r.2 := by
  cases vs with
  | nil => simp [nextExpecting]
  | cons x vs =>
    obtain ⟨g', n⟩ := x
    obtain ⟨a, b⟩ := r
    simp only [nextExpecting]
    split
    · rename_i h; subst h; simp
    · rename_i h; simp [h]

theorem extractBeaconBlock_eq_ok {p : Multiproof} {r : Root} :
    extractBeaconBlock p = .ok r ↔ p.values = [(stateRootGindex, r)] := by
  unfold extractBeaconBlock
  simp only [Res.bind_eq_ok, nextAssertGindex_eq_ok, Res.pure_eq, Res.ok.injEq, assert_eq_ok,
    List.isEmpty_iff]
  constructor
  · rintro ⟨⟨a, b⟩, h1, -, h2, rfl⟩; simp_all
  · intro h; exact ⟨(r, []), h, (), rfl, rfl⟩

theorem extractBeaconState_eq_ok {p : Multiproof} {s : StateInfo} :
    extractBeaconState p = .ok s ↔ ∃ c1 c2 c3 c4 c5 c6 c7 c8 c9,
      p.values = [(genesisValidatorsRootGindex, c1), (slotGindex, c2), (forkPreviousVersionGindex, c3),
        (forkCurrentVersionGindex, c4), (forkEpochGindex, c5), (validatorsGindex, c6),
        (finalizedCheckpointEpochGindex, c7), (earliestExitEpochGindex, c8),
        (earliestConsolidationEpochGindex, c9)] ∧
      s = { genesisValidatorsRoot := c1, slot := u64FromChunk c2,
            fork := ⟨c3.take 4, c4.take 4, u64FromChunk c5⟩, validatorsRoot := c6,
            finalizedCheckpointEpoch := u64FromChunk c7, earliestExitEpoch := u64FromChunk c8,
            earliestConsolidationEpoch := u64FromChunk c9 } := by
  unfold extractBeaconState
  simp only [Res.bind_eq_ok, nextAssertGindex_eq_ok, Res.pure_eq, Res.ok.injEq, assert_eq_ok,
    List.isEmpty_iff]
  constructor
  · rintro ⟨⟨c1, r1⟩, h1, ⟨c2, r2⟩, h2, ⟨c3, r3⟩, h3, ⟨c4, r4⟩, h4, ⟨c5, r5⟩, h5, ⟨c6, r6⟩, h6,
      ⟨c7, r7⟩, h7, ⟨c8, r8⟩, h8, ⟨c9, r9⟩, h9, -, h10, h11⟩
    dsimp only at *
    subst h10 h9 h8 h7 h6 h5 h4 h3 h2
    exact ⟨c1, c2, c3, c4, c5, c6, c7, c8, c9, h1, h11.symm⟩
  · rintro ⟨c1, c2, c3, c4, c5, c6, c7, c8, c9, h, rfl⟩
    exact ⟨(c1, _), h, (c2, _), rfl, (c3, _), rfl, (c4, _), rfl, (c5, _), rfl, (c6, _), rfl, (c7, _), rfl,
      (c8, _), rfl, (c9, _), rfl, (), rfl, rfl⟩

/-- A record read from chunks listed among the values. -/
def FromChunks (values : List (Nat × Bytes)) (j : Nat) (info : ValidatorInfo) : Prop :=
  ∃ k0 k1 eb sl ae ac ex,
    (publicKey0Gindex j, k0) ∈ values ∧ (publicKey1Gindex j, k1) ∈ values ∧
    (effectiveBalanceGindex j, eb) ∈ values ∧ (slashedGindex j, sl) ∈ values ∧
    (activationEligibilityEpochGindex j, ae) ∈ values ∧ (activationEpochGindex j, ac) ∈ values ∧
    (exitEpochGindex j, ex) ∈ values ∧
    hasCompressedChunks X info.pubkey k0 k1 = true ∧
    info.effectiveBalance = u64FromChunk eb ∧
    (boolFromChunk sl : Res ProofError Bool) = .ok info.slashed ∧
    info.activationEligibilityEpoch = u64FromChunk ae ∧
    info.activationEpoch = u64FromChunk ac ∧ info.exitEpoch = u64FromChunk ex

theorem FromChunks.mono {v w : List (Nat × Bytes)} {j : Nat} {info : ValidatorInfo}
    (h : FromChunks X v j info) (hs : ∀ x ∈ v, x ∈ w) : FromChunks X w j info := by
  obtain ⟨a, b, c, d, e, f, g, h1, h2, h3, h4, h5, h6, h7, h8⟩ := h
  exact ⟨a, b, c, d, e, f, g, hs _ h1, hs _ h2, hs _ h3, hs _ h4, hs _ h5, hs _ h6, hs _ h7, h8⟩

/-- Exactly which values `extractValidator` reads. -/
theorem extractValidator_eq_ok {pubkey : Bytes} {values rest : List (Nat × Bytes)} {i : Nat}
    {info : ValidatorInfo} :
    extractValidator X pubkey values i = .ok (info, rest) ↔
      ∃ k0 k1 eb sl ae ac ex b,
        values = (publicKey0Gindex i, k0) :: (publicKey1Gindex i, k1) :: (effectiveBalanceGindex i, eb) ::
          (slashedGindex i, sl) :: (activationEligibilityEpochGindex i, ae) ::
          (activationEpochGindex i, ac) :: (exitEpochGindex i, ex) :: rest ∧
        hasCompressedChunks X pubkey k0 k1 = true ∧
        (boolFromChunk sl : Res ProofError Bool) = .ok b ∧
        info = ⟨pubkey, u64FromChunk eb, b, u64FromChunk ae, u64FromChunk ac, u64FromChunk ex⟩ := by
  unfold extractValidator
  simp only [Res.bind_eq_ok, nextExpecting_eq_ok, Res.pure_eq, Res.ok.injEq, assert_eq_ok]
  constructor
  · rintro ⟨⟨c1, r1⟩, h1, ⟨c2, r2⟩, h2, -, h3, ⟨c4, r4⟩, h4, ⟨c5, r5⟩, h5, b, h6,
      ⟨c7, r7⟩, h7, ⟨c8, r8⟩, h8, ⟨c9, r9⟩, h9, h10⟩
    dsimp only at *
    simp only [Prod.mk.injEq] at h10
    obtain ⟨h10, rfl⟩ := h10
    subst h9 h8 h7 h5 h4 h2
    exact ⟨c1, c2, c4, c5, c7, c8, c9, b, h1, h3, h6, h10.symm⟩
  · rintro ⟨k0, k1, eb, sl, ae, ac, ex, b, rfl, h1, h2, rfl⟩
    exact ⟨(k0, _), rfl, (k1, _), rfl, (), h1, (eb, _), rfl, (sl, _), rfl, b, h2, (ae, _), rfl, (ac, _), rfl,
      (ex, _), rfl, rfl⟩

theorem extractLoop_sorted (trusted : Nat) (fuel : Nat) : ∀ values pubkeys i cache m,
    extractLoop X trusted fuel values pubkeys i cache = .ok m → cache.Sorted → m.Sorted := by
  induction fuel with
  | zero => intro values pubkeys i cache m h; simp [extractLoop] at h
  | succ fuel ih =>
    intro values pubkeys i cache m h hs
    unfold extractLoop at h
    split at h
    · cases h
    · split at h
      · simp only [Res.bind_eq_ok, Res.pure_eq, Res.ok.injEq] at h
        obtain ⟨-, -, -, -, rfl⟩ := h
        exact hs
      · split at h
        · simp only [Res.bind_eq_ok] at h
          obtain ⟨-, -, h⟩ := h
          exact ih _ _ _ _ _ h hs
        · split at h
          · cases h
          · simp only [Res.bind_eq_ok] at h
            obtain ⟨⟨info, rest⟩, -, h⟩ := h
            exact ih _ _ _ _ _ h (OMap.sorted_insert hs _ _)

/-- What a completed loop has read. -/
theorem extractLoop_reads (trusted : Nat) (fuel : Nat) : ∀ values pubkeys i cache m,
    extractLoop X trusted fuel values pubkeys i cache = .ok m →
    ∃ n node, i ≤ n ∧ (3, node) ∈ values ∧ n = u64FromChunk node ∧
      (∀ j, j < i ∨ n ≤ j → m.get? j = cache.get? j) ∧
      ∀ j, i ≤ j → j < n →
        (m.get? j = cache.get? j ∧ ∃ c, (exitEpochGindex j, c) ∈ values ∧ u64FromChunk c ≤ trusted) ∨
        ∃ info, m.get? j = some info ∧ FromChunks X values j info := by
  induction fuel with
  | zero => intro values pubkeys i cache m h; simp [extractLoop] at h
  | succ fuel ih =>
    intro values pubkeys i cache m h
    unfold extractLoop at h
    split at h
    · cases h
    · rename_i gindex node rest
      split at h
      · rename_i hg
        subst hg
        simp only [Res.bind_eq_ok, Res.pure_eq, Res.ok.injEq, assert_eq_ok, decide_eq_true_eq] at h
        obtain ⟨-, h1, -, -, rfl⟩ := h
        exact ⟨i, node, Nat.le_refl _, by simp, h1, fun _ _ => rfl, fun j h1 h2 => by omega⟩
      · split at h
        · rename_i hg
          subst hg
          simp only [Res.bind_eq_ok, assert_eq_ok, decide_eq_true_eq] at h
          obtain ⟨-, h1, h⟩ := h
          obtain ⟨n, nd, a1, a2, a3, a4, a5⟩ := ih _ _ _ _ _ h
          refine ⟨n, nd, by omega, by simp [a2], a3, fun j hj => a4 j (by omega), ?_⟩
          intro j j1 j2
          by_cases hj : j = i
          · subst hj
            exact Or.inl ⟨a4 j (by omega), node, by simp, h1⟩
          · rcases a5 j (by omega) j2 with ⟨b1, c, b2, b3⟩ | ⟨info, b1, b2⟩
            · exact Or.inl ⟨b1, c, by simp [b2], b3⟩
            · exact Or.inr ⟨info, b1, FromChunks.mono X b2 (fun x hx => by simp [hx])⟩
        · split at h
          · cases h
          · rename_i pubkey pubkeys
            simp only [Res.bind_eq_ok] at h
            obtain ⟨⟨info, vs⟩, h1, h⟩ := h
            obtain ⟨k0, k1, eb, sl, ae, ac, ex, b, e1, e2, e3, rfl⟩ := (extractValidator_eq_ok X).1 h1
            obtain ⟨n, nd, a1, a2, a3, a4, a5⟩ := ih _ _ _ _ _ h
            have hsub : ∀ x ∈ vs, x ∈ (gindex, node) :: rest := by
              intro x hx; rw [e1]; simp [hx]
            refine ⟨n, nd, by omega, hsub _ a2, a3, ?_, ?_⟩
            · intro j hj
              rw [a4 j (by omega), OMap.get?_insert, if_neg (by omega)]
            · intro j j1 j2
              by_cases hj : j = i
              · subst hj
                refine Or.inr ⟨_, by rw [a4 j (by omega), OMap.get?_insert, if_pos rfl], ?_⟩
                rw [e1]
                exact ⟨k0, k1, eb, sl, ae, ac, ex, by simp, by simp, by simp, by simp, by simp, by simp,
                  by simp, e2, rfl, e3, rfl, rfl, rfl⟩
              · rcases a5 j (by omega) j2 with ⟨b1, c, b2, b3⟩ | ⟨info, b1, b2⟩
                · refine Or.inl ⟨?_, c, hsub _ b2, b3⟩
                  rw [b1, OMap.get?_insert, if_neg hj]
                · exact Or.inr ⟨info, b1, FromChunks.mono X b2 hsub⟩

/-- The fuel is never exhausted: any amount above the number of values gives the same result. -/
theorem extractLoop_fuel (trusted : Nat) (f : Nat) : ∀ f' values pubkeys i cache,
    values.length < f → values.length < f' →
    extractLoop X trusted f values pubkeys i cache = extractLoop X trusted f' values pubkeys i cache := by
  induction f with
  | zero => intro f' values pubkeys i cache h; omega
  | succ f ih =>
    intro f' values pubkeys i cache h h'
    obtain ⟨f', rfl⟩ : ∃ k, f' = k + 1 := ⟨f' - 1, by omega⟩
    unfold extractLoop
    split
    · rfl
    · rename_i gindex node rest
      simp only [List.length_cons] at h h'
      split
      · rfl
      · split
        · congr 1; funext _; exact ih _ _ _ _ _ (by omega) (by omega)
        · split
          · rfl
          · cases he : extractValidator X _ ((gindex, node) :: rest) i with
            | err e => rfl
            | panic => rfl
            | ok r =>
              obtain ⟨info, vs⟩ := r
              obtain ⟨k0, k1, eb, sl, ae, ac, ex, b, e1, -⟩ := (extractValidator_eq_ok X).1 he
              have hl := congrArg List.length e1
              simp only [List.length_cons] at hl
              simp only [Res.ok_bind]
              exact ih _ _ _ _ _ (by omega) (by omega)

end Signal
