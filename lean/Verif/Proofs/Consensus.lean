import Verif.Spec.Consensus

/-! Helper lemmas on the consensus state machine. -/

namespace Signal
open Spec

theorem isValid_iff (s : ConsensusState) : s.isValid = true ↔ ValidState s := by
  unfold ConsensusState.isValid ValidState
  simp only [Bool.or_eq_true, decide_eq_true_eq]
  rfl

theorem zero_valid : ValidState ConsensusState.zero := Or.inr rfl

/-- Closed form of `state_transition`. -/
theorem stateTransition_eq (s : ConsensusState) (l : Link) :
    s.stateTransition l =
      if ¬ ValidState s then .panic
      else if s.currentJustified ≠ l.source then .err .invalidTransition
      else if U64 ≤ l.source.epoch + 1 then .err (.arith .overflow)
      else if l.target.epoch = l.source.epoch + 1 then .ok ⟨l.target, l.source⟩
      else if l.source.epoch + 1 < l.target.epoch then .ok ⟨l.target, s.finalized⟩
      else .err .invalidTransition := by
  unfold ConsensusState.stateTransition
  by_cases hv : ValidState s
  · have hv' := (isValid_iff s).2 hv
    by_cases hs : s.currentJustified = l.source
    · by_cases ho : l.source.epoch + 1 < U64
      · have ho' : ¬ U64 ≤ l.source.epoch + 1 := by omega
        by_cases h1 : l.target.epoch = l.source.epoch + 1
        · simp [assert, hv, hv', hs, ho, ho', h1, safeAdd, Res.mapErr]
        · by_cases h2 : l.source.epoch + 1 < l.target.epoch
          · simp [assert, hv, hv', hs, ho, ho', h1, h2, safeAdd, Res.mapErr]
          · simp [assert, hv, hv', hs, ho, ho', h1, h2, safeAdd, Res.mapErr]
      · have ho' : U64 ≤ l.source.epoch + 1 := by omega
        simp [assert, hv, hv', hs, ho, ho', safeAdd, Res.mapErr]
    · simp [assert, hv, hv', hs]
  · have hv' : s.isValid = false := by
      rw [← Bool.not_eq_true, isValid_iff]; exact hv
    simp [assert, hv, hv']

theorem stateTransition_ok_iff (s : ConsensusState) (l : Link) (s' : ConsensusState) :
    s.stateTransition l = .ok s' ↔ ValidState s ∧ l.source.epoch + 1 < U64 ∧ Step s l s' := by
  rw [stateTransition_eq]
  obtain ⟨c, f⟩ := s
  obtain ⟨src, tgt⟩ := l
  obtain ⟨c', f'⟩ := s'
  constructor
  · intro h
    split at h <;> try contradiction
    split at h <;> try contradiction
    split at h <;> try contradiction
    split at h
    · simp at h; simp_all; obtain ⟨rfl, rfl⟩ := h
      exact ⟨by omega, Step.finalize _ _ _ (by assumption)⟩
    · split at h <;> try contradiction
      simp at h; simp_all; obtain ⟨rfl, rfl⟩ := h
      exact ⟨by omega, Step.justify _ _ _ (by assumption)⟩
  · rintro ⟨hv, ho, hst⟩
    cases hst with
    | finalize _ _ _ h => simp at ho; simp [hv, h]; omega
    | justify _ _ _ h =>
      simp only [hv, not_true_eq_false, ↓reduceIte, ne_eq]
      rw [if_neg (by simp at ho; omega), if_neg (by omega), if_pos (by omega)]

theorem Spec.Step.valid {s l s'} (h : Step s l s') : ValidState s → ValidState s' := by
  intro hv
  cases h with
  | finalize c f b h => exact Or.inl (by simp; omega)
  | justify c f b h =>
    refine Or.inl ?_
    rcases hv with hv | hv
    · simp at *; omega
    · simp at hv; obtain ⟨rfl, rfl⟩ := hv; simp at *; omega

theorem Spec.Step.justified_lt {s l s'} (h : Step s l s') :
    s.currentJustified.epoch < s'.currentJustified.epoch := by
  cases h <;> simp <;> omega

theorem Spec.Step.finalized_le {s l s'} (h : Step s l s') (hv : ValidState s) :
    s.finalized.epoch ≤ s'.finalized.epoch := by
  cases h with
  | finalize c f b h =>
    rcases hv with hv | hv
    · simp at *; omega
    · simp at hv; obtain ⟨rfl, rfl⟩ := hv; simp
  | justify c f b h => simp

theorem Spec.Step.det {s l s₁ s₂} (h₁ : Step s l s₁) (h₂ : Step s l s₂) : s₁ = s₂ := by
  cases h₁ <;> cases h₂ <;> first | rfl | omega

theorem applyLinks_run {ls : List Link} : ∀ {s s'}, applyLinks s ls = .ok s' → Run s ls s' := by
  induction ls with
  | nil => intro s s' h; simp [applyLinks] at h; subst h; exact .nil _
  | cons l ls ih =>
    intro s s' h
    simp [applyLinks, Res.bind_eq_ok] at h
    obtain ⟨t, h1, h2⟩ := h
    exact .cons ((stateTransition_ok_iff _ _ _).1 h1).2.2 (ih h2)

end Signal
