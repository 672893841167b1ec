import Verif.Proofs.Consensus

/-!
# C01-C05, C55: the consensus state machine

Specification: `Verif/Spec/Consensus.lean`.
-/

namespace Signal
open Spec

/-- Sample data used by the non-vacuity examples below. -/
def exRoot (b : UInt8) : Root := List.replicate 32 b

/-- **C01.** From a valid state, applying any list of links with `state_transition` (if it does
not fail) follows the specification's run and gives a valid state; the justified epoch grows by at
least one per link; finality does not go back. -/
theorem C01_links_preserve_validity (s s' : ConsensusState) (links : List Link)
    (hv : ValidState s) (h : applyLinks s links = .ok s') :
    Run s links s' ∧ ValidState s' ∧
      s.currentJustified.epoch + links.length ≤ s'.currentJustified.epoch ∧
      s.finalized.epoch ≤ s'.finalized.epoch := by
  refine ⟨applyLinks_run h, ?_⟩
  have hr := applyLinks_run h
  clear h
  induction hr with
  | nil s => exact ⟨hv, by simp, Nat.le_refl _⟩
  | cons hst _ ih =>
    obtain ⟨h1, h2, h3⟩ := ih (hst.valid hv)
    have := hst.justified_lt
    have := hst.finalized_le hv
    refine ⟨h1, ?_, by omega⟩
    simp; omega

/-- **C01** (second part). A single accepted link either leaves the finalized checkpoint unchanged or
finalizes exactly the checkpoint that was justified before, which is then the link's source. -/
theorem C01_newly_finalized_was_justified (s s' : ConsensusState) (l : Link)
    (h : s.stateTransition l = .ok s') :
    s'.finalized = s.finalized ∨
      (s'.finalized = s.currentJustified ∧ l.source = s.currentJustified ∧
        s'.currentJustified.epoch = s'.finalized.epoch + 1) := by
  obtain ⟨_, _, hst⟩ := (stateTransition_ok_iff _ _ _).1 h
  cases hst with
  | finalize c f b h' => exact Or.inr ⟨rfl, rfl, h'⟩
  | justify c f b h' => exact Or.inl rfl

/-- A three-link history: justify with a skip, then finalize, then finalize again. -/
example : applyLinks ⟨⟨5, exRoot 1⟩, ⟨4, exRoot 2⟩⟩
    [⟨⟨5, exRoot 1⟩, ⟨8, exRoot 3⟩⟩, ⟨⟨8, exRoot 3⟩, ⟨9, exRoot 4⟩⟩,
      ⟨⟨9, exRoot 4⟩, ⟨10, exRoot 5⟩⟩] =
    .ok ⟨⟨10, exRoot 5⟩, ⟨9, exRoot 4⟩⟩ := by decide

/-- **C02.** Exactly when a link is accepted, and with which result. -/
theorem C02_transition_ok_iff (s s' : ConsensusState) (l : Link) (hv : ValidState s) :
    s.stateTransition l = .ok s' ↔ l.source.epoch + 1 < 2 ^ 64 ∧ Step s l s' := by
  rw [stateTransition_ok_iff]
  simp [hv]

/-- **C02** (acceptance in plain terms). -/
theorem C02_transition_accepts_iff (s : ConsensusState) (l : Link) (hv : ValidState s) :
    (∃ s', s.stateTransition l = .ok s') ↔
      l.source = s.currentJustified ∧ l.source.epoch < l.target.epoch ∧
        l.source.epoch + 1 < 2 ^ 64 := by
  simp only [C02_transition_ok_iff s _ l hv]
  obtain ⟨c, f⟩ := s
  obtain ⟨a, b⟩ := l
  constructor
  · rintro ⟨s', ho, hst⟩
    cases hst <;> simp at ho ⊢ <;> omega
  · rintro ⟨h1, h2, h3⟩
    simp at h1 h2 h3; subst h1
    by_cases h : b.epoch = a.epoch + 1
    · exact ⟨_, h3, .finalize a f b h⟩
    · exact ⟨_, h3, .justify a f b (by omega)⟩

/-- **C02** (finalization). An accepted link finalizes its source iff it spans exactly one epoch;
otherwise finality is unchanged. In both cases the target becomes justified. -/
theorem C02_finalizes_iff_one_epoch (s s' : ConsensusState) (l : Link)
    (h : s.stateTransition l = .ok s') :
    s'.currentJustified = l.target ∧
      s'.finalized =
        (if l.target.epoch = l.source.epoch + 1 then l.source else s.finalized) := by
  obtain ⟨_, _, hst⟩ := (stateTransition_ok_iff _ _ _).1 h
  cases hst with
  | finalize c f b h' => simp [h']
  | justify c f b h' => simp; omega

/-- **C02** (errors). On a valid state the function never aborts; it reports an arithmetic error
exactly when the source is the justified checkpoint and its epoch is `u64::MAX`, and otherwise
`InvalidTransition`. -/
theorem C02_transition_errors (s : ConsensusState) (l : Link) (hv : ValidState s)
    (hu : l.source.epoch < 2 ^ 64) :
    s.stateTransition l ≠ .panic ∧
      (∀ e, s.stateTransition l = .err e →
        (e = .arith .overflow ∧ l.source = s.currentJustified ∧ l.source.epoch = 2 ^ 64 - 1) ∨
        (e = .invalidTransition ∧
          (l.source ≠ s.currentJustified ∨ l.target.epoch ≤ l.source.epoch))) := by
  rw [stateTransition_eq]
  simp only [hv, not_true_eq_false, ↓reduceIte]
  constructor
  · split
    · simp
    · split
      · simp
      · split
        · simp
        · split <;> simp
  · intro e h
    split at h
    · rename_i hne
      simp at h; subst h; right; exact ⟨rfl, Or.inl (fun h => hne h.symm)⟩
    · rename_i heq
      simp at heq
      split at h
      · simp at h; subst h; left; refine ⟨rfl, heq.symm, ?_⟩
        simp at *; omega
      · split at h
        · contradiction
        · split at h
          · contradiction
          · simp at h; subst h; right; exact ⟨rfl, Or.inr (by omega)⟩

example : ValidState ⟨⟨5, exRoot 1⟩, ⟨4, exRoot 2⟩⟩ := Or.inl (by decide)
example : (⟨⟨2 ^ 64 - 1, exRoot 1⟩, ⟨4, exRoot 2⟩⟩ : ConsensusState).stateTransition
    ⟨⟨2 ^ 64 - 1, exRoot 1⟩, ⟨7, exRoot 2⟩⟩ = .err (.arith .overflow) := by decide

/-- Closed form used by the proofs of C03-C05. -/
theorem transitionLink_ok_iff (s t : ConsensusState) (o : Option Link) :
    s.transitionLink t = .ok o ↔
      ValidState s ∧ ValidState t ∧
      (s.finalized.epoch < t.finalized.epoch ∨ s.finalized = t.finalized) ∧
      (s.currentJustified.epoch < t.currentJustified.epoch ∨
        s.currentJustified = t.currentJustified) ∧
      ((s.currentJustified = t.currentJustified ∧ s.finalized = t.finalized ∧ o = none) ∨
       (s.currentJustified ≠ t.currentJustified ∧ s.finalized ≠ t.finalized ∧
          t.finalized = s.currentJustified ∧ t.currentJustified.epoch - t.finalized.epoch = 1 ∧
          o = some ⟨t.finalized, t.currentJustified⟩) ∨
       (s.currentJustified ≠ t.currentJustified ∧ s.finalized = t.finalized ∧
          1 < t.currentJustified.epoch - s.currentJustified.epoch ∧
          o = some ⟨s.currentJustified, t.currentJustified⟩)) := by
  unfold ConsensusState.transitionLink
  simp only [Res.bind_eq_ok, assert_eq_ok, ensure_eq_ok, isValid_iff, exists_const,
    ConsensusState.lessOrEqual, Checkpoint.lessOrEqual, Bool.and_eq_true, Bool.or_eq_true,
    decide_eq_true_eq, exists_and_left]
  constructor
  · rintro ⟨h1, h2, ⟨h3, h4⟩, h⟩
    refine ⟨h1, h2, h3, h4, ?_⟩
    split at h
    · left; rename_i he
      simp [Res.bind_eq_ok] at h
      exact ⟨he, h.1, h.2.symm⟩
    · rename_i hne
      split at h
      · right; left; rename_i hf
        split at h
        · rename_i hc; simp at h; exact ⟨hne, hf, hc.1, hc.2, h.symm⟩
        · split at h <;> contradiction
      · right; right; rename_i hf
        simp at hf
        simp [Res.bind_eq_ok] at h
        exact ⟨hne, hf, by simpa using h.1, h.2.symm⟩
  · rintro ⟨h1, h2, h3, h4, h⟩
    refine ⟨h1, h2, ⟨h3, h4⟩, ?_⟩
    rcases h with ⟨ha, hb, rfl⟩ | ⟨ha, hb, hc, hd, rfl⟩ | ⟨ha, hb, hc, rfl⟩
    · simp [ha, hb, Res.bind_eq_ok]
    · rw [if_neg ha, if_pos hb, if_pos ⟨hc, hd⟩]; rfl
    · rw [if_neg ha, if_neg (by simpa using hb)]; simp [Res.bind_eq_ok, hc]

/-- **C03.** A link reported by `transition_link(a, b)` is accepted by `state_transition(a, ·)`
and leads exactly to `b` (for `u64` epochs). -/
theorem C03_reported_link_replays (a b : ConsensusState) (l : Link)
    (hu : b.currentJustified.epoch < 2 ^ 64)
    (h : a.transitionLink b = .ok (some l)) : a.stateTransition l = .ok b := by
  rw [transitionLink_ok_iff] at h
  obtain ⟨hv, _, _, h4, h⟩ := h
  rw [C02_transition_ok_iff a b l hv]
  obtain ⟨c, f⟩ := a
  obtain ⟨c', f'⟩ := b
  rcases h with ⟨_, _, h⟩ | ⟨_, _, hc, hd, h⟩ | ⟨_, hb, hc, h⟩
  · cases h
  · simp at h hc hd hu; subst h; subst hc
    exact ⟨by simp; omega, .finalize _ _ _ (by omega)⟩
  · simp at h hb hc hu; subst h; subst hb
    exact ⟨by simp; omega, .justify _ _ _ (by omega)⟩

example : (⟨⟨5, exRoot 1⟩, ⟨4, exRoot 2⟩⟩ : ConsensusState).transitionLink
    ⟨⟨6, exRoot 3⟩, ⟨5, exRoot 1⟩⟩ = .ok (some ⟨⟨5, exRoot 1⟩, ⟨6, exRoot 3⟩⟩) := by decide

/-- **C04, negation.** `transition_link` is not the inverse of `state_transition`: the all-zero state
accepts a link to epoch 1, but no link is reported between the two states (it is an error). -/
theorem C04_inverse_fails_at_genesis :
    ∃ (a b : ConsensusState) (l : Link), ValidState a ∧ a.stateTransition l = .ok b ∧
      a.transitionLink b = .err .invalidTransition :=
  ⟨.zero, ⟨⟨1, exRoot 7⟩, .zero⟩, ⟨.zero, ⟨1, exRoot 7⟩⟩, zero_valid, by decide, by decide⟩

/-- **C04, partial.** Full statement: `a.stateTransition l = ok b → a.transitionLink b = ok (some l)`.
Missing: it is false exactly when `a` is the all-zero state and the target epoch is 1. -/
theorem C04_inverse_partial (a b : ConsensusState) (l : Link)
    (h : a.stateTransition l = .ok b)
    (hg : a = ConsensusState.zero → l.target.epoch ≠ 1) :
    a.transitionLink b = .ok (some l) := by
  obtain ⟨hv, ho, hst⟩ := (stateTransition_ok_iff _ _ _).1 h
  rw [transitionLink_ok_iff]
  have hfl := hst.finalized_le hv
  have hjl := hst.justified_lt
  refine ⟨hv, hst.valid hv, ?_, Or.inl hjl, ?_⟩
  · cases hst with
    | finalize c f b h =>
      rcases hv with hv | hv
      · exact Or.inl hv
      · simp at hv; right; simp [hv]
    | justify c f b h => right; rfl
  · cases hst with
    | finalize c f b h =>
      simp at hjl
      have hne : c ≠ b := by intro hh; subst hh; omega
      rcases hv with hv | hv
      · right; left
        refine ⟨hne, ?_, rfl, by simp; omega, rfl⟩
        intro hh; simp at hh hv; subst hh; omega
      · exfalso
        apply hg hv
        simp at hv; simp [hv] at hjl ⊢; simp_all
    | justify c f b h =>
      right; right
      refine ⟨?_, rfl, by simp; omega, rfl⟩
      intro hh; simp at hh hjl; subst hh; omega

/-- **C04** (the exception is exact). On the all-zero state with target epoch 1 the
inverse always fails. -/
theorem C04_genesis_exception (b : ConsensusState) (l : Link)
    (h : ConsensusState.zero.stateTransition l = .ok b) (ht : l.target.epoch = 1) :
    ConsensusState.zero.transitionLink b = .err .invalidTransition := by
  obtain ⟨hv, ho, hst⟩ := (stateTransition_ok_iff _ _ _).1 h
  generalize hz : ConsensusState.zero = z at *
  cases hst with
  | justify c f b h =>
    simp [ConsensusState.zero, Checkpoint.zero] at hz; simp [← hz] at h ht; omega
  | finalize c f b h =>
    simp [ConsensusState.zero] at hz
    obtain ⟨rfl, rfl⟩ := hz
    simp at ht
    have hne : Checkpoint.zero ≠ b := by intro hh; subst hh; simp [Checkpoint.zero] at ht
    have e0 : Checkpoint.zero.epoch = 0 := rfl
    have hb : (⟨b, .zero⟩ : ConsensusState).isValid = true := by
      rw [isValid_iff]; left; simp [ht, e0]
    have hzv : (⟨.zero, .zero⟩ : ConsensusState).isValid = true := by decide
    simp [ConsensusState.transitionLink, assert, ensure, hb, hzv, hne,
      ConsensusState.lessOrEqual, Checkpoint.lessOrEqual, ht, e0, satSub]

example : (⟨⟨5, exRoot 1⟩, ⟨4, exRoot 2⟩⟩ : ConsensusState).stateTransition
    ⟨⟨5, exRoot 1⟩, ⟨9, exRoot 3⟩⟩ = .ok ⟨⟨9, exRoot 3⟩, ⟨4, exRoot 2⟩⟩ := by decide

/-- **C05.** For valid states, no link is reported iff the states are equal. -/
theorem C05_none_iff_equal (a b : ConsensusState) (ha : ValidState a) :
    a.transitionLink b = .ok none ↔ a = b := by
  rw [transitionLink_ok_iff]
  constructor
  · rintro ⟨_, _, _, _, ⟨h1, h2, _⟩ | ⟨_, _, _, _, h⟩ | ⟨_, _, _, h⟩⟩
    · cases a; cases b; simp_all
    · cases h
    · cases h
  · rintro rfl
    exact ⟨ha, ha, Or.inr rfl, Or.inr rfl, Or.inl ⟨rfl, rfl, rfl⟩⟩

/-- **C05** (no regression). Whenever anything is reported, neither epoch went back. -/
theorem C05_no_regression (a b : ConsensusState) (o : Option Link)
    (h : a.transitionLink b = .ok o) :
    a.finalized.epoch ≤ b.finalized.epoch ∧ a.currentJustified.epoch ≤ b.currentJustified.epoch := by
  rw [transitionLink_ok_iff] at h
  obtain ⟨_, _, h3, h4, _⟩ := h
  constructor
  · rcases h3 with h | h
    · omega
    · rw [h]; exact Nat.le_refl _
  · rcases h4 with h | h
    · omega
    · rw [h]; exact Nat.le_refl _

/-- **C05** (2-finality). If both checkpoints moved forward, and the new state
justifies two epochs after what it finalizes, the transition is rejected as 2-finality. -/
theorem C05_two_finality_rejected (a b : ConsensusState) (ha : ValidState a)
    (hf : a.finalized.epoch < b.finalized.epoch)
    (hj : a.currentJustified.epoch < b.currentJustified.epoch)
    (hgap : b.currentJustified.epoch = b.finalized.epoch + 2) :
    a.transitionLink b = .err .twoFinality := by
  have hb : b.isValid = true := by rw [isValid_iff]; left; omega
  have ha' := (isValid_iff a).2 ha
  have h1 : a.currentJustified ≠ b.currentJustified := by intro h; rw [h] at hj; omega
  have h2 : a.finalized ≠ b.finalized := by intro h; rw [h] at hf; omega
  have hle : a.lessOrEqual b = true := by
    simp [ConsensusState.lessOrEqual, Checkpoint.lessOrEqual, hf, hj]
  simp [ConsensusState.transitionLink, assert, ensure, hb, ha', h1, h2, hle, satSub, hgap]

/-- **C05** (finality only moves by one step). If a link is reported and finality changed, then
the newly finalized checkpoint is the previously justified one and is one epoch before
the newly justified one. -/
theorem C05_finality_step (a b : ConsensusState) (o : Option Link)
    (h : a.transitionLink b = .ok o) (hne : b.finalized ≠ a.finalized) :
    b.finalized = a.currentJustified ∧ b.currentJustified.epoch = b.finalized.epoch + 1 := by
  rw [transitionLink_ok_iff] at h
  obtain ⟨_, _, _, _, ⟨_, h, _⟩ | ⟨_, _, hc, hd, _⟩ | ⟨_, h, _⟩⟩ := h
  · exact absurd h.symm hne
  · exact ⟨hc, by omega⟩
  · exact absurd h.symm hne

example : (⟨⟨5, exRoot 1⟩, ⟨4, exRoot 2⟩⟩ : ConsensusState).transitionLink
    ⟨⟨8, exRoot 3⟩, ⟨6, exRoot 1⟩⟩ = .err .twoFinality := by decide

/-- **C55.** `less_or_equal` on checkpoints is a partial order, and different checkpoints of
the same epoch are incomparable. -/
theorem C55_checkpoint_order (a b c : Checkpoint) :
    a.lessOrEqual a = true ∧
    (a.lessOrEqual b = true → b.lessOrEqual a = true → a = b) ∧
    (a.lessOrEqual b = true → b.lessOrEqual c = true → a.lessOrEqual c = true) ∧
    (a.epoch = b.epoch → a ≠ b → a.lessOrEqual b = false ∧ b.lessOrEqual a = false) ∧
    (a.lessOrEqual b = true → a.epoch ≤ b.epoch) ∧
    (a.epoch < b.epoch → a.lessOrEqual b = true) := by
  simp only [Checkpoint.lessOrEqual, Bool.or_eq_true, decide_eq_true_eq, Bool.or_eq_false_iff,
    decide_eq_false_iff_not]
  refine ⟨Or.inr trivial, ?_, ?_, ?_, ?_, ?_⟩
  · rintro (h | h) (h' | h')
    · omega
    · exact h'.symm
    · exact h
    · exact h
  · rintro (h | h) (h' | h')
    · left; omega
    · subst h'; exact Or.inl h
    · subst h; exact Or.inl h'
    · subst h; exact Or.inr h'
  · intro h hne
    exact ⟨⟨by omega, hne⟩, ⟨by omega, fun hh => hne hh.symm⟩⟩
  · rintro (h | h)
    · omega
    · rw [h]; exact Nat.le_refl _
  · intro h; exact Or.inl h

example : (⟨3, exRoot 1⟩ : Checkpoint).lessOrEqual ⟨4, exRoot 0⟩ = true ∧
    (⟨3, exRoot 1⟩ : Checkpoint).lessOrEqual ⟨3, exRoot 0⟩ = false := by decide

end Signal
