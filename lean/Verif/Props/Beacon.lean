import Verif.Proofs.Beacon
import Verif.Props.Follow

/-!
# C90: following the beacon chain

Theorem 1 of docs/src/01_consensus_algorithm.md, for the epoch processing of Ethereum: what the steps of the chain look like to the program, when the
program finds a way from one finality to the next, and when there is one that it does not find.
-/

namespace Signal
open Spec Program

/-- **C90.** The state that a beacon state induces is valid, after every epoch and whatever was voted for. -/
theorem C90_valid (root : Nat → Root) (counted : Nat → Link → Bool) (n : Nat) : ValidState (beacon root counted n).induced := by
  cases n with
  | zero => exact .inr rfl
  | succ n =>
    obtain ⟨p, c, f, b0, b1, b2, b3, h, e⟩ := beacon_bits root counted n
    rw [e]
    exact h.induced_valid root

theorem transitionLink_two {c f c' f' : Checkpoint} (hv : ValidState ⟨c, f⟩) (hv' : ValidState ⟨c', f'⟩) (hf : f.epoch < f'.epoch)
    (hc : c.epoch < c'.epoch) (h2 : c'.epoch = f'.epoch + 2) : ConsensusState.transitionLink ⟨c, f⟩ ⟨c', f'⟩ = .err .twoFinality := by
  have hb := (isValid_iff _).2 hv
  have hb' := (isValid_iff _).2 hv'
  have hc' : c ≠ c' := by rintro rfl; omega
  have hf' : f ≠ f' := by rintro rfl; omega
  have h3 : c'.epoch - f'.epoch = 2 := by omega
  unfold ConsensusState.transitionLink
  simp [hb, hb', hc', hf', ConsensusState.lessOrEqual, Checkpoint.lessOrEqual, satSub, hf, hc, h3]
  rfl

theorem transitionLink_beside {c f c' : Checkpoint} (hv : ValidState ⟨c, f⟩) (hv' : ValidState ⟨c', f⟩) (hc : c'.epoch = c.epoch + 1) :
    ConsensusState.transitionLink ⟨c, f⟩ ⟨c', f⟩ = .err .invalidTransition := by
  have hb := (isValid_iff _).2 hv
  have hb' := (isValid_iff _).2 hv'
  have hc' : c ≠ c' := by rintro rfl; omega
  unfold ConsensusState.transitionLink
  simp [hb, hb', hc', ConsensusState.lessOrEqual, Checkpoint.lessOrEqual, satSub, hc]
  rfl

/-- **C90.** At the end of each epoch one of three things happens to the chain. It stays or moves by one supermajority link that was counted in this
epoch, and the program sees exactly this link. Or it finalizes a checkpoint two epochs behind the justified one, which the program refuses as
2-finality. Or it justifies the epoch after the justified one from elsewhere, which the program refuses as an invalid transition. -/
theorem C90_step (root : Nat → Root) (counted : Nat → Link → Bool) (n : Nat) (hn : 1 ≤ n) :
    let s := beacon root counted n
    let t := beacon root counted (n + 1)
    (∃ o, Moves s.induced o t.induced ∧ (∀ l ∈ o, counted (n + 1) l = true) ∧ s.induced.transitionLink t.induced = .ok o) ∨
    (FinalizesTwoBehind s t ∧ s.induced.transitionLink t.induced = .err .twoFinality) ∨
    (JustifiesBeside (counted (n + 1)) s t ∧ s.induced.transitionLink t.induced = .err .invalidTransition) := by
  obtain ⟨p, c, f, b0, b1, b2, b3, h, e1, e2⟩ := beacon_step root counted n hn
  intro s t
  have hs : s = ⟨ck root p, ck root c, ck root f, b0, b1, b2, b3⟩ := e1
  have ht : t = _ := e2
  have hv := h.induced_valid root
  have hnext := h.next (counted (n + 1) ⟨ck root c, ck root (n + 1)⟩) (counted (n + 1) ⟨ck root p, ck root n⟩)
  have hv' := hnext.induced_valid root
  have hstep := h.step (counted (n + 1) ⟨ck root c, ck root (n + 1)⟩) (counted (n + 1) ⟨ck root p, ck root n⟩)
  have hi : s.induced = ⟨ck root c, ck root f⟩ := by rw [hs]; rfl
  revert ht hv' hstep
  dsimp only
  generalize hcv : counted (n + 1) ⟨ck root c, ck root (n + 1)⟩ = cv
  generalize hpv : counted (n + 1) ⟨ck root p, ck root n⟩ = pv
  generalize nextC n c cv pv = c'
  generalize nextF n p c f b0 b1 b2 cv pv = f'
  intro ht hv' hstep
  have hi' : t.induced = ⟨ck root c', ck root f'⟩ := by rw [ht]; rfl
  rcases hstep with ⟨rfl, rfl⟩ | ⟨hlt, h1, h2⟩ | ⟨h1, h2, h3⟩ | ⟨rfl, h2, rfl, rfl, h3, h4⟩
  · left
    have hm : Moves s.induced none t.induced := by rw [hi, hi']; exact .stays _
    exact ⟨none, hm, by simp, (moves_iff (by rw [hi]; exact hv)).2 hm⟩
  · left
    have hm : Moves s.induced (some ⟨ck root c, ck root c'⟩) t.induced := by
      rw [hi, hi']
      rcases h1 with ⟨rfl, h1⟩ | ⟨rfl, h1, h1'⟩
      · refine .link (.justify _ _ _ (by simpa using h1)) ?_
        rintro ⟨-, h5⟩
        simp only [ck_epoch] at h5
        omega
      · refine .link (.finalize _ _ _ (by simpa using h1')) ?_
        rintro ⟨h5, -⟩
        have h6 := congrArg (fun x : ConsensusState => x.currentJustified.epoch) h5
        have h7 := congrArg (fun x : ConsensusState => x.finalized.epoch) h5
        simp only [ck_epoch] at h6 h7
        omega
    refine ⟨_, hm, ?_, (moves_iff (by rw [hi]; exact hv)).2 hm⟩
    intro l hl
    simp only [Option.mem_def, Option.some.injEq] at hl
    subst hl
    rcases h2 with ⟨rfl, rfl⟩ | ⟨rfl, rfl, rfl⟩
    · exact hcv
    · exact hpv
  · right; left
    refine ⟨?_, ?_⟩
    · rw [hs, ht]
      refine ⟨?_, by simpa using h3⟩
      intro h5
      exact absurd (ck_inj.1 h5) (by omega)
    · rw [hi, hi']
      exact transitionLink_two hv hv' (by simpa using h1) (by simpa using h2) (by simpa using h3)
  · right; right
    refine ⟨?_, ?_⟩
    · rw [hs, ht]
      exact ⟨rfl, by simpa using h2, by simpa [h3] using hpv, by simpa using h4⟩
    · rw [hi, hi']
      exact transitionLink_beside hv hv' (by simpa using h2)

theorem transition_leaves {root : Nat → Root} {counted : Nat → Link → Bool} {n : Nat} (hn : 1 ≤ n) :
    ((∃ o, (∀ l ∈ o, counted (n + 1) l = true) ∧
        (beacon root counted n).induced.transitionLink (beacon root counted (n + 1)).induced = .ok o) ∧ ¬ LeavesWay root counted n) ∨
    ((∃ e, (beacon root counted n).induced.transitionLink (beacon root counted (n + 1)).induced = .err e ∧
        (e = .twoFinality ∨ e = .invalidTransition)) ∧ LeavesWay root counted n) := by
  rcases C90_step root counted n hn with ⟨o, h1, h2, h3⟩ | ⟨h1, h2⟩ | ⟨h1, h2⟩
  · left
    refine ⟨⟨o, h2, h3⟩, ?_⟩
    have hs := C90_valid root counted n
    have ht := C90_valid root counted (n + 1)
    rintro (⟨g1, g2⟩ | ⟨g1, g2, -, -⟩)
    · generalize beacon root counted n = s at *
      generalize beacon root counted (n + 1) = t at *
      obtain ⟨sp, sc, sf, _, _, _, _⟩ := s
      obtain ⟨tp, tc, tf, _, _, _, _⟩ := t
      simp only [Casper.induced] at *
      cases h1 with
      | stays => exact g1 rfl
      | link h hz =>
        cases h with
        | finalize _ _ _ h => omega
        | justify => exact g1 rfl
    · generalize beacon root counted n = s at *
      generalize beacon root counted (n + 1) = t at *
      obtain ⟨sp, sc, sf, _, _, _, _⟩ := s
      obtain ⟨tp, tc, tf, _, _, _, _⟩ := t
      simp only [Casper.induced] at *
      subst g1
      rw [transitionLink_beside hs ht g2] at h3
      cases h3
  · exact .inr ⟨⟨_, h2, .inl rfl⟩, .inl h1⟩
  · exact .inr ⟨⟨_, h2, .inr rfl⟩, .inr h1⟩

theorem loop_run {root : Nat → Root} {counted : Nat → Link → Bool} {spe : Nat} {ask : StateAnswers} {f : Checkpoint} :
    ∀ (k a bound : Nat) (acc : List Link), 1 ≤ a → k < bound → AnswersChain spe ask root counted (a + 1) (a + k + 1) →
      (∀ n, a ≤ n → n < a + k + 1 → (beacon root counted n).finalized = f) → (beacon root counted (a + k + 1)).finalized ≠ f →
      ((∀ n, a ≤ n → n < a + k + 1 → ¬ LeavesWay root counted n) →
        ∃ links, justificationsLoop spe ask f bound (a + 2) (beacon root counted a).induced acc =
            some (.ok ((beacon root counted (a + k + 1)).induced, acc ++ links)) ∧
          ∀ l ∈ links, ∃ n, a < n ∧ n ≤ a + k + 1 ∧ counted n l = true) ∧
      ((∃ n, a ≤ n ∧ n < a + k + 1 ∧ LeavesWay root counted n) →
        ∃ e, (e = .twoFinality ∨ e = .invalidTransition) ∧
          justificationsLoop spe ask f bound (a + 2) (beacon root counted a).induced acc = some (.err (.consensus e))) := by
  intro k
  induction k with
  | zero =>
    intro a bound acc ha hb hr hf hne
    obtain ⟨bound, rfl⟩ : ∃ m, bound = m + 1 := ⟨bound - 1, by omega⟩
    have hask : ask (startSlot spe (a + 2)) = .ok (beacon root counted (a + 1)).induced := hr (a + 1) (by omega) (by omega)
    constructor
    · intro hok
      rcases transition_leaves (root := root) (counted := counted) ha with ⟨⟨o, h1, h2⟩, -⟩ | ⟨-, h⟩
      · refine ⟨o.toList, ?_, ?_⟩
        · unfold justificationsLoop
          rw [hask]
          dsimp only
          rw [h2]
          dsimp only
          rw [if_pos (show (beacon root counted (a + 1)).induced.finalized ≠ f from hne)]
        · intro l hl
          exact ⟨a + 1, by omega, by omega, h1 l (by simpa using hl)⟩
      · exact absurd h (hok a (by omega) (by omega))
    · rintro ⟨n, g1, g2, g3⟩
      obtain rfl : n = a := by omega
      rcases transition_leaves (root := root) (counted := counted) ha with ⟨-, h⟩ | ⟨⟨e, h1, h2⟩, -⟩
      · exact absurd g3 h
      · refine ⟨e, h2, ?_⟩
        unfold justificationsLoop
        rw [hask]
        dsimp only
        rw [h1]
  | succ k ih =>
    intro a bound acc ha hb hr hf hne
    obtain ⟨bound, rfl⟩ : ∃ m, bound = m + 1 := ⟨bound - 1, by omega⟩
    have hask : ask (startSlot spe (a + 2)) = .ok (beacon root counted (a + 1)).induced := hr (a + 1) (by omega) (by omega)
    have heq : a + (k + 1) + 1 = a + 1 + k + 1 := by omega
    rw [heq]
    rcases transition_leaves (root := root) (counted := counted) ha with ⟨⟨o, h1, h2⟩, h⟩ | ⟨⟨e, h1, h2⟩, h⟩
    · obtain ⟨i1, i2⟩ := ih (a + 1) bound (acc ++ o.toList) (by omega) (by omega) (fun n g1 g2 => hr n (by omega) (by omega))
        (fun n g1 g2 => hf n (by omega) (by omega)) (by rw [← heq]; exact hne)
      have hloop : justificationsLoop spe ask f (bound + 1) (a + 2) (beacon root counted a).induced acc =
          justificationsLoop spe ask f bound (a + 1 + 2) (beacon root counted (a + 1)).induced (acc ++ o.toList) := by
        conv => lhs; unfold justificationsLoop
        rw [hask]
        dsimp only
        rw [h2]
        dsimp only
        rw [if_neg (by simpa [Casper.induced] using hf (a + 1) (by omega) (by omega))]
      constructor
      · intro hok
        obtain ⟨links, j1, j2⟩ := i1 (fun n g1 g2 => hok n (by omega) g2)
        refine ⟨o.toList ++ links, ?_, ?_⟩
        · rw [hloop, j1, List.append_assoc]
        · intro l hl
          rcases List.mem_append.1 hl with hl | hl
          · exact ⟨a + 1, by omega, by omega, h1 l (by simpa using hl)⟩
          · obtain ⟨n, j3, j4, j5⟩ := j2 l hl
            exact ⟨n, by omega, j4, j5⟩
      · rintro ⟨n, g1, g2, g3⟩
        have hna : n ≠ a := by rintro rfl; exact h g3
        obtain ⟨e, j1, j2⟩ := i2 ⟨n, by omega, g2, g3⟩
        exact ⟨e, j1, by rw [hloop, j2]⟩
    · constructor
      · intro hok
        exact absurd h (hok a (by omega) (by omega))
      · intro _
        refine ⟨e, h2, ?_⟩
        unfold justificationsLoop
        rw [hask]
        dsimp only
        rw [h1]

/-- **C90.** The program finds the way from one finality to the next if and only if no step in between leaves it; otherwise it ends with an error. What
it finds is a sequence of links that the chain has counted between the two, which the documented algorithm takes from the one state to the other. -/
theorem C90_search (root : Nat → Root) (counted : Nat → Link → Bool) (spe : Nat) (ask : StateAnswers) (a b bound : Nat) (ha : 1 ≤ a)
    (hnext : NextFinality root counted a b) (hr : AnswersChain spe ask root counted a b) (hbound : b - a ≤ bound) :
    let s := (beacon root counted a).induced
    let t := (beacon root counted b).induced
    ((∀ n, a ≤ n → n < b → ¬ LeavesWay root counted n) →
      ∃ links, justificationsUntilNewFinality spe ask (a + 1) bound = some (.ok (s, t, links)) ∧
        AtomicFinalization s.currentJustified links (t.finalized, t.currentJustified) ∧
        ∀ l ∈ links, ∃ n, a < n ∧ n ≤ b ∧ counted n l = true) ∧
    ((∃ n, a ≤ n ∧ n < b ∧ LeavesWay root counted n) →
      ∃ e, (e = .twoFinality ∨ e = .invalidTransition) ∧ justificationsUntilNewFinality spe ask (a + 1) bound = some (.err (.consensus e))) := by
  intro s t
  obtain ⟨hab, hf, hne⟩ := hnext
  obtain ⟨k, rfl⟩ : ∃ k, b = a + k + 1 := ⟨b - a - 1, by omega⟩
  have hask : ask (startSlot spe (a + 1)) = .ok s := hr a (by omega) (by omega)
  obtain ⟨h1, h2⟩ := loop_run (spe := spe) (ask := ask) k a bound [] ha (by omega) (fun n g1 g2 => hr n (by omega) g2) hf hne
  constructor
  · intro hok
    obtain ⟨links, h3, h4⟩ := h1 hok
    have h5 : justificationsUntilNewFinality spe ask (a + 1) bound = some (.ok (s, t, links)) := by
      unfold justificationsUntilNewFinality
      rw [hask]
      dsimp only
      rw [show s.finalized = (beacon root counted a).finalized from rfl, h3]
      rfl
    refine ⟨links, h5, ?_, h4⟩
    obtain ⟨stop, -, w2, w3, -⟩ := (walk_ok_iff _ _ _ _ _ _ _).1 h5
    exact (w3.finalizes rfl w2).2
  · intro hodd
    obtain ⟨e, h3, h4⟩ := h2 hodd
    refine ⟨e, h3, ?_⟩
    unfold justificationsUntilNewFinality
    rw [hask]
    dsimp only
    rw [show s.finalized = (beacon root counted a).finalized from rfl, h4]
    rfl

/-! ## The documented algorithm -/

/-- A chain of counted links from `c₀` to `c`, each of which skips an epoch: what the algorithm finalizes from `c` on, it finalizes from `c₀` on. -/
def Reaches (ok : Link → Prop) (c₀ c : Checkpoint) : Prop :=
  ∃ pre : List Link, (∀ l ∈ pre, ok l) ∧ ∀ links out, AtomicFinalization c links out → AtomicFinalization c₀ (pre ++ links) out

theorem Reaches.refl (ok : Link → Prop) (c : Checkpoint) : Reaches ok c c := ⟨[], by simp, fun _ _ h => h⟩

theorem Reaches.snoc {ok : Link → Prop} {c₀ c b : Checkpoint} (h : Reaches ok c₀ c) (hl : ok ⟨c, b⟩) (hb : c.epoch + 1 < b.epoch) :
    Reaches ok c₀ b := by
  obtain ⟨pre, h1, h2⟩ := h
  refine ⟨pre ++ [⟨c, b⟩], ?_, ?_⟩
  · intro l hl'
    rcases List.mem_append.1 hl' with h | h
    · exact h1 l h
    · rw [List.mem_singleton.1 h]; exact hl
  · intro links out h3
    rw [List.append_assoc]
    exact h2 _ _ (.skip c b links out hb h3)

theorem Reaches.last {ok : Link → Prop} {c₀ c b : Checkpoint} (h : Reaches ok c₀ c) (hl : ok ⟨c, b⟩) (hb : b.epoch = c.epoch + 1) :
    ∃ links, AtomicFinalization c₀ links (c, b) ∧ ∀ l ∈ links, ok l := by
  obtain ⟨pre, h1, h2⟩ := h
  refine ⟨pre ++ [⟨c, b⟩], h2 _ _ (.last c b hb), ?_⟩
  intro l hl'
  rcases List.mem_append.1 hl' with h | h
  · exact h1 l h
  · rw [List.mem_singleton.1 h]; exact hl

/-- What holds after `n` on the way from `a`. -/
def OnWay (root : Nat → Root) (counted : Nat → Link → Bool) (ok : Link → Prop) (c₀ : Checkpoint) (n : Nat) : Prop :=
  Reaches ok c₀ (beacon root counted n).currentJustified ∧
    (Reaches ok c₀ (beacon root counted n).previousJustified ∨ (beacon root counted n).currentJustified.epoch = n ∨
      ((beacon root counted n).previousJustified.epoch + 2 = n ∧ (beacon root counted n).currentJustified.epoch + 1 = n ∧
        (beacon root counted n).previousJustified.epoch ≠ 0))

theorem onWay_start {root : Nat → Root} {counted : Nat → Link → Bool} {ok : Link → Prop} {n : Nat} (hn : 1 ≤ n)
    (hf : (beacon root counted (n + 1)).finalized ≠ (beacon root counted n).finalized) :
    OnWay root counted ok (beacon root counted (n + 1)).currentJustified (n + 1) := by
  refine ⟨Reaches.refl _ _, .inr ?_⟩
  obtain ⟨p, c, f, b0, b1, b2, b3, h, e1, e2⟩ := beacon_step root counted n hn
  have hstep := h.step (counted (n + 1) ⟨ck root c, ck root (n + 1)⟩) (counted (n + 1) ⟨ck root p, ck root n⟩)
  have hskip := h.skip (counted (n + 1) ⟨ck root c, ck root (n + 1)⟩) (counted (n + 1) ⟨ck root p, ck root n⟩)
  have hmono := h.mono (counted (n + 1) ⟨ck root c, ck root (n + 1)⟩) (counted (n + 1) ⟨ck root p, ck root n⟩)
  have hle : nextC n c (counted (n + 1) ⟨ck root c, ck root (n + 1)⟩) (counted (n + 1) ⟨ck root p, ck root n⟩) = n + 1 ∨
      nextC n c (counted (n + 1) ⟨ck root c, ck root (n + 1)⟩) (counted (n + 1) ⟨ck root p, ck root n⟩) = n ∨
      nextC n c (counted (n + 1) ⟨ck root c, ck root (n + 1)⟩) (counted (n + 1) ⟨ck root p, ck root n⟩) = c := by
    unfold nextC
    split_ifs <;> simp
  rw [e1, e2] at hf
  rw [e2]
  simp only [ck_epoch, ne_eq, ck_inj] at *
  have := h.f_le
  have := h.p_le
  have := h.bit1
  rcases hstep with ⟨h1, h2⟩ | ⟨h1, ⟨h2, h2'⟩ | ⟨h2, h2', h2''⟩, h3⟩ | ⟨h1, h2, h3⟩ | ⟨h1, h2, -⟩
  · exact absurd h2 hf
  · exact absurd h2 hf
  · rcases h3 with ⟨-, h3⟩ | ⟨h3, -, h4⟩
    · exact .inl h3
    · right; omega
  · obtain ⟨-, h4, -⟩ := hskip h1 h3
    have := this h4
    omega
  · exact absurd h1 hf

theorem onWay_next {root : Nat → Root} {counted : Nat → Link → Bool} {ok : Link → Prop} {c₀ : Checkpoint} {n : Nat} (hn : 2 ≤ n)
    (hok : ∀ l, counted (n + 1) l = true → ok l) (hskip : ¬ SkipRule root counted (n + 1)) (h : OnWay root counted ok c₀ n) :
    (OnWay root counted ok c₀ (n + 1) ∧ (beacon root counted (n + 1)).finalized = (beacon root counted n).finalized) ∨
    ((beacon root counted (n + 1)).finalized ≠ (beacon root counted n).finalized ∧
      ∃ links, AtomicFinalization c₀ links ((beacon root counted (n + 1)).finalized, (beacon root counted (n + 1)).currentJustified) ∧
        ∀ l ∈ links, ok l) := by
  obtain ⟨p, c, f, b0, b1, b2, b3, hb, e1, e2⟩ := beacon_step root counted n (by omega)
  have hstep := hb.step (counted (n + 1) ⟨ck root c, ck root (n + 1)⟩) (counted (n + 1) ⟨ck root p, ck root n⟩)
  have hsk := hb.skip (counted (n + 1) ⟨ck root c, ck root (n + 1)⟩) (counted (n + 1) ⟨ck root p, ck root n⟩)
  have hrule := fun h => hskip (skipRule_of (by omega) e1 h)
  unfold OnWay at h ⊢
  rw [e1] at h ⊢
  rw [e2]
  obtain ⟨h1, h2⟩ := h
  simp only [ck_epoch] at *
  have hcv := hok ⟨ck root c, ck root (n + 1)⟩
  have hpv := hok ⟨ck root p, ck root n⟩
  revert hstep hsk hrule hcv hpv
  generalize counted (n + 1) ⟨ck root c, ck root (n + 1)⟩ = cv
  generalize counted (n + 1) ⟨ck root p, ck root n⟩ = pv
  generalize nextC n c cv pv = c'
  generalize nextF n p c f b0 b1 b2 cv pv = f'
  intro hstep hsk hrule hcv hpv
  rcases hstep with ⟨rfl, rfl⟩ | ⟨g1, g2, g3⟩ | ⟨g1, g2, g3⟩ | ⟨rfl, g2, rfl, rfl, rfl, g5⟩
  · exact .inl ⟨⟨h1, .inl h1⟩, rfl⟩
  · have hl : ok ⟨ck root c, ck root c'⟩ := by
      rcases g3 with ⟨g3, rfl⟩ | ⟨rfl, g3, rfl⟩
      · exact hcv g3
      · exact hpv g3
    rcases g2 with ⟨rfl, g2⟩ | ⟨rfl, g4, g2⟩
    · exact .inl ⟨⟨h1.snoc hl (by simpa using g2), .inl h1⟩, rfl⟩
    · exact .inr ⟨fun h => g4 (ck_inj.1 h).symm, h1.last hl (by simpa using g2)⟩
  · exact absurd (hsk g1 g3) hrule
  · have hpc : p < c := g5.resolve_right (by omega)
    rcases h2 with h2 | h2 | ⟨h2, h3, h4⟩
    · exact .inl ⟨⟨h2.snoc (hpv rfl) (by simp only [ck_epoch]; omega), .inl h1⟩, rfl⟩
    · omega
    · refine absurd ⟨rfl, hb.cbit1 (by omega) (by omega), .inl ⟨hb.pbit2 h2 h4, by omega⟩⟩ hrule

/-- **C90.** The documented theorem is right: if between two finalities neither of the rules of 2-finality applies, then among the links that the chain counts
in between there are some by which the documented algorithm gets from the state of the one to the state of the other. -/
theorem C90_documented (root : Nat → Root) (counted : Nat → Link → Bool) (a b : Nat) (ha : 2 ≤ a)
    (hfirst : (beacon root counted a).finalized ≠ (beacon root counted (a - 1)).finalized) (hnext : NextFinality root counted a b)
    (hskip : ∀ n, a < n → n ≤ b → ¬ SkipRule root counted n) :
    let s := (beacon root counted a).induced
    let t := (beacon root counted b).induced
    ∃ links, AtomicFinalization s.currentJustified links (t.finalized, t.currentJustified) ∧
      ∀ l ∈ links, ∃ n, a < n ∧ n ≤ b ∧ counted n l = true := by
  obtain ⟨hab, hf, hne⟩ := hnext
  intro s t
  have hstart : OnWay root counted (fun l => ∃ n, a < n ∧ n ≤ b ∧ counted n l = true) (beacon root counted a).currentJustified a := by
    have := onWay_start (root := root) (counted := counted) (ok := fun l => ∃ n, a < n ∧ n ≤ b ∧ counted n l = true) (n := a - 1) (by omega)
    rw [show a - 1 + 1 = a by omega] at this
    exact this hfirst
  have hind : ∀ k, a + k < b →
      OnWay root counted (fun l => ∃ n, a < n ∧ n ≤ b ∧ counted n l = true) (beacon root counted a).currentJustified (a + k) := by
    intro k
    induction k with
    | zero => intro _; exact hstart
    | succ k ih =>
      intro hk
      rcases onWay_next (by omega) (fun l hl => ⟨a + k + 1, by omega, by omega, hl⟩) (hskip (a + k + 1) (by omega) (by omega))
        (ih (by omega)) with h | h
      · exact h.1
      · exact absurd ((hf (a + k + 1) (by omega) (by omega)).trans (hf (a + k) (by omega) (by omega)).symm) h.1
  rcases onWay_next (n := b - 1) (by omega) (ok := fun l => ∃ n, a < n ∧ n ≤ b ∧ counted n l = true)
    (fun l hl => ⟨b - 1 + 1, by omega, by omega, hl⟩) (hskip (b - 1 + 1) (by omega) (by omega))
    (by have := hind (b - 1 - a) (by omega); rwa [show a + (b - 1 - a) = b - 1 by omega] at this) with h | h
  · rw [show b - 1 + 1 = b by omega] at h
    exact absurd (h.2.trans (hf (b - 1) (by omega) (by omega))) hne
  · rw [show b - 1 + 1 = b by omega] at h
    exact h.2

/-! ## The program on a chain that leaves the way -/

theorem beacon_finalized_mono (root : Nat → Root) (counted : Nat → Link → Bool) (n : Nat) :
    (beacon root counted n).finalized.epoch ≤ (beacon root counted (n + 1)).finalized.epoch ∧
      ((beacon root counted (n + 1)).finalized ≠ (beacon root counted n).finalized →
        (beacon root counted n).finalized.epoch < (beacon root counted (n + 1)).finalized.epoch) := by
  cases n with
  | zero => exact ⟨Nat.le_refl _, fun h => absurd rfl h⟩
  | succ n =>
    obtain ⟨p, c, f, b0, b1, b2, b3, h, e1, e2⟩ := beacon_step root counted (n + 1) (by omega)
    have hm := h.mono (counted (n + 1 + 1) ⟨ck root c, ck root (n + 1 + 1)⟩) (counted (n + 1 + 1) ⟨ck root p, ck root (n + 1)⟩)
    rw [e1, e2]
    simp only [ck_epoch, ne_eq, ck_inj]
    exact ⟨hm, fun h => by omega⟩

theorem beacon_finalized_le (root : Nat → Root) (counted : Nat → Link → Bool) {m n : Nat} (h : m ≤ n) :
    (beacon root counted m).finalized.epoch ≤ (beacon root counted n).finalized.epoch := by
  induction n with
  | zero => rw [Nat.le_zero.1 h]
  | succ n ih =>
    rcases Nat.eq_or_lt_of_le h with rfl | h
    · exact Nat.le_refl _
    · exact (ih (by omega)).trans (beacon_finalized_mono root counted n).1

/-- **C90.** If the chain leaves the way between a finality and the next, `build-input` writes no file for the epoch of the former, now or later. -/
theorem C90_stuck (W : Wire.WireExt) (X : Ext) (order : List Nat → List Nat) (spec : ChainSpec) (cfg : Config) (bound : Nat) (continuous : Bool)
    (root : Nat → Root) (counted : Nat → Link → Bool) (a b : Nat) (ha : 2 ≤ a)
    (hfirst : (beacon root counted a).finalized ≠ (beacon root counted (a - 1)).finalized) (hnext : NextFinality root counted a b)
    (hodd : ∃ n, a ≤ n ∧ n < b ∧ LeavesWay root counted n) (passes : List Pass)
    (hpass : ∀ pass ∈ passes, pass.world.find = pass.world.walk ∧
      AnswersChain spec.slotsPerEpoch pass.world.walk root counted (beacon root counted a).finalized.epoch b) :
    (buildLoop W X order spec cfg bound continuous (beacon root counted a).finalized.epoch passes).1 = [] := by
  have hbefore : ∀ m, m < a → (beacon root counted m).finalized.epoch < (beacon root counted a).finalized.epoch := by
    intro m hm
    have h1 := (beacon_finalized_mono root counted (a - 1)).2
    rw [show a - 1 + 1 = a by omega] at h1
    exact Nat.lt_of_le_of_lt (beacon_finalized_le root counted (by omega)) (h1 hfirst)
  have hlt : (beacon root counted a).finalized.epoch < a := by
    obtain ⟨n, rfl⟩ : ∃ n, a = n + 1 := ⟨a - 1, by omega⟩
    obtain ⟨p, c, f, b0, b1, b2, b3, h, e⟩ := beacon_bits root counted n
    rw [e]
    simp only [ck_epoch]
    have := h.valid
    have := h.c_le
    have := h.p_le
    have := h.f_le
    omega
  have hab := hnext.1
  have hprep : ∀ pass ∈ passes, ∀ p,
      prepare W X order spec cfg bound pass.world (beacon root counted a).finalized.epoch ≠ some (.ok p) := by
    intro pass hp p h
    obtain ⟨hsame, hans⟩ := hpass pass hp
    obtain ⟨r, trusted, st, input, next, links, hr, he, hspec, g1, g2, -⟩ := prepare_ok h
    obtain ⟨start, k1, k2, -, -⟩ := hostSearch_ok g1
    rw [C56_finalization_search, hsame] at k1
    obtain ⟨f1, f2, ⟨sf, f3, f3'⟩, f4⟩ := k1
    have hdet : ∀ {e s s'}, ChainAt spec.slotsPerEpoch pass.world.walk e s → ChainAt spec.slotsPerEpoch pass.world.walk e s' → s' = s := by
      intro e s s' h h'
      unfold ChainAt at h h'
      rw [h] at h'
      cases h'
      rfl
    have hstart : start = a + 1 := by
      rcases Nat.lt_trichotomy start (a + 1) with hl | heq | hgt
      · have h1 := hans (start - 1) (by omega) (by omega)
        rw [show start - 1 + 1 = start by omega] at h1
        have h2 := congrArg (fun x : ConsensusState => x.finalized.epoch) (hdet f3 h1)
        simp only [Casper.induced, f3', he] at h2
        have := hbefore (start - 1) (by omega)
        omega
      · exact heq
      · obtain ⟨s', i1, i2⟩ := f4 (a + 1) (by omega) hgt
        have h1 := hans a (by omega) (by omega)
        rw [hdet h1 i1] at i2
        simp only [Casper.induced] at i2
        omega
    subst hstart
    have hbig := (C90_search root counted spec.slotsPerEpoch pass.world.walk a b (max bound (b - a)) (by omega) hnext
      (fun n h1 h2 => hans n (by omega) h2) (by omega)).2 hodd
    obtain ⟨e, -, hbig⟩ := hbig
    obtain ⟨stop, w1, w2, w3, w4⟩ := (walk_ok_iff _ _ _ _ _ _ _).1 k2
    rw [(walk_ok_iff _ _ _ _ _ _ _).2 ⟨stop, w1, w2, w3, by omega⟩] at hbig
    cases hbig
  clear hpass
  induction passes with
  | nil => rfl
  | cons pass passes ih =>
    have hih := ih (fun q hq => hprep q (List.mem_cons_of_mem _ hq))
    unfold buildLoop
    cases pass.head with
    | panic => rfl
    | err e => rfl
    | ok head =>
      dsimp only
      split
      · exact hih
      · cases hp : prepare W X order spec cfg bound pass.world (beacon root counted a).finalized.epoch with
        | none => rfl
        | some x =>
          cases x with
          | panic => rfl
          | err e => rfl
          | ok p => exact absurd hp (hprep pass (List.mem_cons_self ..) p)

/-! ## Examples -/

/-- Block roots for the examples. -/
def brRoot (e : Nat) : Root := List.replicate 32 (UInt8.ofNat e)

/-- Votes given by the epoch at the end of which they are counted, and the epochs of source and target. -/
def brVotes (table : List (Nat × Nat × Nat)) (e : Nat) (l : Link) : Bool := decide ((e, l.source.epoch, l.target.epoch) ∈ table)

/-- Two epochs of finality, then a pause; epochs 5 and 6 are justified late, both from 3, and finality returns with 8 and 9. -/
def brLate : Nat → Link → Bool := brVotes [(2, 0, 2), (3, 2, 3), (6, 3, 5), (7, 3, 6), (8, 6, 8), (9, 8, 9)]

instance (root : Nat → Root) (counted : Nat → Link → Bool) (n : Nat) : Decidable (SkipRule root counted n) :=
  inferInstanceAs (Decidable (_ ∨ _))

/-- Finality, an epoch without votes, and finality again. -/
def brPause : Nat → Link → Bool := brVotes [(2, 0, 2), (3, 2, 3), (5, 3, 5), (6, 5, 6)]

/-- From epoch 4 on the votes are included one epoch late. -/
def brSlow : Nat → Link → Bool := brVotes [(2, 0, 2), (3, 2, 3), (5, 3, 4), (6, 3, 5), (7, 4, 6)]

/-- A node that answers with the states of the chain, with four slots per epoch. -/
def brAsk (counted : Nat → Link → Bool) : StateAnswers := fun slot => .ok (beacon brRoot counted (slot / 4 - 1)).induced

theorem brAsk_answers (counted : Nat → Link → Bool) (a b : Nat) (h : b < 100) : AnswersChain 4 (brAsk counted) brRoot counted a b := by
  intro n _ hn
  unfold ChainAt brAsk
  rw [Nat.min_eq_left (by omega), Nat.mul_div_cancel _ (by decide), Nat.add_sub_cancel]

/-- C90_step: the chain justifies 3 and finalizes 2. -/
example : Moves (beacon brRoot brPause 2).induced (some ⟨⟨2, brRoot 2⟩, ⟨3, brRoot 3⟩⟩) (beacon brRoot brPause 3).induced :=
  .link (.finalize ⟨2, brRoot 2⟩ ⟨0, brRoot 0⟩ ⟨3, brRoot 3⟩ rfl) (by decide)

/-- C90_step: when votes are slow, 5 is justified from 3 although 4 is justified already; then 4 is finalized when 6 is justified. -/
example : JustifiesBeside (brSlow 6) (beacon brRoot brSlow 5) (beacon brRoot brSlow 6) ∧
    FinalizesTwoBehind (beacon brRoot brSlow 6) (beacon brRoot brSlow 7) := by
  unfold JustifiesBeside FinalizesTwoBehind
  decide +kernel

/-- C90_step: the very first justification can be that of epoch 1, which the program does not follow, either. -/
example : JustifiesBeside (brVotes [(2, 0, 1)] 2) (beacon brRoot (brVotes [(2, 0, 1)]) 1) (beacon brRoot (brVotes [(2, 0, 1)]) 2) := by
  unfold JustifiesBeside
  decide +kernel

/-- C90_search: on the chain with a pause the way is found. -/
example : ∃ links, justificationsUntilNewFinality 4 (brAsk brPause) 4 3 =
    some (.ok ((beacon brRoot brPause 3).induced, (beacon brRoot brPause 6).induced, links)) := by
  have hnext : NextFinality brRoot brPause 3 6 := by
    refine ⟨by decide, ?_, by decide +kernel⟩
    have h : ∀ n < 6, 3 ≤ n → (beacon brRoot brPause n).finalized = (beacon brRoot brPause 3).finalized := by decide +kernel
    exact fun n h1 h2 => h n h2 h1
  have hway : ∀ n < 6, 3 ≤ n → ¬ LeavesWay brRoot brPause n := by
    unfold LeavesWay JustifiesBeside FinalizesTwoBehind
    decide +kernel
  obtain ⟨links, h, -, -⟩ := (C90_search brRoot brPause 4 (brAsk brPause) 3 6 3 (by decide) hnext (brAsk_answers _ _ _ (by decide)) (by decide)).1
    (fun n h1 h2 => hway n h2 h1)
  exact ⟨links, h⟩

theorem brLate_next : NextFinality brRoot brLate 3 9 := by
  refine ⟨by decide, ?_, by decide +kernel⟩
  have h : ∀ n < 9, 3 ≤ n → (beacon brRoot brLate n).finalized = (beacon brRoot brLate 3).finalized := by decide +kernel
  exact fun n h1 h2 => h n h2 h1

theorem brLate_leaves : LeavesWay brRoot brLate 6 := .inr (by unfold JustifiesBeside; decide +kernel)

/-- C90_stuck: nothing is written for epoch 2 of this chain. -/
example (continuous : Bool) (bound n : Nat) : (buildLoop fpWire exExt id exSpec Config.default bound continuous 2
    (List.replicate n ⟨.ok 8, { fpWorld1 with find := brAsk brLate, walk := brAsk brLate }⟩)).1 = [] := by
  refine C90_stuck fpWire exExt id exSpec Config.default bound continuous brRoot brLate 3 9 (by decide) (by decide +kernel) brLate_next
    ⟨6, by decide, by decide, brLate_leaves⟩ _ ?_
  intro pass hp
  rw [(List.mem_replicate.1 hp).2]
  exact ⟨rfl, brAsk_answers _ _ _ (by decide)⟩

/-- **C90.** There are chains without any 2-finality that the documented algorithm follows and the program does not: it takes the link from one state to the next,
and when an epoch is justified from elsewhere there is none, although one link over both steps would do. -/
theorem C90_misses : ∃ root counted a b, 2 ≤ a ∧ (beacon root counted a).finalized ≠ (beacon root counted (a - 1)).finalized ∧
    NextFinality root counted a b ∧ (∀ n, n ≤ b → ¬ SkipRule root counted n) ∧
    (∀ n, n < b → ¬ FinalizesTwoBehind (beacon root counted n) (beacon root counted (n + 1))) ∧
    (∃ links, AtomicFinalization (beacon root counted a).currentJustified links
      ((beacon root counted b).finalized, (beacon root counted b).currentJustified) ∧ ∀ l ∈ links, ∃ n, a < n ∧ n ≤ b ∧ counted n l = true) ∧
    ∀ (spe : Nat) (ask : StateAnswers) (bound : Nat), AnswersChain spe ask root counted a b → b - a ≤ bound →
      ∃ e, (e = .twoFinality ∨ e = .invalidTransition) ∧ justificationsUntilNewFinality spe ask (a + 1) bound = some (.err (.consensus e)) := by
  have hskip : ∀ n, n < 10 → ¬ SkipRule brRoot brLate n := by decide +kernel
  refine ⟨brRoot, brLate, 3, 9, by decide, by decide +kernel, brLate_next, fun n h => hskip n (by omega), ?_, ?_, ?_⟩
  · unfold FinalizesTwoBehind
    decide +kernel
  · exact C90_documented brRoot brLate 3 9 (by decide) (by decide +kernel) brLate_next (fun n _ h => hskip n (by omega))
  · intro spe ask bound h1 h2
    exact (C90_search brRoot brLate spe ask 3 9 bound (by decide) brLate_next h1 h2).2 ⟨6, by decide, by decide, brLate_leaves⟩

end Signal
