import Verif.Model.HostSearch
import Verif.Props.Consensus
import Verif.Props.Host

/-!
# C100: what the search of the host asks the node for
-/

namespace Signal
open Spec

theorem mapRes_congr {ε α β : Type} {f g : α → Res ε β} {l : List α} (h : ∀ a ∈ l, f a = g a) : mapRes f l = mapRes g l := by
  induction l with
  | nil => rfl
  | cons a l ih => rw [mapRes, mapRes, h a List.mem_cons_self, ih (fun b hb => h b (List.mem_cons_of_mem _ hb))]

theorem startSlot_mono {spe e e' : Nat} (h : e ≤ e') : startSlot spe e ≤ startSlot spe e' := by
  have := Nat.mul_le_mul_right spe h
  unfold startSlot satMul
  omega

theorem find_local {spe : Nat} {ask : StateAnswers} {trusted : Checkpoint} (bound : Nat) : ∀ {epoch f : Nat},
    findFinalizationLoop spe ask trusted bound epoch = some (.ok f) →
    epoch ≤ f ∧ f < epoch + bound ∧ (∃ s, ask (startSlot spe f) = .ok s ∧ s.finalized = trusted) ∧
    ∀ ask' : StateAnswers, (∀ e, epoch ≤ e → e ≤ f → ask' (startSlot spe e) = ask (startSlot spe e)) →
      findFinalizationLoop spe ask' trusted bound epoch = some (.ok f) := by
  induction bound with
  | zero => intro epoch f h; cases h
  | succ bound ih =>
    intro epoch f h
    unfold findFinalizationLoop at h
    cases ha : ask (startSlot spe epoch) with
    | panic => rw [ha] at h; cases h
    | err e => rw [ha] at h; cases h
    | ok s =>
      rw [ha] at h
      dsimp only at h
      by_cases h1 : s.finalized = trusted
      · rw [if_pos h1] at h
        cases h
        refine ⟨Nat.le_refl _, by omega, ⟨s, ha, h1⟩, fun ask' h' => ?_⟩
        unfold findFinalizationLoop
        rw [h' _ (Nat.le_refl _) (Nat.le_refl _), ha]
        dsimp only
        rw [if_pos h1]
      · rw [if_neg h1] at h
        by_cases h2 : s.finalized.epoch < trusted.epoch
        · rw [if_pos h2] at h
          obtain ⟨a, b, c, d⟩ := ih h
          refine ⟨by omega, by omega, c, fun ask' h' => ?_⟩
          unfold findFinalizationLoop
          rw [h' _ (Nat.le_refl _) (by omega), ha]
          dsimp only
          rw [if_neg h1, if_pos h2]
          exact d ask' (fun e he he' => h' e (by omega) he')
        · rw [if_neg h2] at h
          cases h

theorem walk_local {spe : Nat} {ask : StateAnswers} {initial : Checkpoint} (low : Nat)
    (honest : ∀ e s, low < e → ask (startSlot spe e) = .ok s → s.currentJustified.epoch < e) (bound : Nat) :
    ∀ {epoch : Nat} {prev : ConsensusState} {links : List Link} {r : ConsensusState × List Link}, low < epoch →
    justificationsLoop spe ask initial bound epoch prev links = some (.ok r) → low ≤ prev.currentJustified.epoch →
    (∀ l ∈ links, low < l.target.epoch ∧ l.target.epoch < epoch) →
    ∃ g, epoch ≤ g ∧ g < epoch + bound ∧ ask (startSlot spe g) = .ok r.1 ∧ r.1.finalized ≠ initial ∧
      (∀ l ∈ r.2, low < l.target.epoch ∧ l.target.epoch < g) ∧
      ∀ ask' : StateAnswers, (∀ e, epoch ≤ e → e ≤ g → ask' (startSlot spe e) = ask (startSlot spe e)) →
        justificationsLoop spe ask' initial bound epoch prev links = some (.ok r) := by
  induction bound with
  | zero => intro epoch prev links r _ h; cases h
  | succ bound ih =>
    intro epoch prev links r hepoch h hlow hl
    unfold justificationsLoop at h
    cases ha : ask (startSlot spe epoch) with
    | panic => rw [ha] at h; cases h
    | err e => rw [ha] at h; cases h
    | ok s =>
      rw [ha] at h
      dsimp only at h
      cases ht : prev.transitionLink s with
      | panic => rw [ht] at h; cases h
      | err e => rw [ht] at h; cases h
      | ok o =>
        rw [ht] at h
        dsimp only at h
        have hj := honest _ _ hepoch ha
        have hmove : prev.currentJustified.epoch ≤ s.currentJustified.epoch ∧ ∀ l ∈ o.toList, low < l.target.epoch ∧ l.target.epoch < epoch := by
          obtain ⟨-, -, -, h4, h5⟩ := (transitionLink_ok_iff _ _ _).1 ht
          refine ⟨h4.elim Nat.le_of_lt (fun h4 => Nat.le_of_eq (by rw [h4])), ?_⟩
          intro l hm
          rcases h5 with ⟨-, -, rfl⟩ | ⟨h6, -, -, -, rfl⟩ | ⟨h6, -, -, rfl⟩
          · cases hm
          · rcases h4 with h4 | h4
            · simp only [Option.toList_some, List.mem_singleton] at hm
              subst hm
              exact ⟨by dsimp only; omega, hj⟩
            · exact absurd h4 h6
          · rcases h4 with h4 | h4
            · simp only [Option.toList_some, List.mem_singleton] at hm
              subst hm
              exact ⟨by dsimp only; omega, hj⟩
            · exact absurd h4 h6
        have hall : ∀ l ∈ links ++ o.toList, low < l.target.epoch ∧ l.target.epoch < epoch := by
          intro l hm
          rcases List.mem_append.1 hm with hm | hm
          · exact hl l hm
          · exact hmove.2 l hm
        by_cases h1 : s.finalized ≠ initial
        · rw [if_pos h1] at h
          cases h
          refine ⟨epoch, Nat.le_refl _, by omega, ha, h1, hall, fun ask' h' => ?_⟩
          unfold justificationsLoop
          rw [h' _ (Nat.le_refl _) (Nat.le_refl _), ha]
          dsimp only
          rw [ht]
          dsimp only
          rw [if_pos h1]
        · rw [if_neg h1] at h
          obtain ⟨g, a, b, c, d, e, k⟩ := ih (by omega) h (by omega) (fun l hm => ⟨(hall l hm).1, by have := (hall l hm).2; omega⟩)
          refine ⟨g, by omega, by omega, c, d, e, fun ask' h' => ?_⟩
          unfold justificationsLoop
          rw [h' _ (Nat.le_refl _) (by omega), ha]
          dsimp only
          rw [ht]
          dsimp only
          rw [if_neg h1]
          exact k ask' (fun e he he' => h' e (by omega) he')

theorem walk_valid {spe : Nat} {ask : StateAnswers} {initial : Checkpoint} {bound epoch : Nat} {prev : ConsensusState} {links : List Link}
    {r : ConsensusState × List Link} (h : justificationsLoop spe ask initial bound epoch prev links = some (.ok r)) : ValidState prev := by
  cases bound with
  | zero => cases h
  | succ bound =>
    unfold justificationsLoop at h
    cases ha : ask (startSlot spe epoch) with
    | panic => rw [ha] at h; cases h
    | err e => rw [ha] at h; cases h
    | ok s =>
      rw [ha] at h
      dsimp only at h
      cases ht : prev.transitionLink s with
      | panic => rw [ht] at h; cases h
      | err e => rw [ht] at h; cases h
      | ok o => exact ((transitionLink_ok_iff _ _ _).1 ht).1

theorem collect_local {spe low high : Nat} {getBlock getBlock' : Nat → Res HostError (Option Block)} {links : List Link}
    (hl : ∀ l ∈ links, low < l.target.epoch ∧ l.target.epoch < high)
    (h : ∀ slot, startSlot spe (low + 1) ≤ slot → slot ≤ startSlot spe high → getBlock' slot = getBlock slot) :
    collectAttestations spe getBlock' links = collectAttestations spe getBlock links := by
  unfold collectAttestations
  split
  · rfl
  · dsimp only
    cases h1 : (links.map (·.target.epoch)).min? with
    | none => rfl
    | some a =>
      cases h2 : (links.map (·.target.epoch)).max? with
      | none => rfl
      | some b =>
        have ha := List.min?_mem h1
        have hb := List.max?_mem h2
        obtain ⟨la, hla, rfl⟩ := List.mem_map.1 ha
        obtain ⟨lb, hlb, rfl⟩ := List.mem_map.1 hb
        simp only [expect, Res.ok_bind]
        rw [mapRes_congr (f := getBlock') (g := getBlock)]
        intro slot hs
        unfold slotRange at hs
        obtain ⟨k, hk, rfl⟩ := List.mem_map.1 hs
        have hk := List.mem_range.1 hk
        have m1 : startSlot spe (low + 1) ≤ startSlot spe la.target.epoch := startSlot_mono (hl la hla).1
        have m2 : startSlot spe (satAdd lb.target.epoch 1) ≤ startSlot spe high :=
          startSlot_mono (by have := (hl lb hlb).2; unfold satAdd; omega)
        unfold startSlot at m1 m2
        exact h _ (by unfold startSlot; omega) (by unfold startSlot; omega)

theorem search_local {spe : Nat} {find walk : StateAnswers} {getBlock : Nat → Res HostError (Option Block)} {trusted : Checkpoint} {bound : Nat}
    {pre post : ConsensusState} {links : List Link} {attestations : List Attestation}
    (honest : ∀ e s, trusted.epoch < e → walk (startSlot spe e) = .ok s → s.currentJustified.epoch < e)
    (h : hostSearch spe find walk getBlock trusted bound = some (.ok (pre, post, links, attestations))) :
    ∃ f g, trusted.epoch < f ∧ f ≤ trusted.epoch + bound ∧ f < g ∧ g ≤ f + bound ∧
      (∃ s, find (startSlot spe f) = .ok s ∧ s.finalized = trusted) ∧ walk (startSlot spe g) = .ok post ∧ post.finalized ≠ trusted ∧
      (∀ a ∈ attestations, trusted.epoch < a.data.target.epoch ∧ a.data.target.epoch < g) ∧
      ∀ (find' walk' : StateAnswers) (getBlock' : Nat → Res HostError (Option Block)),
        (∀ e, trusted.epoch < e → e ≤ f → find' (startSlot spe e) = find (startSlot spe e)) →
        (∀ e, f ≤ e → e ≤ g → walk' (startSlot spe e) = walk (startSlot spe e)) →
        (∀ slot, startSlot spe (trusted.epoch + 1) ≤ slot → slot ≤ startSlot spe g → getBlock' slot = getBlock slot) →
        hostSearch spe find' walk' getBlock' trusted bound = some (.ok (pre, post, links, attestations)) := by
  unfold hostSearch at h
  cases hf : findFinalizationEpoch spe find trusted bound with
  | none => rw [hf] at h; cases h
  | some rf =>
    cases rf with
    | panic => rw [hf] at h; cases h
    | err e => rw [hf] at h; cases h
    | ok f =>
      rw [hf] at h
      dsimp only at h
      unfold findFinalizationEpoch at hf
      obtain ⟨f1, f2, f3, f4⟩ := find_local bound hf
      cases hw : justificationsUntilNewFinality spe walk f bound with
      | none => rw [hw] at h; cases h
      | some rw' =>
        cases rw' with
        | panic => rw [hw] at h; cases h
        | err e => rw [hw] at h; cases h
        | ok w =>
          rw [hw] at h
          obtain ⟨state, next, ls⟩ := w
          simp only [Option.some.injEq, Res.bind_eq_ok, assert_eq_ok, decide_eq_true_eq, Res.pure_eq, Res.ok.injEq, Prod.mk.injEq] at h
          obtain ⟨-, ht, as, hc, rfl, rfl, rfl, rfl⟩ := h
          unfold justificationsUntilNewFinality at hw
          cases hi : walk (startSlot spe f) with
          | panic => rw [hi] at hw; cases hw
          | err e => rw [hi] at hw; cases hw
          | ok initial =>
            rw [hi] at hw
            dsimp only at hw
            obtain ⟨r, hr, hr'⟩ := Option.map_eq_some_iff.1 hw
            obtain ⟨⟨c, l⟩, rfl, e⟩ := Res.bind_eq_ok.1 hr'
            simp only [Res.pure_eq, Res.ok.injEq, Prod.mk.injEq] at e
            obtain ⟨rfl, rfl, rfl⟩ := e
            have hv : trusted.epoch ≤ initial.currentJustified.epoch := by
              have hvalid := walk_valid hr
              rw [← ht]
              rcases hvalid with hvalid | hvalid
              · exact Nat.le_of_lt hvalid
              · exact Nat.le_of_eq (by rw [hvalid])
            obtain ⟨g, g1, g2, g3, g4, g5, g6⟩ := walk_local trusted.epoch honest bound (by omega) hr hv (by simp)
            refine ⟨f, g, by omega, by omega, by omega, by omega, f3, g3, ht ▸ g4, fun a ha => g5 _ (collect_links hc a ha), fun find' walk' getBlock' q1 q2 q3 => ?_⟩
            unfold hostSearch findFinalizationEpoch justificationsUntilNewFinality
            rw [f4 find' (fun e he he' => q1 e (by omega) he')]
            dsimp only
            rw [q2 f (Nat.le_refl _) (by omega), hi]
            dsimp only
            rw [g6 walk' (fun e he he' => q2 e (by omega) he')]
            simp only [Option.map_some, Res.ok_bind, Res.pure_eq, ht, decide_true, assert]
            rw [collect_local g5 q3, hc]
            rfl

/-- **C100.** Whatever a node answers, as long as its states at the start of an epoch have only earlier epochs justified: if the search succeeds, there are an
epoch `f`, in which the node reports the trusted checkpoint as finalized, and an epoch `g`, in which it reports the next finality, such that the result depends
on nothing but the consensus states at the start of the epochs up to `g` and the blocks from the epoch after the trusted one up to the start of `g`. -/
theorem C100_confined {spe : Nat} {find walk : StateAnswers} {getBlock : Nat → Res HostError (Option Block)} {trusted : Checkpoint} {bound : Nat}
    {pre post : ConsensusState} {links : List Link} {attestations : List Attestation}
    (honest : ∀ e s, trusted.epoch < e → walk (startSlot spe e) = .ok s → s.currentJustified.epoch < e)
    (h : hostSearch spe find walk getBlock trusted bound = some (.ok (pre, post, links, attestations))) :
    ∃ f g, trusted.epoch < f ∧ f ≤ trusted.epoch + bound ∧ f < g ∧ g ≤ f + bound ∧
      (∃ s, find (startSlot spe f) = .ok s ∧ s.finalized = trusted) ∧ walk (startSlot spe g) = .ok post ∧ post.finalized ≠ trusted ∧
      ∀ (find' walk' : StateAnswers) (getBlock' : Nat → Res HostError (Option Block)),
        (∀ e, trusted.epoch < e → e ≤ f → find' (startSlot spe e) = find (startSlot spe e)) →
        (∀ e, f ≤ e → e ≤ g → walk' (startSlot spe e) = walk (startSlot spe e)) →
        (∀ slot, startSlot spe (trusted.epoch + 1) ≤ slot → slot ≤ startSlot spe g → getBlock' slot = getBlock slot) →
        hostSearch spe find' walk' getBlock' trusted bound = some (.ok (pre, post, links, attestations)) := by
  obtain ⟨f, g, h1, h2, h3, h4, h5, h6, h7, -, h8⟩ := search_local honest h
  exact ⟨f, g, h1, h2, h3, h4, h5, h6, h7, h8⟩

/-- An answer for each epoch: up to epoch `a` the trusted checkpoint is not final yet, then it is with `j` justified, from `b` on `j` is final. -/
def stepAnswers (trusted j k : Checkpoint) (a b : Nat) : StateAnswers := fun slot =>
  if slot < 32 * a then .ok ⟨trusted, ⟨0, []⟩⟩ else if slot < 32 * b then .ok ⟨j, trusted⟩ else .ok ⟨k, j⟩

/-- The hypotheses are met: epoch 7 is final from epoch 9 on and epoch 8 from epoch 10 on. -/
example : (∀ e s, 7 < e → stepAnswers ⟨7, [1]⟩ ⟨8, [2]⟩ ⟨9, [3]⟩ 9 10 (startSlot 32 e) = .ok s → s.currentJustified.epoch < e) ∧
    hostSearch 32 (stepAnswers ⟨7, [1]⟩ ⟨8, [2]⟩ ⟨9, [3]⟩ 9 10) (stepAnswers ⟨7, [1]⟩ ⟨8, [2]⟩ ⟨9, [3]⟩ 9 10) (fun _ => .ok none) ⟨7, [1]⟩ 5 =
      some (.ok (⟨⟨8, [2]⟩, ⟨7, [1]⟩⟩, ⟨⟨9, [3]⟩, ⟨8, [2]⟩⟩, [⟨⟨8, [2]⟩, ⟨9, [3]⟩⟩], [])) := by
  refine ⟨?_, by decide +kernel⟩
  intro e s he h
  unfold stepAnswers startSlot satMul at h
  split at h
  · cases h; exact he
  · split at h
    · cases h; dsimp only; omega
    · cases h; dsimp only; omega

theorem mapRes_none (l : List Nat) : mapRes (fun _ => (.ok none : Res HostError (Option Block))) l = .ok (l.map (fun _ => none)) := by
  induction l with
  | nil => rfl
  | cons a l ih => rw [mapRes, ih]; rfl

theorem groupBlocks_none (l : List Nat) (m : List (Link × List Attestation)) : groupBlocks (l.map (fun _ => none)) m = .ok m := by
  induction l with
  | nil => rfl
  | cons a l ih => exact ih

/-- Without the condition the claim is false: whatever slot `n` is named, a node that answers the same requests can make the host ask for a block after it, and
fail if it does not get it. -/
theorem C100_lying (n : Nat) (hn : n + 400 < 2 ^ 64) : ∃ (ask : StateAnswers) (getBlock getBlock' : Nat → Res HostError (Option Block)),
    (∀ slot, slot ≤ n → getBlock' slot = getBlock slot) ∧ ask (startSlot 32 9) = .ok ⟨⟨n / 32 + 8, [2]⟩, ⟨7, [1]⟩⟩ ∧
    hostSearch 32 ask ask getBlock ⟨7, [1]⟩ 5 =
      some (.ok (⟨⟨n / 32 + 8, [2]⟩, ⟨7, [1]⟩⟩, ⟨⟨n / 32 + 9, [3]⟩, ⟨n / 32 + 8, [2]⟩⟩, [⟨⟨n / 32 + 8, [2]⟩, ⟨n / 32 + 9, [3]⟩⟩], [])) ∧
    hostSearch 32 ask ask getBlock' ⟨7, [1]⟩ 5 = some (.err .node) := by
  have hfind : findFinalizationEpoch 32 (stepAnswers ⟨7, [1]⟩ ⟨n / 32 + 8, [2]⟩ ⟨n / 32 + 9, [3]⟩ 9 10) ⟨7, [1]⟩ 5 = some (.ok 9) := rfl
  have hlink : (⟨⟨n / 32 + 8, [2]⟩, ⟨7, [1]⟩⟩ : ConsensusState).transitionLink ⟨⟨n / 32 + 9, [3]⟩, ⟨n / 32 + 8, [2]⟩⟩ = .ok (some ⟨⟨n / 32 + 8, [2]⟩, ⟨n / 32 + 9, [3]⟩⟩) := by
    rw [transitionLink_ok_iff]
    refine ⟨.inl (by dsimp only; omega), .inl (by dsimp only; omega), .inl (by dsimp only; omega), .inl (by dsimp only; omega), .inr (.inl ?_)⟩
    exact ⟨by simp, by simp, rfl, by dsimp only; omega, rfl⟩
  have hwalk : justificationsUntilNewFinality 32 (stepAnswers ⟨7, [1]⟩ ⟨n / 32 + 8, [2]⟩ ⟨n / 32 + 9, [3]⟩ 9 10) 9 5 =
      some (.ok (⟨⟨n / 32 + 8, [2]⟩, ⟨7, [1]⟩⟩, ⟨⟨n / 32 + 9, [3]⟩, ⟨n / 32 + 8, [2]⟩⟩, [⟨⟨n / 32 + 8, [2]⟩, ⟨n / 32 + 9, [3]⟩⟩])) := by
    have e9 : stepAnswers ⟨7, [1]⟩ ⟨n / 32 + 8, [2]⟩ ⟨n / 32 + 9, [3]⟩ 9 10 (startSlot 32 9) = .ok ⟨⟨n / 32 + 8, [2]⟩, ⟨7, [1]⟩⟩ := rfl
    have e10 : stepAnswers ⟨7, [1]⟩ ⟨n / 32 + 8, [2]⟩ ⟨n / 32 + 9, [3]⟩ 9 10 (startSlot 32 (9 + 1)) = .ok ⟨⟨n / 32 + 9, [3]⟩, ⟨n / 32 + 8, [2]⟩⟩ := rfl
    unfold justificationsUntilNewFinality
    rw [e9]
    dsimp only
    unfold justificationsLoop
    rw [e10]
    dsimp only
    rw [hlink]
    dsimp only
    rw [if_pos (by simp)]
    rfl
  refine ⟨stepAnswers ⟨7, [1]⟩ ⟨n / 32 + 8, [2]⟩ ⟨n / 32 + 9, [3]⟩ 9 10, fun _ => .ok none, fun slot => if slot ≤ n then .ok none else .err .node, ?_, rfl, ?_, ?_⟩
  · intro slot h
    exact if_pos h
  · unfold hostSearch
    rw [hfind]
    dsimp only
    rw [hwalk]
    unfold collectAttestations
    simp only [mapRes_none, groupBlocks_none, decide_true, assert, if_true, Res.ok_bind, List.cons_ne_nil, if_false, List.map_cons, List.map_nil,
      List.min?_singleton, List.max?_singleton, expect, Res.pure_eq]
    rfl
  · unfold hostSearch
    rw [hfind]
    dsimp only
    rw [hwalk]
    unfold collectAttestations
    have hr : ∃ slots, slotRange (satMul (n / 32 + 9) 32) (satMul (satAdd (n / 32 + 9) 1) 32) = satMul (n / 32 + 9) 32 :: slots := by
      obtain ⟨m, this⟩ : ∃ m, satMul (satAdd (n / 32 + 9) 1) 32 + 1 - satMul (n / 32 + 9) 32 = m + 1 :=
        ⟨satMul (satAdd (n / 32 + 9) 1) 32 - satMul (n / 32 + 9) 32, by unfold satMul satAdd; omega⟩
      unfold slotRange
      rw [this, List.range_succ_eq_map]
      exact ⟨_, rfl⟩
    obtain ⟨slots, hr⟩ := hr
    have hlate : ¬satMul (n / 32 + 9) 32 ≤ n := by unfold satMul; omega
    simp only [decide_true, assert, if_true, Res.ok_bind, List.cons_ne_nil, if_false, List.map_cons, List.map_nil,
      List.min?_singleton, List.max?_singleton, expect, hr, mapRes, if_neg hlate]
    rfl

end Signal
