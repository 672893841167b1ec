import Verif.Spec.Host
import Verif.Model.Cli
import Verif.Props.Consensus
import Verif.Props.VerifyOrder

/-!
# Properties C43, C44, C56, C58: the chain search of the host

Specification: `Verif/Spec/Host.lean`.
-/

namespace Signal
open Spec

theorem startSlot_eq (spe e : Nat) : startSlot spe e = min (e * spe) (2 ^ 64 - 1) := rfl

/-! ## C56 -/

theorem findLoop_ok (spe : Nat) (ask : StateAnswers) (c : Checkpoint) : ∀ (bound epoch e : Nat),
    findFinalizationLoop spe ask c bound epoch = some (.ok e) ↔
      epoch ≤ e ∧ e < epoch + bound ∧ (∃ s, ChainAt spe ask e s ∧ s.finalized = c) ∧
      ∀ e', epoch ≤ e' → e' < e → ∃ s, ChainAt spe ask e' s ∧ s.finalized.epoch < c.epoch := by
  intro bound
  induction bound with
  | zero =>
    intro epoch e
    simp only [findFinalizationLoop, reduceCtorEq, false_iff]
    rintro ⟨h1, h2, -⟩
    omega
  | succ n ih =>
    intro epoch e
    unfold findFinalizationLoop
    have hcur : ∀ s, ChainAt spe ask epoch s ↔ ask (startSlot spe epoch) = .ok s := fun s => Iff.rfl
    -- what the first request says
    have hfirst : ∀ e, epoch ≤ e → (∃ s, ChainAt spe ask e s ∧ s.finalized = c) →
        (∀ e', epoch ≤ e' → e' < e → ∃ s, ChainAt spe ask e' s ∧ s.finalized.epoch < c.epoch) →
        ∃ s, ask (startSlot spe epoch) = .ok s ∧
          ((e = epoch ∧ s.finalized = c) ∨ (epoch < e ∧ s.finalized.epoch < c.epoch)) := by
      intro e he ⟨s, hs, hf⟩ hall
      rcases Nat.eq_or_lt_of_le he with rfl | hlt
      · exact ⟨s, hs, Or.inl ⟨rfl, hf⟩⟩
      · obtain ⟨t, ht, hlt'⟩ := hall epoch (Nat.le_refl _) hlt
        exact ⟨t, ht, Or.inr ⟨hlt, hlt'⟩⟩
    cases hask : ask (startSlot spe epoch) with
    | panic =>
      simp only [Option.some.injEq, reduceCtorEq, false_iff]
      rintro ⟨h1, -, h3, h4⟩
      obtain ⟨s, hs, -⟩ := hfirst e h1 h3 h4
      rw [hask] at hs; cases hs
    | err x =>
      simp only [Option.some.injEq, reduceCtorEq, false_iff]
      rintro ⟨h1, -, h3, h4⟩
      obtain ⟨s, hs, -⟩ := hfirst e h1 h3 h4
      rw [hask] at hs; cases hs
    | ok st =>
      simp only
      split
      · rename_i hfin
        simp only [Option.some.injEq, Res.ok.injEq]
        constructor
        · rintro rfl
          exact ⟨Nat.le_refl _, by omega, ⟨st, hask, hfin⟩, fun e' h1 h2 => by omega⟩
        · rintro ⟨h1, -, h3, h4⟩
          obtain ⟨s, hs, h | h⟩ := hfirst e h1 h3 h4
          · exact h.1.symm
          · rw [hask] at hs; cases hs; rw [hfin] at h; omega
      · rename_i hne
        split
        · rename_i hlt
          rw [ih]
          constructor
          · rintro ⟨h1, h2, h3, h4⟩
            refine ⟨by omega, by omega, h3, ?_⟩
            intro e' h5 h6
            rcases Nat.eq_or_lt_of_le h5 with rfl | h5
            · exact ⟨st, hask, hlt⟩
            · exact h4 e' h5 h6
          · rintro ⟨h1, h2, h3, h4⟩
            have hee : epoch ≠ e := by
              rintro rfl
              obtain ⟨s, hs, hf⟩ := h3
              have : ask (startSlot spe epoch) = .ok s := hs
              rw [hask] at this; cases this; exact hne hf
            exact ⟨by omega, by omega, h3, fun e' h5 h6 => h4 e' (by omega) h6⟩
        · rename_i hge
          simp only [Option.some.injEq, reduceCtorEq, false_iff]
          rintro ⟨h1, -, h3, h4⟩
          obtain ⟨s, hs, h | h⟩ := hfirst e h1 h3 h4
          · rw [hask] at hs; cases hs; exact hne h.2
          · rw [hask] at hs; cases hs; exact hge h.2

/-- **C56.** The search returns `e` (after at most `bound` requests) exactly if `e` is after the trusted epoch,
the state at `e` finalizes the trusted checkpoint, and all states in between finalize something earlier. -/
theorem C56_finalization_search (spe : Nat) (ask : StateAnswers) (c : Checkpoint) (bound e : Nat) :
    findFinalizationEpoch spe ask c bound = some (.ok e) ↔
      c.epoch < e ∧ e ≤ c.epoch + bound ∧ (∃ s, ChainAt spe ask e s ∧ s.finalized = c) ∧
      ∀ e', c.epoch < e' → e' < e → ∃ s, ChainAt spe ask e' s ∧ s.finalized.epoch < c.epoch := by
  unfold findFinalizationEpoch
  rw [findLoop_ok]
  constructor
  · rintro ⟨h1, h2, h3, h4⟩
    exact ⟨h1, by omega, h3, h4⟩
  · rintro ⟨h1, h2, h3, h4⟩
    exact ⟨h1, by omega, h3, h4⟩

/-- **C56.** If the chain skips past the trusted checkpoint without finalizing it, the search fails: as soon as a
state finalizes another checkpoint of the trusted epoch or of a later one, that is the error. -/
theorem C56_skipped (spe : Nat) (ask : StateAnswers) (c : Checkpoint) (bound e : Nat) (h1 : c.epoch < e)
    (h2 : e ≤ c.epoch + bound) (s : ConsensusState) (hs : ChainAt spe ask e s) (hne : s.finalized ≠ c)
    (hge : c.epoch ≤ s.finalized.epoch)
    (hbefore : ∀ e', c.epoch < e' → e' < e → ∃ s, ChainAt spe ask e' s ∧ s.finalized.epoch < c.epoch) :
    findFinalizationEpoch spe ask c bound = some (.err .invalidTrustedCheckpoint) := by
  have key : ∀ (bound epoch : Nat), epoch ≤ e → e < epoch + bound →
      (∀ e', epoch ≤ e' → e' < e → ∃ s, ChainAt spe ask e' s ∧ s.finalized.epoch < c.epoch) →
      findFinalizationLoop spe ask c bound epoch = some (.err .invalidTrustedCheckpoint) := by
    intro bound
    induction bound with
    | zero => intro epoch h1 h2; omega
    | succ n ih =>
      intro epoch h1 h2 h3
      unfold findFinalizationLoop
      rcases Nat.eq_or_lt_of_le h1 with rfl | hlt
      · have : ask (startSlot spe epoch) = .ok s := hs
        rw [this]
        simp only [hne, if_false]
        rw [if_neg (by omega)]
      · obtain ⟨t, ht, hlt'⟩ := h3 epoch (Nat.le_refl _) hlt
        have : ask (startSlot spe epoch) = .ok t := ht
        rw [this]
        simp only
        have hne' : t.finalized ≠ c := by intro h; rw [h] at hlt'; omega
        rw [if_neg hne', if_pos hlt']
        exact ih (epoch + 1) (by omega) (by omega) (fun e' h5 h6 => h3 e' (by omega) h6)
  exact key bound _ h1 (by omega) hbefore

/-! ## C43 -/

theorem applyLinks_append (s : ConsensusState) (l : List Link) (m : List Link) :
    applyLinks s (l ++ m) = (applyLinks s l >>= fun t => applyLinks t m) := by
  induction l generalizing s with
  | nil => rfl
  | cons a l ih =>
    simp only [List.cons_append, applyLinks]
    cases s.stateTransition a with
    | ok t => simp only [Res.ok_bind]; exact ih t
    | err e => rfl
    | panic => rfl

/-- One more reported link. -/
theorem applyLinks_step {s p t : ConsensusState} {links : List Link} {o : Option Link}
    (h : applyLinks s links = .ok p) (hl : p.transitionLink t = .ok o) (hu : t.currentJustified.epoch < 2 ^ 64) :
    applyLinks s (links ++ o.toList) = .ok t := by
  rw [applyLinks_append, h]
  simp only [Res.ok_bind]
  cases o with
  | none =>
    have hv := ((transitionLink_ok_iff _ _ _).1 hl).1
    rw [(C05_none_iff_equal p t hv).1 hl]
    rfl
  | some l =>
    simp only [Option.toList_some, applyLinks]
    rw [C03_reported_link_replays p t l hu hl]
    rfl

theorem justLoop_ok (spe : Nat) (ask : StateAnswers) (s0 : ConsensusState)
    (hu : ∀ slot t, ask slot = .ok t → t.currentJustified.epoch < 2 ^ 64) :
    ∀ (bound epoch : Nat) (prev : ConsensusState) (links : List Link) (s1 : ConsensusState) (out : List Link),
      applyLinks s0 links = .ok prev → prev.finalized = s0.finalized →
      justificationsLoop spe ask s0.finalized bound epoch prev links = some (.ok (s1, out)) →
      applyLinks s0 out = .ok s1 ∧ s1.finalized ≠ s0.finalized ∧
      (∃ before l t, out = before ++ [l] ∧ applyLinks s0 before = .ok t ∧ t.finalized = s0.finalized ∧
        t.stateTransition l = .ok s1) ∧
      ∃ e, epoch ≤ e ∧ e < epoch + bound ∧ ChainAt spe ask e s1 ∧
        ∀ e', epoch ≤ e' → e' < e → ∃ t, ChainAt spe ask e' t ∧ t.finalized = s0.finalized := by
  intro bound
  induction bound with
  | zero => intro epoch prev links s1 out _ _ h; simp [justificationsLoop] at h
  | succ n ih =>
    intro epoch prev links s1 out hap hfin h
    unfold justificationsLoop at h
    cases hask : ask (startSlot spe epoch) with
    | panic => rw [hask] at h; simp at h
    | err x => rw [hask] at h; simp at h
    | ok cur =>
      rw [hask] at h
      simp only at h
      cases hl : prev.transitionLink cur with
      | panic => rw [hl] at h; simp at h
      | err x => rw [hl] at h; simp at h
      | ok o =>
        rw [hl] at h
        simp only at h
        have hstep := applyLinks_step hap hl (hu _ _ hask)
        split at h
        · rename_i hne
          simp only [Option.some.injEq, Res.ok.injEq, Prod.mk.injEq] at h
          obtain ⟨rfl, rfl⟩ := h
          refine ⟨hstep, hne, ?_, epoch, Nat.le_refl _, by omega, hask, fun e' h1 h2 => by omega⟩
          cases o with
          | none =>
            have hv := ((transitionLink_ok_iff _ _ _).1 hl).1
            rw [← (C05_none_iff_equal prev cur hv).1 hl] at hne
            exact absurd hfin hne
          | some l =>
            exact ⟨links, l, prev, rfl, hap, hfin, C03_reported_link_replays prev cur l (hu _ _ hask) hl⟩
        · rename_i heq
          simp only [ne_eq, Decidable.not_not] at heq
          obtain ⟨h1, h2, h3, e, h4, h5, h6, h7⟩ := ih (epoch + 1) cur _ s1 out hstep heq h
          refine ⟨h1, h2, h3, e, by omega, by omega, h6, ?_⟩
          intro e' h8 h9
          rcases Nat.eq_or_lt_of_le h8 with rfl | h8
          · exact ⟨cur, hask, heq⟩
          · exact h7 e' h8 h9

/-- **C43.** The links that the host collects, applied in order by `state_transition` to the state that it
starts from, lead to the state at which it stopped; finality changes only with the last link. This holds
whatever the node answers; the last state is the one at the first later epoch at which finality has changed. -/
theorem C43_links_replay (spe : Nat) (ask : StateAnswers) (start bound : Nat) (s s' : ConsensusState)
    (links : List Link) (hu : ∀ slot t, ask slot = .ok t → t.currentJustified.epoch < 2 ^ 64)
    (h : justificationsUntilNewFinality spe ask start bound = some (.ok (s, s', links))) :
    ChainAt spe ask start s ∧ applyLinks s links = .ok s' ∧ s'.finalized ≠ s.finalized ∧
      (∃ before l t, links = before ++ [l] ∧ applyLinks s before = .ok t ∧ t.finalized = s.finalized ∧
        t.stateTransition l = .ok s') ∧
      ∃ e, start < e ∧ e ≤ start + bound ∧ ChainAt spe ask e s' ∧
        ∀ e', start ≤ e' → e' < e → ∃ t, ChainAt spe ask e' t ∧ t.finalized = s.finalized := by
  unfold justificationsUntilNewFinality at h
  cases hask : ask (startSlot spe start) with
  | panic => rw [hask] at h; simp at h
  | err x => rw [hask] at h; simp at h
  | ok s0 =>
    rw [hask] at h
    simp only [Option.map_eq_some_iff] at h
    obtain ⟨r, hr, h⟩ := h
    cases r with
    | panic => cases h
    | err x => cases h
    | ok p =>
      obtain ⟨s1, out⟩ := p
      simp only [Res.ok_bind, Res.pure_eq, Res.ok.injEq, Prod.mk.injEq] at h
      obtain ⟨rfl, rfl, rfl⟩ := h
      obtain ⟨h1, h2, h3, e, h4, h5, h6, h7⟩ := justLoop_ok spe ask s0 hu bound (start + 1) s0 [] s1 out rfl rfl hr
      refine ⟨hask, h1, h2, h3, e, by omega, by omega, h6, ?_⟩
      intro e' h8 h9
      rcases Nat.eq_or_lt_of_le h8 with rfl | h8
      · exact ⟨s0, hask, rfl⟩
      · exact h7 e' h8 h9

/-! ## C44 -/

theorem get_push (m : List (Link × List Attestation)) (k l : Link) (a : Attestation) :
    (removeLink (pushByLink m k a) l).1.getD [] =
      (removeLink m l).1.getD [] ++ (if k = l then [a] else []) := by
  induction m with
  | nil =>
    by_cases h : k = l <;> simp [pushByLink, removeLink, h]
  | cons p m ih =>
    obtain ⟨k', g⟩ := p
    unfold pushByLink
    by_cases hk : k' = k
    · subst hk
      simp only [if_true]
      by_cases hl : k' = l
      · simp [removeLink, hl]
      · simp [removeLink, hl]
    · simp only [hk, if_false]
      by_cases hl : k' = l
      · have : k ≠ l := fun h => hk (by rw [hl, h])
        simp [removeLink, hl, this]
      · simpa [removeLink, hl] using ih

theorem get_remove (m : List (Link × List Attestation)) (l l' : Link) (h : l ≠ l') :
    (removeLink (removeLink m l).2 l').1 = (removeLink m l').1 := by
  induction m with
  | nil => rfl
  | cons p m ih =>
    obtain ⟨k, g⟩ := p
    by_cases hl : k = l
    · have : k ≠ l' := fun h' => h (by rw [← hl, h'])
      simp [removeLink, hl, h]
    · by_cases hl' : k = l'
      · simp only [removeLink, hl, if_false]
        simp [removeLink, hl']
      · simp only [removeLink, hl, hl', if_false]
        exact ih

theorem votesFor_append (l : Link) (as bs : List Attestation) :
    votesFor l (as ++ bs) = votesFor l as ++ votesFor l bs := by simp [votesFor]

theorem groupBlock_ok : ∀ (as : List (Option Attestation)) (m m' : List (Link × List Attestation)),
    groupBlock as m = .ok m' → ∀ l, (removeLink m' l).1.getD [] =
      (removeLink m l).1.getD [] ++ votesFor l (as.filterMap id) := by
  intro as
  induction as with
  | nil => intro m m' h l; cases h; simp [votesFor]
  | cons o as ih =>
    intro m m' h l
    cases o with
    | none => cases h
    | some a =>
      rw [ih _ _ h l, get_push, List.append_assoc]
      congr 1
      have : (⟨a.data.source, a.data.target⟩ : Link) = linkOf a := rfl
      rw [this]
      by_cases hl : linkOf a = l <;> simp [votesFor, hl]

theorem groupBlocks_ok : ∀ (bs : List (Option Block)) (m m' : List (Link × List Attestation)),
    groupBlocks bs m = .ok m' → ∀ l, (removeLink m' l).1.getD [] =
      (removeLink m l).1.getD [] ++ votesFor l (blockAttestations bs) := by
  intro bs
  induction bs with
  | nil => intro m m' h l; cases h; simp [votesFor, blockAttestations]
  | cons o bs ih =>
    intro m m' h l
    cases o with
    | none =>
      rw [ih _ _ h l]
      simp [blockAttestations]
    | some b =>
      cases b with
      | other => cases h
      | electra as =>
        simp only [groupBlocks, Res.bind_eq_ok] at h
        obtain ⟨m₁, h1, h2⟩ := h
        rw [ih _ _ h2 l, groupBlock_ok _ _ _ h1 l, List.append_assoc, ← votesFor_append]
        simp [blockAttestations]

theorem assemble_eq : ∀ (links : List Link) (m : List (Link × List Attestation)), links.Nodup →
    assemble links m = links.flatMap (fun l => (removeLink m l).1.getD []) := by
  intro links
  induction links with
  | nil => intro m _; rfl
  | cons l ls ih =>
    intro m hnd
    rw [List.nodup_cons] at hnd
    simp only [assemble, List.flatMap_cons]
    rw [ih _ hnd.2]
    congr 1
    apply List.flatMap_congr
    intro l' hl'
    rw [get_remove _ _ _ (by rintro rfl; exact hnd.1 hl')]

theorem satMul_eq {a b : Nat} (h : a * b < 2 ^ 64) : satMul a b = a * b := by
  unfold satMul; omega

/-- The last slot that is read, in saturating arithmetic. -/
theorem endSlot_eq (e spe : Nat) : satMul (satAdd e 1) spe = min ((e + 1) * spe) (2 ^ 64 - 1) := by
  show min (min (e + 1) (2 ^ 64 - 1) * spe) (2 ^ 64 - 1) = _
  rcases Nat.le_total (e + 1) (2 ^ 64 - 1) with h | h
  · rw [Nat.min_eq_left h]
  · rw [Nat.min_eq_right h]
    rcases Nat.eq_zero_or_pos spe with rfl | hp
    · rfl
    · have h1 : (2 ^ 64 - 1) * 1 ≤ (2 ^ 64 - 1) * spe := Nat.mul_le_mul_left _ hp
      have h2 : (2 ^ 64 - 1) * spe ≤ (e + 1) * spe := Nat.mul_le_mul_right _ h
      rw [Nat.min_eq_right (by omega), Nat.min_eq_right (by omega)]

/-- **C44.** What the host collects: it reads the blocks of all slots from the first slot of the earliest target
epoch to the first slot after the latest target epoch (slot numbers end at `2 ^ 64 - 1`), and returns, link by link in the order of the
links, exactly the attestations of these blocks for that link, in the order of the blocks. Missing: later blocks
(`C44_late_votes_missed`). -/
theorem C44_collects_partial (spe : Nat) (getBlock : Nat → Res HostError (Option Block)) (links : List Link)
    (atts : List Attestation) (hne : links ≠ []) (hnd : links.Nodup) (h : collectAttestations spe getBlock links = .ok atts) :
    ∃ (lo hi : Link) (blocks : List (Option Block)) (first last : Nat), lo ∈ links ∧ hi ∈ links ∧
      (∀ l ∈ links, lo.target.epoch ≤ l.target.epoch ∧ l.target.epoch ≤ hi.target.epoch) ∧
      first = min (lo.target.epoch * spe) (2 ^ 64 - 1) ∧ last = min ((hi.target.epoch + 1) * spe) (2 ^ 64 - 1) ∧
      (∀ slot, first ≤ slot → slot ≤ last → ∃ b, getBlock slot = .ok b) ∧
      ((List.range' first (last + 1 - first)).map getBlock = blocks.map .ok) ∧
      atts = links.flatMap (fun l => votesFor l (blockAttestations blocks)) := by
  unfold collectAttestations at h
  rw [if_neg hne] at h
  simp only [Res.bind_eq_ok, Res.pure_eq, Res.ok.injEq] at h
  obtain ⟨mn, h1, mx, h2, blocks, h3, m, h4, h5⟩ := h
  have h1 : (links.map (·.target.epoch)).min? = some mn := by
    cases hm : (links.map (·.target.epoch)).min? with
    | none => rw [hm] at h1; cases h1
    | some x => rw [hm] at h1; cases h1; rfl
  have h2 : (links.map (·.target.epoch)).max? = some mx := by
    cases hm : (links.map (·.target.epoch)).max? with
    | none => rw [hm] at h2; cases h2
    | some x => rw [hm] at h2; cases h2; rfl
  rw [List.min?_eq_some_iff] at h1
  rw [List.max?_eq_some_iff] at h2
  obtain ⟨lo, hlo, rfl⟩ := List.mem_map.1 h1.1
  obtain ⟨hi, hhi, rfl⟩ := List.mem_map.1 h2.1
  have e1 : satMul lo.target.epoch spe = min (lo.target.epoch * spe) (2 ^ 64 - 1) := rfl
  rw [e1, endSlot_eq] at h3
  rw [mapRes_eq_ok] at h3
  have hr : ∀ f l, slotRange f l = List.range' f (l + 1 - f) := by
    intro f l
    unfold slotRange
    rw [List.range'_eq_map_range]
  rw [hr] at h3
  refine ⟨lo, hi, blocks, _, _, hlo, hhi, ?_, rfl, rfl, ?_, h3, ?_⟩
  · intro l hl
    exact ⟨h1.2 _ (List.mem_map.2 ⟨l, hl, rfl⟩), h2.2 _ (List.mem_map.2 ⟨l, hl, rfl⟩)⟩
  · intro slot hs1 hs2
    have : getBlock slot ∈ blocks.map Res.ok := by
      rw [← h3]
      exact List.mem_map.2 ⟨slot, by rw [List.mem_range'_1]; omega, rfl⟩
    obtain ⟨b, _, hb⟩ := List.mem_map.1 this
    exact ⟨b, hb.symm⟩
  · rw [← h5, assemble_eq _ _ hnd]
    apply List.flatMap_congr
    intro l _
    rw [groupBlocks_ok _ _ _ h4 l]
    rfl

theorem mem_votesFor {l : Link} {as : List Attestation} {a : Attestation} :
    a ∈ votesFor l as ↔ a ∈ as ∧ linkOf a = l := by
  simp [votesFor]

/-- **C44.** If each link has at least one attestation in the blocks, then grouping the attestations the way
`verify` does gives exactly the links, in order, each with exactly the block attestations for that link. -/
theorem C44_regroup (links : List Link) (all : List Attestation) (hnd : links.Nodup)
    (hall : ∀ l ∈ links, ∃ a ∈ all, linkOf a = l) :
    Blocks (links.flatMap (fun l => votesFor l all)) links ∧
      chunkBy linkOf (links.flatMap (fun l => votesFor l all)) = links.map (fun l => (l, votesFor l all)) := by
  have hf : ∀ l ∈ links,
      (links.flatMap (fun l => votesFor l all)).filter (fun a => decide (linkOf a = l)) = votesFor l all := by
    intro l hl
    clear hall
    induction links with
    | nil => cases hl
    | cons k ks ih =>
      rw [List.nodup_cons] at hnd
      rw [List.flatMap_cons, List.filter_append]
      rcases List.mem_cons.1 hl with rfl | hl'
      · have h1 : (votesFor l all).filter (fun a => decide (linkOf a = l)) = votesFor l all := by
          simp [votesFor]
        have h2 : (ks.flatMap (fun l => votesFor l all)).filter (fun a => decide (linkOf a = l)) = [] := by
          rw [List.filter_eq_nil_iff]
          intro a ha
          obtain ⟨k, hk, hak⟩ := List.mem_flatMap.1 ha
          have := (mem_votesFor.1 hak).2
          simp only [decide_eq_true_eq]
          intro h
          exact hnd.1 (by rw [← h, this]; exact hk)
        rw [h1, h2, List.append_nil]
      · have h1 : (votesFor k all).filter (fun a => decide (linkOf a = l)) = [] := by
          rw [List.filter_eq_nil_iff]
          intro a ha
          have := (mem_votesFor.1 ha).2
          simp only [decide_eq_true_eq]
          intro h
          exact hnd.1 (by rw [← this, h]; exact hl')
        rw [h1, List.nil_append]
        exact ih hnd.2 hl'
  have hb : Blocks (links.flatMap (fun l => votesFor l all)) links := by
    refine ⟨hnd, ?_, ?_⟩
    · intro l hl
      obtain ⟨a, ha, hal⟩ := hall l hl
      exact ⟨a, List.mem_flatMap.2 ⟨l, hl, mem_votesFor.2 ⟨ha, hal⟩⟩, hal⟩
    · exact List.flatMap_congr (fun l hl => (hf l hl).symm)
  refine ⟨hb, ?_⟩
  rw [chunkBy_of_blocks hb]
  exact List.map_congr_left (fun l hl => by rw [hf l hl])

/-- **C44, limit.** The window ends at the first slot of the epoch after the target epoch. A vote that is included
later is not collected, although Ethereum accepts it up to the end of that epoch (EIP-7045): if all
votes for the only link are in the second slot of that epoch, the host collects nothing. -/
theorem C44_late_votes_missed (spe : Nat) (l : Link) (votes : List Attestation) (hspe : 2 ≤ spe)
    (he : l.target.epoch < 2 ^ 64 - 1) (hu : (l.target.epoch + 1) * spe < 2 ^ 64) :
    (l.target.epoch + 1) * spe + 1 < (l.target.epoch + 2) * spe ∧
    collectAttestations spe
      (fun slot => .ok (if slot = (l.target.epoch + 1) * spe + 1 then some (.electra (votes.map some)) else none))
      [l] = .ok [] := by
  constructor
  · have : (l.target.epoch + 2) * spe = (l.target.epoch + 1) * spe + spe := by
      rw [← Nat.succ_mul]
    omega
  have hmul : l.target.epoch * spe ≤ (l.target.epoch + 1) * spe := Nat.mul_le_mul_right _ (by omega)
  have e1 : satMul l.target.epoch spe = l.target.epoch * spe := satMul_eq (by omega)
  have e2 : satMul (satAdd l.target.epoch 1) spe = (l.target.epoch + 1) * spe := by
    have : satAdd l.target.epoch 1 = l.target.epoch + 1 := by
      unfold satAdd; omega
    rw [this]
    exact satMul_eq hu
  have hnone : ∀ (slots : List Nat), groupBlocks (slots.map (fun _ => none)) [] = .ok [] := by
    intro slots
    induction slots with
    | nil => rfl
    | cons s slots ih => exact ih
  unfold collectAttestations
  rw [if_neg (by simp)]
  simp only [List.map_cons, List.map_nil, List.min?_singleton, List.max?_singleton]
  show (mapRes _ (slotRange (satMul l.target.epoch spe) (satMul (satAdd l.target.epoch 1) spe)) >>= _) = _
  rw [e1, e2]
  rw [mapRes_ok (g := fun _ => none)]
  · simp only [Res.ok_bind, hnone]
    rfl
  · intro s hs
    unfold slotRange at hs
    obtain ⟨i, hi, rfl⟩ := List.mem_map.1 hs
    rw [List.mem_range] at hi
    rw [if_neg (by omega)]

/-! ## C58 -/

theorem Spec.Step.finalized_lt {s l s'} (h : Step s l s') (hv : ValidState s) (hne : s'.finalized ≠ s.finalized) :
    s.finalized.epoch < s'.finalized.epoch := by
  cases h with
  | finalize c f b h =>
    rcases hv with hv | hv
    · exact hv
    · simp at hv; obtain ⟨rfl, rfl⟩ := hv; exact absurd rfl hne
  | justify c f b h => exact absurd rfl hne

theorem Spec.Run.finalized {s ls s'} (h : Run s ls s') (hv : ValidState s) :
    ValidState s' ∧ s.finalized.epoch ≤ s'.finalized.epoch ∧
      (s'.finalized ≠ s.finalized → s.finalized.epoch < s'.finalized.epoch) := by
  induction h with
  | nil s => exact ⟨hv, Nat.le_refl _, fun h => absurd rfl h⟩
  | @cons s l s₁ ls s₂ h1 _ ih =>
    obtain ⟨i1, i2, i3⟩ := ih (h1.valid hv)
    have := h1.finalized_le hv
    refine ⟨i1, by omega, fun hne => ?_⟩
    by_cases he : s₁.finalized = s.finalized
    · rw [← he] at hne ⊢
      exact i3 hne
    · have := h1.finalized_lt hv he
      omega

theorem Spec.Step.source {s l s'} (h : Step s l s') : l.source = s.currentJustified := by cases h <;> rfl

theorem Spec.Run.sources {s ls s'} (h : Run s ls s') :
    ∀ l ∈ ls, s.currentJustified.epoch ≤ l.source.epoch ∧ l.source.epoch < l.target.epoch := by
  induction h with
  | nil s => intro l hl; cases hl
  | @cons s l s₁ ls s₂ h1 _ ih =>
    have hlt := h1.justified_lt
    intro l' hl'
    rcases List.mem_cons.1 hl' with rfl | hl'
    · have := h1.target
      rw [h1.source]
      exact ⟨Nat.le_refl _, this.2.2⟩
    · have := ih l' hl'
      omega

theorem Spec.Run.nodup {s ls s'} (h : Run s ls s') : ls.Nodup := by
  induction h with
  | nil s => exact List.nodup_nil
  | @cons s l s₁ ls s₂ h1 h2 ih =>
    rw [List.nodup_cons]
    refine ⟨fun hl => ?_, ih⟩
    have := (h2.sources l hl).1
    have hlt := h1.justified_lt
    rw [h1.source] at this
    omega

/-- Of two runs from one state, the one that uses only links of the other is an initial part of it. -/
theorem Spec.Run.prefix_of_subset {s ls s'} (h : Run s ls s') : ∀ {ls₂ s₂}, Run s ls₂ s₂ → ls₂ ⊆ ls →
    ∃ rest, ls = ls₂ ++ rest ∧ Run s₂ rest s' := by
  induction h with
  | nil s =>
    intro ls₂ s₂ h2 hsub
    cases h2 with
    | nil => exact ⟨[], rfl, .nil _⟩
    | cons h3 h4 => exact absurd (hsub (List.mem_cons_self ..)) (by simp)
  | @cons s l s₁ ls s' h1 hr ih =>
    intro ls₂ s₂ h2 hsub
    cases h2 with
    | nil => exact ⟨_, rfl, .cons h1 hr⟩
    | @cons _ l₂ t ls₂ _ h3 h4 =>
      have hl : l₂ = l := by
        rcases List.mem_cons.1 (hsub (List.mem_cons_self ..)) with h | h
        · exact h
        · have := (hr.sources _ h).1
          have hlt := h1.justified_lt
          rw [h3.source] at this
          omega
      subst hl
      have := h1.det h3
      subst this
      obtain ⟨rest, h5, h6⟩ := ih h4 (by
        intro x hx
        rcases List.mem_cons.1 (hsub (List.mem_cons_of_mem _ hx)) with rfl | h
        · have := (h4.sources _ hx).1
          have hlt := h1.justified_lt
          rw [h1.source] at this
          omega
        · exact h)
      exact ⟨rest, by rw [h5]; rfl, h6⟩

theorem hostSearch_ok {spe : Nat} {find walk : StateAnswers} {getBlock : Nat → Res HostError (Option Block)}
    {trusted : Checkpoint} {bound : Nat} {s s' : ConsensusState} {links : List Link} {atts : List Attestation}
    (h : hostSearch spe find walk getBlock trusted bound = some (.ok (s, s', links, atts))) :
    ∃ epoch, findFinalizationEpoch spe find trusted bound = some (.ok epoch) ∧
      justificationsUntilNewFinality spe walk epoch bound = some (.ok (s, s', links)) ∧
      s.finalized = trusted ∧ collectAttestations spe getBlock links = .ok atts := by
  unfold hostSearch at h
  cases h1 : findFinalizationEpoch spe find trusted bound with
  | none => rw [h1] at h; simp at h
  | some r =>
    cases r with
    | panic => rw [h1] at h; simp at h
    | err e => rw [h1] at h; simp at h
    | ok epoch =>
      rw [h1] at h
      simp only at h
      cases h2 : justificationsUntilNewFinality spe walk epoch bound with
      | none => rw [h2] at h; simp at h
      | some r =>
        cases r with
        | panic => rw [h2] at h; simp at h
        | err e => rw [h2] at h; simp at h
        | ok p =>
          obtain ⟨s₀, s₁, ls⟩ := p
          rw [h2] at h
          simp only [Option.some.injEq, Res.bind_eq_ok, Res.pure_eq, Res.ok.injEq, Prod.mk.injEq] at h
          obtain ⟨⟨⟩, h3, as, h4, rfl, rfl, rfl, rfl⟩ := h
          refine ⟨epoch, rfl, h2, ?_, h4⟩
          unfold assert at h3
          split at h3
          · rename_i h5; simpa using h5
          · cases h3

theorem groupBlocks_mem_links {links : List Link} {m : List (Link × List Attestation)} {a : Attestation}
    (hm : ∀ p ∈ m, ∀ a ∈ p.2, linkOf a = p.1) (h : a ∈ assemble links m) : linkOf a ∈ links := by
  have hrem : ∀ (m : List (Link × List Attestation)) (l : Link), (∀ p ∈ m, ∀ a ∈ p.2, linkOf a = p.1) →
      (∀ a ∈ (removeLink m l).1.getD [], linkOf a = l) ∧
      ∀ p ∈ (removeLink m l).2, ∀ a ∈ p.2, linkOf a = p.1 := by
    intro m l
    induction m with
    | nil => intro _; simp [removeLink]
    | cons p m ih =>
      intro hm
      obtain ⟨k, g⟩ := p
      by_cases hk : k = l
      · simp only [removeLink, hk, if_true]
        refine ⟨fun a ha => ?_, fun p hp => hm p (by simp [hp])⟩
        rw [← hk]
        exact hm (k, g) (by simp) a (by simpa using ha)
      · simp only [removeLink, hk, if_false]
        obtain ⟨i1, i2⟩ := ih (fun p hp => hm p (by simp [hp]))
        refine ⟨i1, fun p hp => ?_⟩
        rcases List.mem_cons.1 hp with rfl | hp
        · exact hm (k, g) (by simp)
        · exact i2 p hp
  induction links generalizing m with
  | nil => cases h
  | cons l ls ih =>
    obtain ⟨h1, h2⟩ := hrem m l hm
    simp only [assemble, List.mem_append] at h
    rcases h with h | h
    · rw [h1 a h]; simp
    · exact List.mem_cons_of_mem _ (ih h2 h)

theorem groupBlocks_homogeneous : ∀ (bs : List (Option Block)) (m m' : List (Link × List Attestation)),
    groupBlocks bs m = .ok m' → (∀ p ∈ m, ∀ a ∈ p.2, linkOf a = p.1) → ∀ p ∈ m', ∀ a ∈ p.2, linkOf a = p.1 := by
  have hpush : ∀ (m : List (Link × List Attestation)) (a : Attestation), (∀ p ∈ m, ∀ a ∈ p.2, linkOf a = p.1) →
      ∀ p ∈ pushByLink m (linkOf a) a, ∀ a ∈ p.2, linkOf a = p.1 := by
    intro m a
    induction m with
    | nil => intro _ p hp b hb; simp [pushByLink] at hp; subst hp; simp at hb; subst hb; rfl
    | cons q m ih =>
      intro hm p hp b hb
      obtain ⟨k, g⟩ := q
      unfold pushByLink at hp
      split at hp
      · rename_i hk
        rcases List.mem_cons.1 hp with rfl | hp
        · rcases List.mem_append.1 hb with hb | hb
          · exact hm (k, g) (by simp) b hb
          · simp at hb; subst hb; exact hk.symm
        · exact hm p (by simp [hp]) b hb
      · rcases List.mem_cons.1 hp with rfl | hp
        · exact hm (k, g) (by simp) b hb
        · exact ih (fun p hp => hm p (by simp [hp])) p hp b hb
  have hblock : ∀ (as : List (Option Attestation)) (m m' : List (Link × List Attestation)),
      groupBlock as m = .ok m' → (∀ p ∈ m, ∀ a ∈ p.2, linkOf a = p.1) → ∀ p ∈ m', ∀ a ∈ p.2, linkOf a = p.1 := by
    intro as
    induction as with
    | nil => intro m m' h hm; cases h; exact hm
    | cons o as ih =>
      intro m m' h hm
      cases o with
      | none => cases h
      | some a => exact ih _ _ h (hpush m a hm)
  intro bs
  induction bs with
  | nil => intro m m' h hm; cases h; exact hm
  | cons o bs ih =>
    intro m m' h hm
    cases o with
    | none => exact ih _ _ h hm
    | some b =>
      cases b with
      | other => cases h
      | electra as =>
        simp only [groupBlocks, Res.bind_eq_ok] at h
        obtain ⟨m₁, h1, h2⟩ := h
        exact ih _ _ h2 (hblock _ _ _ h1 hm)

theorem collect_links {spe : Nat} {getBlock : Nat → Res HostError (Option Block)} {links : List Link}
    {atts : List Attestation} (h : collectAttestations spe getBlock links = .ok atts) :
    ∀ a ∈ atts, linkOf a ∈ links := by
  unfold collectAttestations at h
  split at h
  · cases h; intro a ha; cases ha
  · simp only [Res.bind_eq_ok, Res.pure_eq, Res.ok.injEq] at h
    obtain ⟨mn, -, mx, -, blocks, -, m, h4, rfl⟩ := h
    intro a ha
    exact groupBlocks_mem_links (groupBlocks_homogeneous _ _ _ h4 (by intro p hp; cases hp)) ha

/-- **C58.** If the preflight of `verify` on what the host has found succeeds, then it ends in the state in which
the chain ends, and it has used all links that the host has found. The search and the walk may see different
views of the chain. -/
theorem C58_reaches_next (X : Ext) (cfg : Config) (R : Reader) (spe : Nat) (find walk : StateAnswers)
    (getBlock : Nat → Res HostError (Option Block)) (trusted : Checkpoint) (bound : Nat)
    (s s' post : ConsensusState) (links : List Link) (atts : List Attestation) (slot : Nat)
    (hu : ∀ slot t, walk slot = .ok t → t.currentJustified.epoch < 2 ^ 64)
    (h : hostSearch spe find walk getBlock trusted bound = some (.ok (s, s', links, atts)))
    (hs : R.consensusState = .ok s) (ha : R.attestations = .ok atts)
    (hv : verify X cfg R = .ok (post, slot)) :
    s.finalized = trusted ∧ post = s' ∧ Blocks atts links ∧ Run s links s' := by
  obtain ⟨epoch, -, h2, h3, h4⟩ := hostSearch_ok h
  obtain ⟨-, h6, -, ⟨before, l, t, rfl, h9, h10, h11⟩, -⟩ := C43_links_replay _ _ _ _ _ _ _ hu h2
  obtain ⟨pre, atts', links', k1, k2, k3, k4, k5, -, -⟩ := C09_exactly_one_finalization X cfg R post slot hv
  rw [hs] at k1; cases k1
  rw [ha] at k2; cases k2
  have hrun := applyLinks_run h6
  have hsub : links' ⊆ before ++ [l] := by
    intro x hx
    obtain ⟨a, ha, hax⟩ := k3.nonempty x hx
    rw [← hax]
    exact collect_links h4 a ha
  obtain ⟨rest, h12, h13⟩ := hrun.prefix_of_subset k4 hsub
  have hrest : rest = [] := by
    rcases List.eq_nil_or_concat rest with h | ⟨rest', l', hr⟩
    · exact h
    · exfalso
      rw [List.concat_eq_append] at hr
      subst hr
      rw [← List.append_assoc] at h12
      obtain ⟨h12, -⟩ := List.append_inj' h12 rfl
      subst h12
      have hrb := applyLinks_run h9
      have hvs : ValidState s := by
        cases hb : links' ++ rest' with
        | nil =>
          rw [hb] at h9
          cases h9
          exact ((stateTransition_ok_iff _ _ _).1 h11).1
        | cons x xs =>
          rw [hb] at h9
          simp only [applyLinks, Res.bind_eq_ok] at h9
          obtain ⟨_, h9, -⟩ := h9
          exact ((stateTransition_ok_iff _ _ _).1 h9).1
      obtain ⟨rest'', h14, h15⟩ := hrb.prefix_of_subset k4 (by intro x hx; simp [hx])
      have e1 := (k4.finalized hvs)
      have e2 := (h15.finalized e1.1).2.1
      have := e1.2.2 k5
      rw [h10] at e2
      omega
  subst hrest
  rw [List.append_nil] at h12
  cases h13
  rw [h12] at hrun ⊢
  exact ⟨h3, rfl, k3, hrun⟩

/-- What a round of the input builder ends with. -/
theorem prepareInput_ok {X : Ext} {cfg : Config} {spe : Nat} {ask : StateAnswers}
    {getBlock : Nat → Res HostError (Option Block)} {boundaryRoot : Nat → Option Root} {reader : Checkpoint → Reader}
    {epoch bound : Nat} {pre post : ConsensusState} {slot : Nat}
    (h : prepareInput X cfg spe ask getBlock boundaryRoot reader epoch bound = some (.ok (pre, post, slot))) :
    ∃ root next links atts, hostSearch spe ask ask getBlock ⟨epoch, root⟩ bound = some (.ok (pre, next, links, atts)) ∧
      verify X cfg { reader ⟨epoch, root⟩ with consensusState := .ok pre, attestations := .ok atts } =
        .ok (post, slot) := by
  unfold prepareInput at h
  cases h0 : boundaryRoot epoch with
  | none => rw [h0] at h; simp at h
  | some root =>
    rw [h0] at h
    simp only at h
    cases h1 : hostSearch spe ask ask getBlock ⟨epoch, root⟩ bound with
    | none => rw [h1] at h; simp at h
    | some r =>
      cases r with
      | panic => rw [h1] at h; simp at h
      | err e => rw [h1] at h; simp at h
      | ok p =>
        obtain ⟨s, next, links, atts⟩ := p
        rw [h1] at h
        simp only at h
        cases h2 : verify X cfg { reader ⟨epoch, root⟩ with consensusState := .ok s, attestations := .ok atts } with
        | panic => rw [h2] at h; simp at h
        | err e => rw [h2] at h; simp at h
        | ok q =>
          obtain ⟨post', slot'⟩ := q
          rw [h2] at h
          simp only [Option.some.injEq, Res.ok.injEq, Prod.mk.injEq] at h
          obtain ⟨rfl, rfl, rfl⟩ := h
          exact ⟨root, next, links, atts, h1, h2⟩

/-- **C58.** A round that starts from the epoch that the round before has finalized starts from the state in which
that round has ended. The chain must not change between the rounds, and the state at the start of an epoch finalizes
an earlier epoch. -/
theorem C58_next_round (X : Ext) (cfg : Config) (spe : Nat) (ask : StateAnswers)
    (getBlock : Nat → Res HostError (Option Block)) (boundaryRoot : Nat → Option Root) (reader : Checkpoint → Reader)
    (bound epoch : Nat) (pre post pre' post' : ConsensusState) (slot slot' : Nat)
    (hu : ∀ slot t, ask slot = .ok t → t.currentJustified.epoch < 2 ^ 64)
    (hpast : ∀ e s, 0 < e → ChainAt spe ask e s → s.finalized.epoch < e)
    (h : prepareInput X cfg spe ask getBlock boundaryRoot reader epoch bound = some (.ok (pre, post, slot)))
    (h' : prepareInput X cfg spe ask getBlock boundaryRoot reader post.finalized.epoch bound =
      some (.ok (pre', post', slot'))) : pre' = post ∧ pre.finalized.epoch = epoch := by
  obtain ⟨root, next, links, atts, h1, h2⟩ := prepareInput_ok h
  obtain ⟨root', next', links', atts', h1', h2'⟩ := prepareInput_ok h'
  obtain ⟨hfin, hpost, hblk, hrun⟩ := C58_reaches_next X cfg _ spe ask ask getBlock _ bound pre next post links atts slot
    hu h1 rfl rfl h2
  subst hpost
  obtain ⟨e0, f1, f2, -, -⟩ := hostSearch_ok h1
  obtain ⟨e0', f1', f2', -, -⟩ := hostSearch_ok h1'
  obtain ⟨j1, j2, j3, ⟨before, l, t, j4, j5, j6, j7⟩, e1, j8, j9, j10, j11⟩ := C43_links_replay _ _ _ _ _ _ _ hu f2
  obtain ⟨j1', -⟩ := C43_links_replay _ _ _ _ _ _ _ hu f2'
  rw [C56_finalization_search] at f1 f1'
  obtain ⟨g1, g2, ⟨s0, g3, g4⟩, g5⟩ := f1
  obtain ⟨g1', g2', ⟨s0', g3', g4'⟩, g5'⟩ := f1'
  have hvs : ValidState pre := by
    rw [j4] at j2
    cases hb : before with
    | nil =>
      rw [hb] at j5
      cases j5
      exact ((stateTransition_ok_iff _ _ _).1 j7).1
    | cons x xs =>
      rw [hb] at j5
      simp only [applyLinks, Res.bind_eq_ok] at j5
      obtain ⟨_, j5, -⟩ := j5
      exact ((stateTransition_ok_iff _ _ _).1 j5).1
  have hlt := (hrun.finalized hvs).2.2 j3
  have hpe : pre.finalized.epoch = epoch := by rw [hfin]
  simp only at g1 g5 g1' g5' g4'
  have hpost := hpast e1 post (by omega) j10
  -- the search does not go past the end of the last round
  have hle : e0' ≤ e1 := by
    rcases Nat.lt_or_ge e1 e0' with hlt' | hge
    · obtain ⟨u, hu1, hu2⟩ := g5' e1 hpost hlt'
      unfold ChainAt at hu1 j10
      rw [j10] at hu1
      cases hu1
      omega
    · exact hge
  -- and it does not stop before
  have hge : e1 ≤ e0' := by
    rcases Nat.lt_or_ge e0' e1 with hlt' | hge
    · exfalso
      rcases Nat.lt_or_ge e0' e0 with hlt0 | hge0
      · obtain ⟨u, hu1, hu2⟩ := g5 e0' (by omega) hlt0
        unfold ChainAt at hu1 g3'
        rw [g3'] at hu1
        cases hu1
        rw [g4'] at hu2
        simp only at hu2
        omega
      · obtain ⟨u, hu1, hu2⟩ := j11 e0' hge0 hlt'
        unfold ChainAt at hu1 g3'
        rw [g3'] at hu1
        cases hu1
        rw [hu2] at g4'
        have := congrArg Checkpoint.epoch g4'
        simp only at this
        omega
    · exact hge
  have he : e0' = e1 := by omega
  subst he
  unfold ChainAt at j1' j10
  rw [j10] at j1'
  cases j1'
  exact ⟨rfl, hpe⟩

/-- **C58.** The journals of the input builder in continuous mode chain: the first one starts from a state that
finalizes the requested epoch, and each one starts from the state in which the one before ends. -/
theorem C58_continuous (X : Ext) (cfg : Config) (spe : Nat) (ask : StateAnswers)
    (getBlock : Nat → Res HostError (Option Block)) (boundaryRoot : Nat → Option Root) (reader : Checkpoint → Reader)
    (bound : Nat) (hu : ∀ slot t, ask slot = .ok t → t.currentJustified.epoch < 2 ^ 64)
    (hpast : ∀ e s, 0 < e → ChainAt spe ask e s → s.finalized.epoch < e) (rounds epoch : Nat) :
    (∀ j ∈ (buildInputs X cfg spe ask getBlock boundaryRoot reader bound rounds epoch).head?,
      j.1.finalized.epoch = epoch) ∧
    (buildInputs X cfg spe ask getBlock boundaryRoot reader bound rounds epoch).IsChain
      (fun j j' => j'.1 = j.2.1) := by
  induction rounds generalizing epoch with
  | zero => exact ⟨by simp [buildInputs], by simp [buildInputs]⟩
  | succ n ih =>
    unfold buildInputs
    split
    · rename_i pre post slot h
      obtain ⟨-, i2⟩ := ih post.finalized.epoch
      obtain ⟨root, next, links, atts, h1, h2⟩ := prepareInput_ok h
      obtain ⟨e0, f1, f2, f3, f4⟩ := hostSearch_ok h1
      refine ⟨by simp [f3], ?_⟩
      cases n with
      | zero => simp [buildInputs]
      | succ m =>
        unfold buildInputs at i2 ⊢
        split
        · rename_i pre' post' slot' h'
          rw [h'] at i2
          refine List.isChain_cons_cons.2 ⟨?_, i2⟩
          exact (C58_next_round X cfg spe ask getBlock boundaryRoot reader bound epoch pre post pre' post' slot slot'
            hu hpast h h').1
        · simp
    · simp

/-! ## A concrete chain

Four slots per epoch. Epoch 3 is finalized at the start of epoch 5, epoch 6 (after the link 4 → 6) at the start
of epoch 8 and epoch 9 (after the link 7 → 9) at the start of epoch 11. -/

def hxC (n : UInt8) : Checkpoint := ⟨n.toNat, exRoot32 n⟩

def hxAsk : StateAnswers := fun slot =>
  if slot < 12 then .err .node
  else if slot < 20 then .ok ⟨hxC 3, hxC 2⟩
  else if slot < 28 then .ok ⟨hxC 4, hxC 3⟩
  else if slot < 32 then .ok ⟨hxC 6, hxC 3⟩
  else if slot < 40 then .ok ⟨hxC 7, hxC 6⟩
  else if slot < 44 then .ok ⟨hxC 9, hxC 6⟩
  else if slot < 48 then .ok ⟨hxC 10, hxC 9⟩
  else .err .node

/-- The votes for a target epoch. -/
def hxVotes (source target : UInt8) : List Attestation :=
  [exVote (4 * target.toNat) (hxC source) (hxC target) [0, 1],
   exVote (4 * target.toNat + 1) (hxC source) (hxC target) [2, 3, 4],
   exVote (4 * target.toNat + 2) (hxC source) (hxC target) [5, 6],
   exVote (4 * target.toNat + 3) (hxC source) (hxC target) [7, 8, 9]]

/-- Blocks: the votes come in two blocks, the second one mixed with votes for another target. -/
def hxBlocks : Nat → Res HostError (Option Block) := fun slot =>
  .ok (if slot = 26 then some (.electra (((hxVotes 4 6).take 2).map some))
    else if slot = 28 then some (.electra ((hxVotes 6 7).take 1 ++ (hxVotes 4 6).drop 2 ++ [exVote 28 (hxC 4) (hxC 7) [0]] |>.map some))
    else if slot = 32 then some (.electra (((hxVotes 6 7).drop 1).map some))
    else if slot = 40 then some (.electra ((hxVotes 7 9).map some))
    else if slot = 44 then some (.electra ((hxVotes 9 10).map some))
    else none)

set_option maxRecDepth 100000 in
theorem hxSearch : hostSearch 4 hxAsk hxAsk hxBlocks (hxC 3) 9 =
    some (.ok (⟨hxC 4, hxC 3⟩, ⟨hxC 7, hxC 6⟩, [⟨hxC 4, hxC 6⟩, ⟨hxC 6, hxC 7⟩], hxVotes 4 6 ++ hxVotes 6 7)) := by
  decide +kernel

set_option maxRecDepth 100000 in
/-- Two rounds of the input builder. -/
theorem hxRounds : (buildInputs exExt Config.default 4 hxAsk hxBlocks (fun e => some (exRoot32 (UInt8.ofNat e)))
    (fun _ => { exReader with slotForBlock := fun _ => .ok 24 }) 9 5 3).map (fun j => (j.1, j.2.1)) =
      [(⟨hxC 4, hxC 3⟩, ⟨hxC 7, hxC 6⟩), (⟨hxC 7, hxC 6⟩, ⟨hxC 10, hxC 9⟩)] := by
  decide +kernel

example : ∀ slot t, hxAsk slot = .ok t → t.currentJustified.epoch < 2 ^ 64 := by
  intro slot t h
  unfold hxAsk at h
  repeat' split at h
  all_goals first
    | cases h; decide
    | cases h

example : ∀ e s, 0 < e → ChainAt 4 hxAsk e s → s.finalized.epoch < e := by
  intro e s _ h
  unfold ChainAt hxAsk at h
  repeat' split at h
  all_goals first
    | cases h; simp only [hxC]; simp only [Nat.reducePow, UInt8.reduceToNat] at *; omega
    | cases h

/-- The search for a checkpoint that is not the finalized one of its epoch fails. -/
example : findFinalizationEpoch 4 hxAsk ⟨5, exRoot32 5⟩ 9 = some (.err .invalidTrustedCheckpoint) := by
  decide +kernel

end Signal
