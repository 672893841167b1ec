import Verif.Spec.Slashing
import Verif.Spec.Chain
import Verif.Props.Depth
import Verif.Proofs.ExampleChain

/-!
# Properties C41, C42: accountable safety and chaining

Specifications: `Verif/Spec/Slashing.lean`, `Verif/Spec/EndToEnd.lean`, `Verif/Spec/Consensus.lean`.
-/

namespace Signal
open Spec

/-! ## Chains of links -/

theorem Spec.Run.finalized_link {s ls s'} (h : Run s ls s') : s'.finalized = s.finalized ∨
    ∃ b, (⟨s'.finalized, b⟩ : Link) ∈ ls ∧ b.epoch = s'.finalized.epoch + 1 := by
  induction h with
  | nil => exact Or.inl rfl
  | @cons s l s1 ls s2 h1 _ ih =>
    rcases ih with ih | ⟨b, hb, he⟩
    · cases h1 with
      | finalize c f b h => exact Or.inr ⟨b, by rw [ih]; simp, by rw [ih]; exact h⟩
      | justify c f b h => exact Or.inl ih
    · exact Or.inr ⟨b, List.mem_cons_of_mem _ hb, he⟩

theorem Spec.Run.source_mem {s ls s'} (h : Run s ls s') : ∀ l ∈ ls,
    (l.source = s.currentJustified ∨ ∃ k ∈ ls, k.target = l.source) ∧ l.source.epoch < l.target.epoch ∧
      l.target.epoch ≤ s'.currentJustified.epoch := by
  induction h with
  | nil => simp
  | @cons s k s1 ls s2 h1 h2 ih =>
    intro l hl
    have ht : k.source = s.currentJustified ∧ k.target = s1.currentJustified ∧
        k.source.epoch < k.target.epoch := by
      cases h1 with
      | finalize c f b h => exact ⟨rfl, rfl, by simp only; omega⟩
      | justify c f b h => exact ⟨rfl, rfl, by simp only; omega⟩
    rcases List.mem_cons.1 hl with rfl | hl
    · exact ⟨Or.inl ht.1, ht.2.2, by rw [ht.2.1]; exact h2.justified_le⟩
    · obtain ⟨h3, h4, h5⟩ := ih l hl
      refine ⟨Or.inr ?_, h4, h5⟩
      rcases h3 with h3 | ⟨k', hk', h3⟩
      · exact ⟨k, by simp, by rw [ht.2.1, h3]⟩
      · exact ⟨k', by simp [hk'], h3⟩

/-- Some link crosses every epoch between the first and the last justified one. -/
theorem Spec.Run.crossing {s ls s'} (h : Run s ls s') : ∀ e, s.currentJustified.epoch ≤ e →
    e < s'.currentJustified.epoch → ∃ l ∈ ls, l.source.epoch ≤ e ∧ e < l.target.epoch := by
  induction h with
  | nil => intro e h1 h2; omega
  | @cons s k s1 ls s2 h1 _ ih =>
    intro e he hlt
    have ht : k.source = s.currentJustified ∧ k.target = s1.currentJustified := by
      cases h1 <;> exact ⟨rfl, rfl⟩
    by_cases hc : e < s1.currentJustified.epoch
    · exact ⟨k, by simp, by rw [ht.1]; exact he, by rw [ht.2]; exact hc⟩
    · obtain ⟨l, hl, h3⟩ := ih e (by omega) hlt
      exact ⟨l, List.mem_cons_of_mem _ hl, h3⟩

/-- Along a run every justified checkpoint descends from the earlier ones. -/
theorem Spec.Run.ancestor {s ls s'} (h : Run s ls s') {anc : Checkpoint → Checkpoint → Prop}
    (hrefl : ∀ c, anc c c) (htrans : ∀ a b c, anc a b → anc b c → anc a c)
    (hl : ∀ l ∈ ls, anc l.source l.target) :
    (∀ k ∈ ls, anc s.currentJustified k.source) ∧
      ∀ l ∈ ls, ∀ k ∈ ls, l.target.epoch ≤ k.source.epoch → anc l.target k.source := by
  have key : ∀ {s ls s'}, Run s ls s' → (∀ l ∈ ls, anc l.source l.target) →
      ∀ k ∈ ls, anc s.currentJustified k.source := by
    intro s ls s' h
    induction h with
    | nil => simp
    | @cons s k s1 ls s2 h1 _ ih =>
      intro hl l hmem
      have ht : k.source = s.currentJustified ∧ k.target = s1.currentJustified := by
        cases h1 <;> exact ⟨rfl, rfl⟩
      rcases List.mem_cons.1 hmem with rfl | hmem
      · rw [ht.1]; exact hrefl _
      · have := ih (fun x hx => hl x (by simp [hx])) l hmem
        refine htrans _ _ _ ?_ this
        rw [← ht.1, ← ht.2]; exact hl k (by simp)
  refine ⟨key h hl, ?_⟩
  induction h with
  | nil => simp
  | @cons s k s1 ls s2 h1 h2 ih =>
    have ht : k.source = s.currentJustified ∧ k.target = s1.currentJustified := by
      cases h1 <;> exact ⟨rfl, rfl⟩
    have i2 := ih (fun x hx => hl x (by simp [hx]))
    intro l hlm k' hk' hle
    rcases List.mem_cons.1 hlm with rfl | hlm'
    · rcases List.mem_cons.1 hk' with rfl | hk'
      · have := h1.target.2
        rw [this.1] at hle; omega
      · rw [ht.2]; exact key h2 (fun x hx => hl x (by simp [hx])) k' hk'
    · rcases List.mem_cons.1 hk' with rfl | hk'
      · have h3 := h2.targets_lt.1 l hlm'
        have h4 := h1.target
        rw [h4.1] at h3; rw [h4.2.1] at hle; omega
      · exact i2 l hlm' k' hk' hle

/-- Two runs from the same state that finalize `c` and, no earlier, `d`: either `c` is a justified checkpoint
of the second run, or the runs contain a slashable pair of links. -/
theorem slashable_pair {s ls s' ls' s''} (h : Run s ls s') (h' : Run s ls' s'')
    (hf : s'.finalized ≠ s.finalized) (hf' : s''.finalized ≠ s.finalized)
    (hle : s'.finalized.epoch ≤ s''.finalized.epoch) :
    (s'.finalized = s.currentJustified ∨ ∃ l ∈ ls', l.target = s'.finalized) ∨
      ∃ l ∈ ls, ∃ l' ∈ ls', Slashable l l' := by
  obtain ⟨b, hb, he⟩ := (h.finalized_link).resolve_left hf
  obtain ⟨b', hb', he'⟩ := (h'.finalized_link).resolve_left hf'
  have hcb := h.source_mem _ hb
  have hcb' := h'.source_mem _ hb'
  simp only at hcb hcb'
  by_cases hin : s'.finalized = s.currentJustified ∨ ∃ l ∈ ls', l.target = s'.finalized
  · exact Or.inl hin
  right
  rw [not_or] at hin
  obtain ⟨hn1, hn2⟩ := hin
  obtain ⟨k, hk, hkt⟩ := hcb.1.resolve_left hn1
  have hgt : s.currentJustified.epoch < s'.finalized.epoch := by
    have := h.targets_lt.1 k hk
    rw [hkt] at this; exact this
  obtain ⟨l, hl, h1, h2⟩ := h'.crossing s'.finalized.epoch (by omega) (by omega)
  by_cases heq : l.source.epoch = s'.finalized.epoch
  · rcases (h'.source_mem l hl).1 with hs | ⟨k', hk', hs⟩
    · rw [hs] at heq; omega
    · refine ⟨k, hk, k', hk', Or.inl ⟨?_, by rw [hkt, hs, heq]⟩⟩
      rintro rfl
      exact hn2 ⟨k, hk', hkt⟩
  · by_cases ht : l.target.epoch = b.epoch
    · refine ⟨_, hb, l, hl, Or.inl ⟨?_, ht.symm⟩⟩
      rintro rfl
      exact heq rfl
    · exact ⟨_, hb, l, hl, Or.inr (Or.inr ⟨by simp only; omega, by simp only; omega⟩)⟩

theorem Spec.Slashable.symm {a b : Link} (h : Slashable a b) : Slashable b a := by
  rcases h with ⟨h1, h2⟩ | h | h
  · exact Or.inl ⟨Ne.symm h1, h2.symm⟩
  · exact Or.inr (Or.inr h)
  · exact Or.inr (Or.inl h)

/-- Two runs from the same state that finalize checkpoints of which neither is an ancestor of the other
contain a slashable pair of links. -/
theorem conflict_slashable {s ls s' ls' s''} (h : Run s ls s') (h' : Run s ls' s'')
    (hf : s'.finalized ≠ s.finalized) (hf' : s''.finalized ≠ s.finalized)
    {anc : Checkpoint → Checkpoint → Prop} (hrefl : ∀ c, anc c c)
    (htrans : ∀ a b c, anc a b → anc b c → anc a c) (hl : ∀ l ∈ ls, anc l.source l.target)
    (hl' : ∀ l ∈ ls', anc l.source l.target) (hn : ¬ anc s'.finalized s''.finalized)
    (hn' : ¬ anc s''.finalized s'.finalized) : ∃ l ∈ ls, ∃ l' ∈ ls', Slashable l l' := by
  have key : ∀ {ls s' ls' s''}, Run s ls s' → Run s ls' s'' → s'.finalized ≠ s.finalized →
      s''.finalized ≠ s.finalized → (∀ l ∈ ls', anc l.source l.target) →
      s'.finalized.epoch ≤ s''.finalized.epoch → ¬ anc s'.finalized s''.finalized →
      ∃ l ∈ ls, ∃ l' ∈ ls', Slashable l l' := by
    intro ls s' ls' s'' h h' hf hf' hl' hle hn
    obtain ⟨b', hb', he'⟩ := (h'.finalized_link).resolve_left hf'
    rcases slashable_pair h h' hf hf' hle with h1 | h1
    · exfalso
      obtain ⟨a1, a2⟩ := h'.ancestor hrefl htrans hl'
      rcases h1 with h1 | ⟨l, hlm, h1⟩
      · exact hn (h1 ▸ a1 _ hb')
      · exact hn (h1 ▸ a2 l hlm _ hb' (by rw [h1]; exact hle))
    · exact h1
  rcases Nat.le_total s'.finalized.epoch s''.finalized.epoch with hle | hle
  · exact key h h' hf hf' hl' hle hn
  · obtain ⟨l, h1, l', h2, h3⟩ := key h' h hf' hf hl hle hn'
    exact ⟨l', h2, l, h1, h3.symm⟩

/-! ## Weights -/

theorem sum_filter_add (f : Nat → Nat) (p : Nat → Bool) (l : List Nat) :
    (l.map f).sum = ((l.filter p).map f).sum + ((l.filter (fun i => !p i)).map f).sum := by
  induction l with
  | nil => rfl
  | cons a l ih =>
    simp only [List.map_cons, List.sum_cons, List.filter_cons]
    cases p a <;> simp <;> omega

theorem sum_le_of_subset (f : Nat → Nat) : ∀ (l m : List Nat), l.Nodup → (∀ i ∈ l, i ∈ m) →
    (l.map f).sum ≤ (m.map f).sum := by
  intro l
  induction l with
  | nil => intro m _ _; simp
  | cons a l ih =>
    intro m hd hs
    rw [List.nodup_cons] at hd
    have hm := List.perm_cons_erase (hs a (by simp))
    have h1 : (m.map f).sum = f a + ((m.erase a).map f).sum := by
      rw [(hm.map f).sum_nat]; simp
    have h2 := ih (m.erase a) hd.2 (by
      intro i hi
      have : i ≠ a := by rintro rfl; exact hd.1 hi
      exact (List.mem_erase_of_ne this).2 (hs i (by simp [hi])))
    simp only [List.map_cons, List.sum_cons]
    omega

/-- Two sets of voters overlap in at least the excess of their weights over the weight of everything. -/
theorem overlap (f : Nat → Nat) (v v' all : List Nat) (hv : v.Nodup) (hv' : v'.Nodup)
    (hs : ∀ i ∈ v, i ∈ all) (hs' : ∀ i ∈ v', i ∈ all) :
    (v.map f).sum + (v'.map f).sum ≤
      ((v.filter (fun i => decide (i ∈ v'))).map f).sum + (all.map f).sum := by
  rw [sum_filter_add f (fun i => decide (i ∈ v')) v]
  have hd : ((v.filter (fun i => !decide (i ∈ v'))) ++ v').Nodup := by
    rw [List.nodup_append]
    refine ⟨hv.filter _, hv', ?_⟩
    rintro a ha b hb rfl
    simp only [List.mem_filter, Bool.not_eq_true', decide_eq_false_iff_not] at ha
    exact ha.2 hb
  have := sum_le_of_subset f _ all hd (by
    intro i hi
    rcases List.mem_append.1 hi with hi | hi
    · exact hs i (List.mem_filter.1 hi).1
    · exact hs' i hi)
  rw [List.map_append, List.sum_append] at this
  omega

/-- The real two-thirds, once the active balance is above the floor of one increment. -/
theorem unfloored {spec : ChainSpec} {T V : Nat} (hT : 3 * spec.effectiveBalanceIncrement < 2 * T)
    (h : 2 * floored spec T ≤ 3 * floored spec V) : 2 * T ≤ 3 * V := by
  unfold floored at h
  omega

/-! ## C41 -/

theorem totalWeight_eq {m : OMap ValidatorInfo} (hs : m.Sorted) : totalWeight m = weight m m.keys := by
  unfold totalWeight weight OMap.keys
  rw [List.map_map]
  congr 1
  apply List.map_congr_left
  rintro ⟨i, v⟩ hm
  simp [balance, OMap.mem_get? hs hm]

/-- What one accepted run says about each of its links, in terms of the active sets it counts with. -/
theorem link_voters (X : Ext) (cfg : Config) (R : Reader) (post : ConsensusState) (slot : Nat)
    (h : verify X cfg R = .ok (post, slot)) (active : Nat → List Nat) (bal : Nat → Nat)
    (hreg : CountsWith R active bal) (atts : List Attestation) (hatts : R.attestations = .ok atts) (link : Link)
    (hlink : ∃ a ∈ atts, linkOf a = link)
    (hbig : 3 * R.spec.effectiveBalanceIncrement < 2 * sumOf bal (active link.target.epoch)) :
    ∃ voters : List Nat, voters.Nodup ∧
      (∀ i ∈ voters, i ∈ active link.target.epoch ∧ Signed X R atts link i) ∧
      2 * sumOf bal (active link.target.epoch) ≤ 3 * sumOf bal voters := by
  obtain ⟨a, ha, rfl⟩ := hlink
  obtain ⟨l, voters, h1, h2, h3, h4⟩ := C13_two_thirds_partial X cfg R post slot h atts hatts a ha
  obtain ⟨hk, hb⟩ := hreg _ _ h1
  have hm : ∀ i ∈ voters, i ∈ active (linkOf a).target.epoch := by
    intro i hi
    obtain ⟨⟨v, hv, -⟩, -⟩ := h3 i hi
    change i ∈ active a.data.target.epoch
    rw [← hk]
    exact OMap.mem_keys_iff.2 ⟨v, hv⟩
  have e1 : totalWeight (OMap.ofList l) = sumOf bal (active (linkOf a).target.epoch) := by
    rw [totalWeight_eq (OMap.sorted_ofList l), hk]
    unfold weight sumOf
    congr 1
    exact List.map_congr_left hb
  have e2 : weight (OMap.ofList l) voters = sumOf bal voters := by
    unfold weight sumOf
    congr 1
    exact List.map_congr_left (fun i hi => hb i (hm i hi))
  refine ⟨voters, h2, ?_, ?_⟩
  · intro i hi
    obtain ⟨-, b, hb1, hb2, s, hs1, hs2⟩ := h3 i hi
    exact ⟨hm i hi, l, h1, b, hb1, hb2, s, hs1, hs2⟩
  · rw [e1, e2] at h4
    exact unfloored hbig h4

/-- **C41.** If two accepted runs from the same pre-state, counting with the same balances, finalize checkpoints of
which neither is an ancestor of the other, then there are two links, voted for in the one and in the other input,
which form a slashable pair, and a set of validators who signed votes for both, of at least the weight
`2/3 W + 2/3 W' - U`, where `W`, `W'` are the active balances that the runs count at the two target epochs, and `U`
is the balance of the validators in either active set. Missing: balances are floored at one increment by the
code, so the statement is for active balances of more than one and a half increments; `C41_fails_below_floor` shows that it is false
without such a bound. -/
theorem C41_runs_partial (X : Ext) (cfg cfg' : Config) (R R' : Reader) (post post' : ConsensusState)
    (slot slot' : Nat) (h : verify X cfg R = .ok (post, slot)) (h' : verify X cfg' R' = .ok (post', slot'))
    (hpre : R.consensusState = R'.consensusState) (active active' : Nat → List Nat) (bal : Nat → Nat)
    (hreg : CountsWith R active bal) (hreg' : CountsWith R' active' bal) (atts atts' : List Attestation)
    (hatts : R.attestations = .ok atts) (hatts' : R'.attestations = .ok atts')
    (hbig : ∀ a ∈ atts, 3 * R.spec.effectiveBalanceIncrement < 2 * sumOf bal (active a.data.target.epoch))
    (hbig' : ∀ a ∈ atts', 3 * R'.spec.effectiveBalanceIncrement < 2 * sumOf bal (active' a.data.target.epoch))
    (anc : Checkpoint → Checkpoint → Prop) (hanc : Ancestry anc (atts ++ atts'))
    (hconf : ¬ anc post.finalized post'.finalized) (hconf' : ¬ anc post'.finalized post.finalized) :
    ∃ link link' : Link, (∃ a ∈ atts, linkOf a = link) ∧ (∃ a ∈ atts', linkOf a = link') ∧
      Slashable link link' ∧ ∃ offenders : List Nat, offenders.Nodup ∧
      (∀ i ∈ offenders, Signed X R atts link i ∧ Signed X R' atts' link' i) ∧
      2 * sumOf bal (active link.target.epoch) + 2 * sumOf bal (active' link'.target.epoch) ≤
        3 * sumOf bal offenders + 3 * sumOf bal (union (active link.target.epoch) (active' link'.target.epoch)) := by
  obtain ⟨pre, at1, links, p1, p2, hb, hrun, hf, -⟩ := C09_exactly_one_finalization X cfg R post slot h
  obtain ⟨pre', at2, links', p1', p2', hb', hrun', hf', -⟩ := C09_exactly_one_finalization X cfg' R' post' slot' h'
  obtain rfl : pre = pre' := by rw [hpre, p1'] at p1; exact (Res.ok.inj p1).symm
  obtain rfl : at1 = atts := by rw [hatts] at p2; exact (Res.ok.inj p2).symm
  obtain rfl : at2 = atts' := by rw [hatts'] at p2'; exact (Res.ok.inj p2').symm
  obtain ⟨l, hl, l', hl', hsl⟩ := conflict_slashable hrun hrun' hf hf' hanc.refl hanc.trans
    (by
      intro l hl
      obtain ⟨a, ha, rfl⟩ := hb.nonempty l hl
      exact hanc.votes a (List.mem_append_left _ ha))
    (by
      intro l hl
      obtain ⟨a, ha, rfl⟩ := hb'.nonempty l hl
      exact hanc.votes a (List.mem_append_right _ ha)) hconf hconf'
  have hla := hb.nonempty l hl
  have hla' := hb'.nonempty l' hl'
  obtain ⟨v, n1, m1, w1⟩ := link_voters X cfg R post slot h active bal hreg _ hatts l hla (by
    obtain ⟨a, ha, rfl⟩ := hla
    exact hbig a ha)
  obtain ⟨v', n2, m2, w2⟩ := link_voters X cfg' R' post' slot' h' active' bal hreg' _ hatts' l' hla' (by
    obtain ⟨a, ha, rfl⟩ := hla'
    exact hbig' a ha)
  refine ⟨l, l', hla, hla', hsl, v.filter (fun i => decide (i ∈ v')), n1.filter _, ?_, ?_⟩
  · intro i hi
    simp only [List.mem_filter, decide_eq_true_eq] at hi
    exact ⟨(m1 i hi.1).2, (m2 i hi.2).2⟩
  · have := overlap bal v v' (union (active l.target.epoch) (active' l'.target.epoch)) n1 n2
      (by intro i hi; exact List.mem_append_left _ (m1 i hi).1)
      (by
        intro i hi
        have hia := (m2 i hi).1
        by_cases h : i ∈ active l.target.epoch
        · exact List.mem_append_left _ h
        · exact List.mem_append_right _ (List.mem_filter.2 ⟨hia, by simpa using h⟩))
    simp only [sumOf] at *
    omega

/-- **C41** when the same validators are active at all target epochs: the offenders hold at least a third of the
active balance. -/
theorem C41_runs_one_third_partial (X : Ext) (cfg cfg' : Config) (R R' : Reader) (post post' : ConsensusState)
    (slot slot' : Nat) (h : verify X cfg R = .ok (post, slot)) (h' : verify X cfg' R' = .ok (post', slot'))
    (hpre : R.consensusState = R'.consensusState) (active active' : Nat → List Nat) (bal : Nat → Nat)
    (hreg : CountsWith R active bal) (hreg' : CountsWith R' active' bal) (atts atts' : List Attestation)
    (hatts : R.attestations = .ok atts) (hatts' : R'.attestations = .ok atts') (set : List Nat)
    (hsame : ∀ a ∈ atts, active a.data.target.epoch = set)
    (hsame' : ∀ a ∈ atts', active' a.data.target.epoch = set)
    (hbig : 3 * R.spec.effectiveBalanceIncrement < 2 * sumOf bal set)
    (hbig' : 3 * R'.spec.effectiveBalanceIncrement < 2 * sumOf bal set)
    (anc : Checkpoint → Checkpoint → Prop) (hanc : Ancestry anc (atts ++ atts'))
    (hconf : ¬ anc post.finalized post'.finalized) (hconf' : ¬ anc post'.finalized post.finalized) :
    ∃ link link' : Link, (∃ a ∈ atts, linkOf a = link) ∧ (∃ a ∈ atts', linkOf a = link') ∧
      Slashable link link' ∧ ∃ offenders : List Nat, offenders.Nodup ∧
      (∀ i ∈ offenders, Signed X R atts link i ∧ Signed X R' atts' link' i) ∧
      sumOf bal set ≤ 3 * sumOf bal offenders := by
  obtain ⟨l, l', ⟨a, ha, h1⟩, ⟨a', ha', h2⟩, hs, off, hn, hsign, hw⟩ :=
    C41_runs_partial X cfg cfg' R R' post post' slot slot' h h' hpre active active' bal hreg hreg' atts atts'
      hatts hatts' (by intro a ha; rw [hsame a ha]; exact hbig) (by intro a ha; rw [hsame' a ha]; exact hbig')
      anc hanc hconf hconf'
  refine ⟨l, l', ⟨a, ha, h1⟩, ⟨a', ha', h2⟩, hs, off, hn, hsign, ?_⟩
  have e1 : active l.target.epoch = set := by rw [← h1]; exact hsame a ha
  have e2 : active' l'.target.epoch = set := by rw [← h2]; exact hsame' a' ha'
  have e3 : set.filter (fun i => decide (i ∉ set)) = [] := by
    rw [List.filter_eq_nil_iff]; simp
  rw [e1, e2, union, e3, List.append_nil] at hw
  omega

/-- Every guest reader counts with the balances of its registry. -/
theorem guest_countsWith (r : GuestReader) (hs : r.validators.Sorted) :
    CountsWith r.toReader (fun e => (r.activeValidators e).keys) (balance r.validators) := by
  intro e l hl
  simp only [GuestReader.toReader, Res.ok.injEq] at hl
  subst hl
  have hsf : OMap.Sorted (r.activeValidators e) := OMap.sorted_filter hs _
  rw [OMap.ofList_sorted hsf]
  refine ⟨rfl, ?_⟩
  intro i hi
  obtain ⟨v, hv⟩ := OMap.mem_keys_iff.1 hi
  have := (List.mem_filter.1 (OMap.get?_eq_some_mem hv)).1
  simp [balance, hv, OMap.mem_get? hs this]

set_option maxRecDepth 100000 in
/-- The hypotheses of C41 are met by the runs of two conflicting guest inputs. -/
example : verify exExt Config.default gxReader.toReader = .ok (⟨exC7, gxC6⟩, 24) ∧
    verify exExt Config.default gxForkReader.toReader = .ok (⟨gxC7', gxC6'⟩, 25) ∧
    gxReader.toReader.consensusState = gxForkReader.toReader.consensusState ∧
    CountsWith gxReader.toReader (fun e => (gxReader.activeValidators e).keys) (balance exActive) ∧
    CountsWith gxForkReader.toReader (fun e => (gxForkReader.activeValidators e).keys) (balance exActive) ∧
    gxReader.toReader.attestations = .ok gxInput.attestations ∧
    gxForkReader.toReader.attestations = .ok gxFork.attestations ∧
    (∀ a ∈ gxInput.attestations, (gxReader.activeValidators a.data.target.epoch).keys = List.range 10) ∧
    (∀ a ∈ gxFork.attestations, (gxForkReader.activeValidators a.data.target.epoch).keys = List.range 10) ∧
    3 * exSpec.effectiveBalanceIncrement < 2 * sumOf (balance exActive) (List.range 10) ∧
    Ancestry gxAnc (gxInput.attestations ++ gxFork.attestations) ∧ ¬ gxAnc gxC6 gxC6' ∧ ¬ gxAnc gxC6' gxC6 := by
  refine ⟨gxReader_verifies, gxFork_verifies, rfl, guest_countsWith _ ?_, guest_countsWith _ ?_, rfl, rfl,
    by decide +kernel, by decide +kernel, by decide +kernel, gxAnc_ancestry, gx_conflict⟩
  · exact intoReader_sorted gxInput_reader
  · exact intoReader_sorted gxFork_reader

/-- **C41**, of the whole guest. If two accepted runs from the same pre-state over the same real chain finalize checkpoints of which
neither is an ancestor of the other, then there are two links, voted for in the one and in the other input, which
form a slashable pair, and a set of validators who signed votes for both, of at least the weight
`2/3 W + 2/3 W' - U`, where `W`, `W'` are the active balances at the two target epochs, and `U` is the balance
of the validators active at either. (Balances are floored at one increment by the code; the statement is for
active balances of more than one and a half increments.) -/
theorem C41_accountable_safety_partial (X : Ext) (spec : ChainSpec) (cfg : Config)
    (input input' : GuestInput) (r r' : GuestReader) (post post' : ConsensusState) (slot slot' : Nat)
    (hr : input.intoReader X spec = .ok r) (hr' : input'.intoReader X spec = .ok r')
    (hv : verify X cfg r.toReader = .ok (post, slot)) (hv' : verify X cfg r'.toReader = .ok (post', slot'))
    (hpre : input.consensusState = input'.consensusState)
    (hdr : Header) (st : BeaconState) (hreal : RealChain X spec input hdr st)
    (hreal' : RealChain X spec input' hdr st)
    (hepoch : input.consensusState.finalized.epoch ≠ 0)
    (hlook : cfg.epochLookaheadLimit ≤ spec.maxSeedLookahead)
    (hbig : ∀ a ∈ input.attestations ++ input'.attestations, 3 * spec.effectiveBalanceIncrement <
      2 * balanceOf (registryOf spec st input.consensusState)
        (activeIndices (registryOf spec st input.consensusState) a.data.target.epoch))
    (anc : Checkpoint → Checkpoint → Prop) (hanc : Ancestry anc (input.attestations ++ input'.attestations))
    (hconf : ¬ anc post.finalized post'.finalized) (hconf' : ¬ anc post'.finalized post.finalized) :
    ∃ link link' : Link, (∃ a ∈ input.attestations, linkOf a = link) ∧
      (∃ a ∈ input'.attestations, linkOf a = link') ∧ Slashable link link' ∧ ∃ offenders : List Nat, offenders.Nodup ∧
      (∀ i ∈ offenders,
        SignedVote X spec st.genesisValidatorsRoot (registryOf spec st input.consensusState) link
          input.attestations i ∧
        SignedVote X spec st.genesisValidatorsRoot (registryOf spec st input.consensusState) link'
          input'.attestations i) ∧
      let vs := registryOf spec st input.consensusState
      2 * balanceOf vs (activeIndices vs link.target.epoch) +
          2 * balanceOf vs (activeIndices vs link'.target.epoch) ≤
        3 * balanceOf vs offenders + 3 * balanceOf vs (activeAtEither vs link.target.epoch link'.target.epoch) := by
  obtain ⟨links, hb, hrun, hf, hs⟩ := C40_reader_partial X spec cfg input r hr post slot hv hdr st hreal hepoch hlook
  obtain ⟨links', hb', hrun', hf', hs'⟩ := C40_reader_partial X spec cfg input' r' hr' post' slot' hv' hdr st hreal'
    (hpre ▸ hepoch) hlook
  rw [← hpre] at hrun' hf' hs'
  have hla : ∀ l ∈ links, ∃ a ∈ input.attestations ++ input'.attestations, linkOf a = l := by
    intro l hl
    obtain ⟨a, ha, h1⟩ := hb.nonempty l hl
    exact ⟨a, List.mem_append_left _ ha, h1⟩
  have hla' : ∀ l ∈ links', ∃ a ∈ input.attestations ++ input'.attestations, linkOf a = l := by
    intro l hl
    obtain ⟨a, ha, h1⟩ := hb'.nonempty l hl
    exact ⟨a, List.mem_append_right _ ha, h1⟩
  obtain ⟨l, hl, l', hl', hsl⟩ := conflict_slashable hrun hrun' hf hf' hanc.refl hanc.trans
    (by intro l hl; obtain ⟨a, ha, rfl⟩ := hla l hl; exact hanc.votes a ha)
    (by intro l hl; obtain ⟨a, ha, rfl⟩ := hla' l hl; exact hanc.votes a ha) hconf hconf'
  generalize registryOf spec st input.consensusState = vs at *
  obtain ⟨v, n1, m1, -, w1⟩ := hs l hl
  obtain ⟨v', n2, m2, -, w2⟩ := hs' l' hl'
  have t1 : 2 * balanceOf vs (activeIndices vs l.target.epoch) ≤ 3 * balanceOf vs v := by
    refine unfloored (spec := spec) ?_ w1
    obtain ⟨a, ha, rfl⟩ := hla l hl
    exact hbig a ha
  have t2 : 2 * balanceOf vs (activeIndices vs l'.target.epoch) ≤ 3 * balanceOf vs v' := by
    refine unfloored (spec := spec) ?_ w2
    obtain ⟨a, ha, rfl⟩ := hla' l' hl'
    exact hbig a ha
  refine ⟨l, l', hb.nonempty l hl, hb'.nonempty l' hl', hsl, v.filter (fun i => decide (i ∈ v')), n1.filter _, ?_, ?_⟩
  · intro i hi
    simp only [List.mem_filter, decide_eq_true_eq] at hi
    exact ⟨(m1 i hi.1).2.2, (m2 i hi.2).2.2⟩
  · have := overlap (registeredBalance vs) v v' (activeAtEither vs l.target.epoch l'.target.epoch) n1 n2
      (by intro i hi; exact List.mem_append_left _ (m1 i hi).1)
      (by
        intro i hi
        have hia := (m2 i hi).1
        by_cases h : i ∈ activeIndices vs l.target.epoch
        · exact List.mem_append_left _ h
        · exact List.mem_append_right _ (List.mem_filter.2 ⟨hia, by simpa using h⟩))
    simp only [balanceOf] at *
    omega

/-- **C41** when the same validators are active at all target epochs: the offenders hold at least a third of the
active balance. -/
theorem C41_one_third_partial (X : Ext) (spec : ChainSpec) (cfg : Config)
    (input input' : GuestInput) (r r' : GuestReader) (post post' : ConsensusState) (slot slot' : Nat)
    (hr : input.intoReader X spec = .ok r) (hr' : input'.intoReader X spec = .ok r')
    (hv : verify X cfg r.toReader = .ok (post, slot)) (hv' : verify X cfg r'.toReader = .ok (post', slot'))
    (hpre : input.consensusState = input'.consensusState)
    (hdr : Header) (st : BeaconState) (hreal : RealChain X spec input hdr st)
    (hreal' : RealChain X spec input' hdr st)
    (hepoch : input.consensusState.finalized.epoch ≠ 0)
    (hlook : cfg.epochLookaheadLimit ≤ spec.maxSeedLookahead)
    (active : List Nat)
    (hsame : ∀ a ∈ input.attestations ++ input'.attestations,
      activeIndices (registryOf spec st input.consensusState) a.data.target.epoch = active)
    (hbig : 3 * spec.effectiveBalanceIncrement <
      2 * balanceOf (registryOf spec st input.consensusState) active)
    (anc : Checkpoint → Checkpoint → Prop) (hanc : Ancestry anc (input.attestations ++ input'.attestations))
    (hconf : ¬ anc post.finalized post'.finalized) (hconf' : ¬ anc post'.finalized post.finalized) :
    ∃ link link' : Link, (∃ a ∈ input.attestations, linkOf a = link) ∧
      (∃ a ∈ input'.attestations, linkOf a = link') ∧ Slashable link link' ∧ ∃ offenders : List Nat, offenders.Nodup ∧
      (∀ i ∈ offenders,
        SignedVote X spec st.genesisValidatorsRoot (registryOf spec st input.consensusState) link
          input.attestations i ∧
        SignedVote X spec st.genesisValidatorsRoot (registryOf spec st input.consensusState) link'
          input'.attestations i) ∧
      balanceOf (registryOf spec st input.consensusState) active ≤
        3 * balanceOf (registryOf spec st input.consensusState) offenders := by
  obtain ⟨l, l', ⟨a, ha, h1⟩, ⟨a', ha', h2⟩, hs, off, hn, hsign, hw⟩ :=
    C41_accountable_safety_partial X spec cfg input input' r r' post post'
      slot slot' hr hr' hv hv' hpre hdr st hreal hreal' hepoch hlook
      (by intro a ha; rw [hsame a ha]; exact hbig) anc hanc hconf hconf'
  refine ⟨l, l', ⟨a, ha, h1⟩, ⟨a', ha', h2⟩, hs, off, hn, hsign, ?_⟩
  dsimp only at hw
  generalize registryOf spec st input.consensusState = vs at *
  have a1 : activeIndices vs l.target.epoch = active := by
    rw [← h1]; exact hsame _ (List.mem_append_left _ ha)
  have a2 : activeIndices vs l'.target.epoch = active := by
    rw [← h2]; exact hsame _ (List.mem_append_right _ ha')
  unfold activeAtEither at hw
  rw [a1, a2] at hw
  have : active.filter (fun i => decide (i ∉ active)) = [] := by
    rw [List.filter_eq_nil_iff]; simp
  rw [this, List.append_nil] at hw
  omega

/-- The hypotheses are met by two inputs that finalize different blocks of epoch 6. -/
example : gxInput.intoReader exExt exSpec = .ok gxReader ∧ gxFork.intoReader exExt exSpec = .ok gxForkReader ∧
    verify exExt Config.default gxReader.toReader = .ok (⟨exC7, gxC6⟩, 24) ∧
    verify exExt Config.default gxForkReader.toReader = .ok (⟨gxC7', gxC6'⟩, 25) ∧
    gxInput.consensusState = gxFork.consensusState ∧ RealChain exExt exSpec gxInput gxHdr gxState ∧
    RealChain exExt exSpec gxFork gxHdr gxState ∧ gxInput.consensusState.finalized.epoch ≠ 0 ∧
    Config.default.epochLookaheadLimit ≤ exSpec.maxSeedLookahead ∧
    (∀ a ∈ gxInput.attestations ++ gxFork.attestations,
      activeIndices (registryOf exSpec gxState gxInput.consensusState) a.data.target.epoch = List.range 10) ∧
    3 * exSpec.effectiveBalanceIncrement <
      2 * balanceOf (registryOf exSpec gxState gxInput.consensusState) (List.range 10) ∧
    Ancestry gxAnc (gxInput.attestations ++ gxFork.attestations) ∧ ¬ gxAnc gxC6 gxC6' ∧ ¬ gxAnc gxC6' gxC6 := by
  refine ⟨gxInput_reader, gxFork_reader, gxReader_verifies, gxFork_verifies, rfl, gxInput_real, gxFork_real,
    by decide, by decide, ?_, by decide +kernel, gxAnc_ancestry, gx_conflict⟩
  decide +kernel

/-! ## C42 -/

theorem Spec.Run.append {s ls s' ls' s''} (h : Run s ls s') (h' : Run s' ls' s'') : Run s (ls ++ ls') s'' := by
  induction h with
  | nil => exact h'
  | cons h1 _ ih => exact .cons h1 (ih h')

theorem Spec.Run.wf {s ls s'} (h : Run s ls s') :
    WfState s → (∀ l ∈ ls, WfCheckpoint l.target) → WfState s' := by
  induction h with
  | nil => exact fun h _ => h
  | @cons s l s1 ls s2 h1 _ ih =>
    intro hw hl
    refine ih ?_ (fun k hk => hl k (by simp [hk]))
    have := hl l (by simp)
    cases h1 with
    | finalize c f b h => exact ⟨this, hw.1⟩
    | justify c f b h => exact ⟨this, hw.2⟩

/-- The verification of an input with values of the Rust types. -/
theorem verified_parts {X : Ext} {spec : ChainSpec} {cfg : Config} {input : GuestInput} {r : GuestReader} {post : ConsensusState}
    {slot : Nat} (ht : Typed input) (hr : input.intoReader X spec = .ok r) (hv : verify X cfg r.toReader = .ok (post, slot)) :
    Abi.cliReadJournal (Abi.encodeJournal input.consensusState post slot) = .ok (input.consensusState, post) ∧ slot < 2 ^ 64 ∧
      ValidState input.consensusState ∧ WfState post ∧ ValidState post ∧ Ahead input.consensusState post ∧
      ∃ links, Blocks input.attestations links ∧ Run input.consensusState links post := by
  obtain ⟨-, -, -, -, -, -, -, -, -, -, -, -, -, -, -, -, -, hcs, hat⟩ := intoReader_eq_ok hr
  obtain ⟨p, atts, links, h1, h2, hb, hrun, -⟩ := C09_exactly_one_finalization X cfg r.toReader post slot hv
  obtain ⟨p', h1', hvp, hvq, hf, hj, hj'⟩ := C10_strictly_advances X cfg r.toReader post slot hv
  have e1 : p = input.consensusState := by
    simp only [GuestReader.toReader, Res.ok.injEq] at h1; rw [← h1, hcs]
  have e2 : p' = input.consensusState := by
    simp only [GuestReader.toReader, Res.ok.injEq] at h1'; rw [← h1', hcs]
  have e3 : atts = input.attestations := by
    simp only [GuestReader.toReader, Res.ok.injEq] at h2; rw [← h2, hat]
  subst e1 e2 e3
  have hwf : WfState post := by
    refine hrun.wf ht.state ?_
    intro l hl
    obtain ⟨a, ha, rfl⟩ := hb.nonempty l hl
    exact (ht.votes a ha).2
  have hslot : slot < 2 ^ 64 := by
    have hs : r.toReader.slotForBlock post.finalized.root = .ok slot := by
      unfold verify at hv
      simp only [Res.bind_eq_ok, Res.pure_eq, Res.ok.injEq, Res.mapErr_eq_ok, Prod.mk.injEq] at hv
      obtain ⟨_, _, _, _, st, _, _, _, sl, h1, rfl, rfl⟩ := hv
      exact h1
    obtain ⟨p, -, -, c, rest, hv, rfl⟩ := slotForBlock_proof X hr hs
    unfold u64FromChunk
    have := ofLE_lt (c.take 8)
    have hl : (c.take 8).length ≤ 8 := by simp
    have : 256 ^ (c.take 8).length ≤ 256 ^ 8 := Nat.pow_le_pow_right (by omega) hl
    have e : (256 : Nat) ^ 8 = 2 ^ 64 := by decide
    omega
  have hrt := (C07_journal_round_trip _ _ slot ht.state hvp hwf hvq hslot).2.1
  exact ⟨hrt, hslot, hvp, hwf, hvq, ⟨hf, by omega, hj⟩, links, hb, hrun⟩

/-- What the guest commits to, for an input with values of the Rust types. -/
theorem journal_parts {X : Ext} {spec : ChainSpec} {cfg : Config} {input : GuestInput} {journal : Bytes} {ε : Type}
    (ht : Typed input) (hc : (guestEntry X spec cfg input : Res ε Bytes) = .ok journal) :
    ∃ post slot, journal = Abi.encodeJournal input.consensusState post slot ∧
      Abi.cliReadJournal journal = .ok (input.consensusState, post) ∧ slot < 2 ^ 64 ∧
      ValidState input.consensusState ∧ WfState post ∧ ValidState post ∧ Ahead input.consensusState post ∧
      ∃ links, Blocks input.attestations links ∧ Run input.consensusState links post := by
  obtain ⟨r, post, slot, hr, hv, rfl⟩ := guestEntry_eq_ok hc
  exact ⟨post, slot, rfl, verified_parts ht hr hv⟩

/-- What one journal of a chain says. -/
theorem journal_run {X : Ext} {spec : ChainSpec} {cfg : Config} {input : GuestInput} {journal : Bytes}
    {pre post : ConsensusState} (ht : Typed input)
    (hc : (guestEntry X spec cfg input : Res Unit Bytes) = .ok journal)
    (hread : Abi.cliReadJournal journal = .ok (pre, post)) :
    input.consensusState = pre ∧ WfState post ∧ ValidState post ∧ Ahead pre post ∧
      ∃ links, Blocks input.attestations links ∧ Run pre links post := by
  obtain ⟨post', slot, -, hr, -, -, hwf, hv, ha, hl⟩ := journal_parts ht hc
  rw [hr] at hread
  cases hread
  exact ⟨rfl, hwf, hv, ha, hl⟩

theorem Spec.Ahead.trans {a b c : ConsensusState} (h : Ahead a b) (h' : Ahead b c)  : Ahead a c := by
  obtain ⟨h1, h2, h3⟩ := h
  obtain ⟨h4, h5, h6⟩ := h'
  exact ⟨by omega, by omega, by omega⟩

/-- **C42.** For any sequence of journals committed by the guest of which each starts from the state in
which the one before ended, every later state is strictly ahead of every earlier one, in its finalized and in its
justified epoch, and the whole history is one chain of justification links, which is the concatenation of the
links of the inputs. -/
theorem C42_chaining (X : Ext) (spec : ChainSpec) (cfg : Config) (pre : ConsensusState)
    (journals : List (GuestInput × Bytes)) (states : List ConsensusState)
    (h : Chained X spec cfg pre journals states) :
    (pre :: states).Pairwise Ahead ∧
    ∃ linkss : List (List Link),
      List.Forall₂ (fun (j : GuestInput × Bytes) links => Blocks j.1.attestations links) journals linkss ∧
      Run pre linkss.flatten (states.getLastD pre) := by
  induction h with
  | nil s => exact ⟨by simp, [], .nil, .nil _⟩
  | @cons pre post input journal journals states ht hc hread _ ih =>
    obtain ⟨i1, linkss, i2, i3⟩ := ih
    obtain ⟨-, -, -, hah, links, hb, hrun⟩ := journal_run ht hc hread
    refine ⟨List.pairwise_cons.2 ⟨?_, i1⟩, links :: linkss, .cons hb i2, ?_⟩
    · intro s hs
      rcases List.mem_cons.1 hs with rfl | hs
      · exact hah
      · exact hah.trans ((List.pairwise_cons.1 i1).1 s hs)
    · rw [List.flatten_cons]
      have : (post :: states).getLastD pre = states.getLastD post := by
        cases states <;> rfl
      rw [this]
      exact hrun.append i3

theorem gxInput_typed : Typed gxInput where
  state := ⟨⟨by decide, by decide⟩, by decide, exExt.sha256_length _⟩
  votes := by
    have h6 : WfCheckpoint gxC6 := ⟨by decide, exExt.sha256_length _⟩
    have h4 : WfCheckpoint exC4 := ⟨by decide, by decide⟩
    have h7 : WfCheckpoint exC7 := ⟨by decide, by decide⟩
    intro a ha
    simp only [gxInput, gxVotes, List.mem_cons, List.not_mem_nil, or_false] at ha
    rcases ha with rfl | rfl | rfl | rfl | rfl | rfl | rfl | rfl | rfl
    all_goals first
      | exact ⟨h4, h6⟩
      | exact ⟨h6, h7⟩

theorem gxNext_typed : Typed gxNext where
  state := ⟨⟨by decide, by decide⟩, by decide, exExt.sha256_length _⟩
  votes := by
    have h7 : WfCheckpoint exC7 := ⟨by decide, by decide⟩
    have h9 : WfCheckpoint gxC9 := ⟨by decide, exExt.sha256_length _⟩
    have h10 : WfCheckpoint gxC10 := ⟨by decide, by decide⟩
    intro a ha
    simp only [gxNext, gxAllVotes, List.mem_cons, List.not_mem_nil, or_false, List.mem_append] at ha
    rcases ha with (rfl | rfl | rfl | rfl) | rfl | rfl | rfl | rfl
    all_goals first
      | exact ⟨h7, h9⟩
      | exact ⟨h9, h10⟩

theorem guestEntry_of {ε : Type} {X : Ext} {spec : ChainSpec} {cfg : Config} {input : GuestInput} {r : GuestReader}
    {post : ConsensusState} {slot : Nat} (h : input.intoReader X spec = .ok r)
    (h' : verify X cfg r.toReader = .ok (post, slot)) :
    (guestEntry X spec cfg input : Res ε Bytes) = .ok (Abi.encodeJournal input.consensusState post slot) := by
  unfold guestEntry
  rw [h]
  simp only [Res.unwrap, Res.ok_bind, h']
  rfl

/-- The hypothesis is met by a chain of two journals with four links. -/
example : Chained exExt exSpec Config.default ⟨exC4, gxC3⟩
    [(gxInput, Abi.encodeJournal ⟨exC4, gxC3⟩ ⟨exC7, gxC6⟩ 24),
      (gxNext, Abi.encodeJournal ⟨exC7, gxC6⟩ ⟨gxC10, gxC9⟩ 36)] [⟨exC7, gxC6⟩, ⟨gxC10, gxC9⟩] := by
  have w0 := gxInput_typed.state
  have w1 := gxNext_typed.state
  have w2 : WfState ⟨gxC10, gxC9⟩ := ⟨⟨by decide, by decide⟩, by decide, exExt.sha256_length _⟩
  refine .cons gxInput_typed (guestEntry_of gxInput_reader gxReader_verifies) ?_
    (.cons gxNext_typed (guestEntry_of gxNext_reader gxNext_verifies) ?_ (.nil _))
  · exact (C07_journal_round_trip _ _ 24 w0 (Or.inl (by decide)) w1 (Or.inl (by decide)) (by decide)).2.1
  · exact (C07_journal_round_trip _ _ 36 w1 (Or.inl (by decide)) w2 (Or.inl (by decide)) (by decide)).2.1

end Signal
