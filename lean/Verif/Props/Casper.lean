import Verif.Spec.Casper
import Verif.Props.Divergence

/-!
# Property C87: a light client and the beacon chain do not part

Specification: `Verif/Spec/Casper.lean`, `Verif/Spec/Divergence.lean`, `Verif/Spec/Shipped.lean`, `Verif/Spec/Slashing.lean`.

Partial: `RealChainDigests` excludes proofs that go on below a leaf of the real header, state or registry. The hardness of SHA-256 does not: without the
condition the claim is false (`C40_one_deposit`, `C81_one_deposit`).
-/

namespace Signal
open Spec Wire

section casper
variable {links : Link → Prop} {start : Checkpoint} {anc : Checkpoint → Checkpoint → Prop}

theorem justified_mono {links' : Link → Prop} (h : ∀ l, links l → links' l) {c : Checkpoint} (hc : JustifiedIn links start c) :
    JustifiedIn links' start c := by
  induction hc with
  | start => exact .start
  | link _ h1 h2 ih => exact .link ih (h _ h1) h2

theorem finalized_mono {links' : Link → Prop} (h : ∀ l, links l → links' l) {c : Checkpoint} (hc : FinalizedIn links start anc c) :
    FinalizedIn links' start anc c := by
  rcases hc with rfl | ⟨h1, b, h2, h3, h4⟩
  · exact .inl rfl
  · refine .inr ⟨justified_mono h h1, b, h _ h2, h3, fun e he he' => ?_⟩
    obtain ⟨m, hm, hme, ha⟩ := h4 e he he'
    exact ⟨m, justified_mono h hm, hme, ha⟩

/-- The start, or later. -/
theorem justified_later {c : Checkpoint} (hc : JustifiedIn links start c) : c = start ∨ start.epoch < c.epoch := by
  induction hc with
  | start => exact .inl rfl
  | link _ _ h ih =>
    rcases ih with rfl | ih
    · exact .inr h
    · exact .inr (Nat.lt_trans ih h)

/-- Two justified checkpoints of one epoch. -/
theorem justified_same_epoch {c c' : Checkpoint} (hc : JustifiedIn links start c) (hc' : JustifiedIn links start c') (he : c.epoch = c'.epoch)
    (hne : c ≠ c') : ∃ l l', links l ∧ links l' ∧ Slashable l l' := by
  cases hc with
  | start =>
    rcases justified_later hc' with h | h
    · exact absurd h.symm hne
    · omega
  | @link p _ h1 h2 h3 =>
    cases hc' with
    | start =>
      rcases justified_later (.link h1 h2 h3) with h | h
      · exact absurd h hne
      · omega
    | @link p' _ h1' h2' h3' => exact ⟨_, _, h2, h2', .inl ⟨fun h => hne (congrArg Link.target h), he⟩⟩

theorem justified_anc (hrefl : ∀ c, anc c c) (htrans : ∀ a b c, anc a b → anc b c → anc a c) (hl : ∀ l, links l → anc l.source l.target)
    {c : Checkpoint} (hc : JustifiedIn links start c) : anc start c := by
  induction hc with
  | start => exact hrefl _
  | link _ h1 _ ih => exact htrans _ _ _ ih (hl _ h1)

/-- The link by which the justification of a checkpoint crosses an epoch. -/
theorem justified_crossing (hrefl : ∀ c, anc c c) (htrans : ∀ a b c, anc a b → anc b c → anc a c) (hl : ∀ l, links l → anc l.source l.target)
    {c : Checkpoint} (hc : JustifiedIn links start c) (e : Nat) (h1 : start.epoch ≤ e) (h2 : e < c.epoch) :
    ∃ p q, JustifiedIn links start p ∧ links ⟨p, q⟩ ∧ p.epoch ≤ e ∧ e < q.epoch ∧ anc q c := by
  induction hc with
  | start => omega
  | @link p q hp hpq hlt ih =>
    by_cases h : e < p.epoch
    · obtain ⟨p', q', g1, g2, g3, g4, g5⟩ := ih h
      exact ⟨p', q', g1, g2, g3, g4, htrans _ _ _ g5 (hl _ hpq)⟩
    · exact ⟨p, q, hp, hpq, by omega, h2, hrefl _⟩

/-- **C87.** Accountable safety of the beacon chain's own rules, links that skip epochs included: two finalized checkpoints of which neither is
an ancestor of the other take two supermajority links that are slashable together. -/
theorem C87_casper (hrefl : ∀ c, anc c c) (htrans : ∀ a b c, anc a b → anc b c → anc a c) (hl : ∀ l, links l → anc l.source l.target)
    {f f' : Checkpoint} (hf : FinalizedIn links start anc f) (hf' : FinalizedIn links start anc f') (hn : ¬ anc f f') (hn' : ¬ anc f' f) :
    ∃ l l', links l ∧ links l' ∧ Slashable l l' := by
  have key : ∀ {f f' : Checkpoint}, FinalizedIn links start anc f → FinalizedIn links start anc f' → ¬ anc f f' → ¬ anc f' f →
      f.epoch ≤ f'.epoch → ∃ l l', links l ∧ links l' ∧ Slashable l l' := by
    intro f f' hf hf' hn hn' hle
    rcases hf with rfl | ⟨hj, b, hb, hlt, hmid⟩
    · rcases hf' with rfl | ⟨hj', -⟩
      · exact absurd (hrefl _) hn
      · exact absurd (justified_anc hrefl htrans hl hj') hn
    rcases hf' with rfl | ⟨hj', -⟩
    · exact absurd (justified_anc hrefl htrans hl hj) hn'
    rcases Nat.lt_or_ge f.epoch f'.epoch with hlt' | hge
    · have hst : start.epoch ≤ f.epoch := by
        rcases justified_later hj with rfl | h <;> omega
      obtain ⟨p, q, hp, hpq, hpe, hqe, hqf⟩ := justified_crossing hrefl htrans hl hj' f.epoch hst hlt'
      rcases Nat.lt_trichotomy q.epoch b.epoch with hq | hq | hq
      · obtain ⟨m, hm, hme, ha⟩ := hmid q.epoch hqe hq
        by_cases hmq : m = q
        · subst hmq
          exact absurd (htrans _ _ _ ha hqf) hn
        · exact justified_same_epoch hm (.link hp hpq (by omega)) hme hmq
      · by_cases hbq : b = q
        · subst hbq
          exact absurd (htrans _ _ _ (hl _ hb) hqf) hn
        · exact justified_same_epoch (.link hj hb hlt) (.link hp hpq (by omega)) hq.symm hbq
      · rcases Nat.lt_or_ge p.epoch f.epoch with hpf | hpf
        · exact ⟨_, _, hpq, hb, .inr (.inl ⟨hpf, hq⟩)⟩
        · by_cases hpf' : p = f
          · subst hpf'
            exact absurd (htrans _ _ _ (hl _ hpq) hqf) hn
          · exact justified_same_epoch hp hj (by omega) hpf'
    · exact justified_same_epoch hj hj' (by omega) (fun h => hn (h ▸ hrefl _))
  rcases Nat.le_total f.epoch f'.epoch with h | h
  · exact key hf hf' hn hn' h
  · exact key hf' hf hn' hn h

/-- The states of a run are justified by its links. -/
theorem run_justified {s ls s'} (h : Run s ls s') (hl : ∀ l ∈ ls, links l) (hs : JustifiedIn links start s.currentJustified) :
    (∀ l ∈ ls, JustifiedIn links start l.source) ∧ JustifiedIn links start s'.currentJustified := by
  induction h with
  | nil => exact ⟨by simp, hs⟩
  | @cons s k s1 ls s2 h1 _ ih =>
    have hk : JustifiedIn links start k.source ∧ JustifiedIn links start s1.currentJustified := by
      have := hl k (by simp)
      cases h1 with
      | finalize c f b h => exact ⟨hs, .link hs this (by simp only at *; omega)⟩
      | justify c f b h => exact ⟨hs, .link hs this (by simp only at *; omega)⟩
    obtain ⟨g1, g2⟩ := ih (fun l hl' => hl l (by simp [hl'])) hk.2
    refine ⟨fun l hl' => ?_, g2⟩
    rcases List.mem_cons.1 hl' with rfl | hl'
    · exact hk.1
    · exact g1 l hl'

/-- What a light client finalizes is finalized by the rules of the beacon chain, if the links of its proofs are counted in. -/
theorem run_finalized {s ls s'} (h : Run s ls s') (hl : ∀ l ∈ ls, links l) (hs : JustifiedIn links start s.currentJustified)
    (hf : s'.finalized ≠ s.finalized) : FinalizedIn links start anc s'.finalized := by
  obtain ⟨b, hb, he⟩ := h.finalized_link.resolve_left hf
  exact .inr ⟨(run_justified h hl hs).1 _ hb, b, hl _ hb, by omega, fun e h1 h2 => by omega⟩

/-- The links of a run are not slashable together. -/
theorem run_not_slashable {s ls s'} (h : Run s ls s') : ∀ l ∈ ls, ∀ l' ∈ ls, ¬ Slashable l l' := by
  induction h with
  | nil => simp
  | @cons s k s1 ls s2 h1 h2 ih =>
    have hmono : ∀ l ∈ ls, k.target.epoch ≤ l.source.epoch ∧ l.source.epoch < l.target.epoch := by
      intro l hl
      have h3 := (h2.ancestor (anc := fun a b => a.epoch ≤ b.epoch) (fun _ => Nat.le_refl _) (fun _ _ _ => Nat.le_trans)
        (fun l hl => Nat.le_of_lt (h2.source_mem l hl).2.1)).1 l hl
      have h4 : k.target = s1.currentJustified := by cases h1 <;> rfl
      rw [h4]
      exact ⟨h3, (h2.source_mem l hl).2.1⟩
    have hk : k.source.epoch < k.target.epoch := by
      cases h1 with
      | finalize c f b h => simp only; omega
      | justify c f b h => simp only; omega
    intro l hl l' hl'
    unfold Slashable Surrounds
    rcases List.mem_cons.1 hl with e | hm <;> rcases List.mem_cons.1 hl' with e' | hm'
    · subst e e'
      simp
    · subst e
      have := hmono l' hm'
      omega
    · subst e'
      have := hmono l hm
      omega
    · exact ih l hm l' hm'

end casper

/-- Weights of two overlapping majorities. -/
theorem culprits_weight {share share' : Nat} (h3 : share ≤ 300) (h4 : share' ≤ 300)
    (h5 : 300 ≤ share + share') {vs vs' : List Validator} {e e' : Nat} {v v' : List Nat} (n1 : v.Nodup) (n2 : v'.Nodup)
    (m1 : ∀ i ∈ v, i ∈ activeIndices vs e) (m2 : ∀ i ∈ v', i ∈ activeIndices vs' e')
    (t1 : share * balanceOf vs (activeIndices vs e) ≤ 300 * balanceOf vs v)
    (t2 : share' * balanceOf vs' (activeIndices vs' e') ≤ 300 * balanceOf vs' v') :
    let active := activeIndices vs e
    let active' := activeIndices vs' e'
    let culprits := v.filter (fun i => decide (i ∈ v'))
    share * balanceOf vs active + share' * balanceOf vs' active' ≤
      300 * lesserBalance vs vs' culprits + 300 * greaterBalance vs vs' (union active active') ∧
    ∀ d, greaterBalance vs vs' (union active active') ≤ balanceOf vs active + d →
      greaterBalance vs vs' (union active active') ≤ balanceOf vs' active' + d →
      (share + share' - 300) * balanceOf vs active ≤ 300 * (balanceOf vs culprits + d) ∧
      (share + share' - 300) * balanceOf vs' active' ≤ 300 * (balanceOf vs' culprits + d) := by
  dsimp only
  have hov := overlap_two (registeredBalance vs) (registeredBalance vs') v v'
    (union (activeIndices vs e) (activeIndices vs' e')) n1 n2
    (by intro i hi; exact List.mem_append_left _ (m1 i hi))
    (by
      intro i hi
      by_cases h : i ∈ activeIndices vs e
      · exact List.mem_append_left _ h
      · exact List.mem_append_right _ (List.mem_filter.2 ⟨m2 i hi, by simpa using h⟩))
  have hmin := lesser_le vs vs' (v.filter (fun i => decide (i ∈ v')))
  change balanceOf vs v + balanceOf vs' v' ≤ lesserBalance vs vs' (v.filter (fun i => decide (i ∈ v'))) + greaterBalance vs vs' _ at hov
  generalize balanceOf vs (activeIndices vs e) = a at *
  generalize balanceOf vs' (activeIndices vs' e') = a' at *
  generalize greaterBalance vs vs' _ = u at *
  generalize lesserBalance vs vs' _ = o at *
  generalize balanceOf vs (v.filter _) = c at *
  generalize balanceOf vs' (v.filter _) = c' at *
  have hsum : share * a + share' * a' ≤ 300 * o + 300 * u := by omega
  refine ⟨hsum, fun d h1 h2 => ?_⟩
  have core : ∀ {p q a a' o : Nat}, p ≤ 300 → q ≤ 300 → 300 ≤ p + q → p * a + q * a' ≤ 300 * o + 300 * u → u ≤ a + d → u ≤ a' + d →
      (p + q - 300) * a ≤ 300 * (o + d) := by
    intro p q a a' o hp hq hpq h hu hu'
    obtain ⟨r, hr⟩ := Nat.exists_eq_add_of_le hq
    obtain ⟨t, ht⟩ := Nat.exists_eq_add_of_le (show r ≤ p by omega)
    have e : p + q - 300 = t := by omega
    rw [e]
    subst ht
    have k1 := Nat.mul_le_mul_left r hu
    have k2 := Nat.mul_le_mul_left q hu'
    have k3 : 300 * u = q * u + r * u := by rw [← Nat.add_mul, ← hr]
    have k4 : 300 * d = q * d + r * d := by rw [← Nat.add_mul, ← hr]
    rw [k3] at h
    rw [Nat.mul_add, k4]
    ring_nf at h k1 k2 ⊢
    linarith
  constructor
  · exact Nat.le_trans (core h3 h4 h5 hsum h1 h2) (by omega)
  · have := core h4 h3 (by omega) (by rw [Nat.add_comm]; exact hsum) h2 h1
    rw [Nat.add_comm share']at this
    exact Nat.le_trans this (by omega)

section

variable {W : WireExt} {sigValid : Bytes → Bool} (hW : WireLaws (Ssz.wire W sigValid)) (X : Ext)
  (hdomain : ∀ version root, X.computeDomain version root =
    Signing.computeDomain X.sha256 Signing.beaconAttester version root)
  (signed : Bytes → Bytes → Prop) (hu : Unforgeable X signed) {s : ForkSchedule} (ho : Ordered s) (hl : s.forks.length = 6)
  {v5 v6 : Bytes} {e5 e6 : Nat} (h5 : s.forks[4]? = some (v5, e5)) (h6 : s.forks[5]? = some (v6, e6))
  (hv : ∀ v ∈ s.genesisVersion :: s.forks.map (·.1), v.length = 4) (he5 : 4 < e5) (percent : Nat)

include hW hdomain hu ho hl h5 h6 hv he5

/-- A client of a network and the chain. -/
theorem network_parts (hp : 67 ≤ percent) (hp' : percent ≤ 100) {chain : Chain} {pre post : ConsensusState} {files : List Bytes}
    (h : Follows (networkGuest W sigValid X s percent) pre files post) (hne : files ≠ [])
    (hreal : RealFiles (Ssz.wire W sigValid) X (networkSpec s (Signing.signingRoot X.sha256)) chain files)
    (hbig : Funded (Ssz.wire W sigValid) X (networkSpec s (Signing.signingRoot X.sha256)) chain files)
    {root : Bytes} {view : View} (hview : Counted X signed (fun e => if e < e6 then v5 else v6) root view)
    {anc : Checkpoint → Checkpoint → Prop} (hanc : OneTree (Ssz.wire W sigValid) X anc files view)
    (hpre : JustifiedIn view.links view.start pre.currentJustified) {f : Checkpoint} (hf : FinalizedIn view.links view.start anc f)
    (hconf : ¬ anc post.finalized f) (hconf' : ¬ anc f post.finalized) :
    (∃ file ∈ files, ∃ input, Reads (Ssz.wire W sigValid) X file input ∧ ∃ link link' culprits,
      (∃ a ∈ input.attestations, linkOf a = link) ∧ view.links link' ∧
      Culprits X signed (fun e => if e < e6 then v5 else v6) (3 * percent) 200 (stateBehind chain input).genesisValidatorsRoot root
        (registryBehind (networkSpec s (Signing.signingRoot X.sha256)) chain input) (view.registry link')
        (input.attestations.map Attestation.data) view.votes link link' culprits) ∨
    ∃ link link' culprits, view.links link ∧ view.links link' ∧
      Culprits X signed (fun e => if e < e6 then v5 else v6) 200 200 root root (view.registry link) (view.registry link') view.votes view.votes
        link link' culprits := by
  obtain ⟨links, hrun, -, hlt, hcar⟩ := follows_run hW X hdomain signed hu ho hl h5 h6 hv he5 percent h hreal
  have hfin : post.finalized ≠ pre.finalized := fun e => by have := hlt hne; rw [e] at this; omega
  let all : Link → Prop := fun l => view.links l ∨ l ∈ links
  have hall : ∀ l, all l → anc l.source l.target := by
    rintro l (h1 | h1)
    · exact hanc.view l h1
    · obtain ⟨fl, hfl, input, hrd, ⟨a, ha, rfl⟩, -⟩ := hcar l h1
      exact hanc.files.votes fl hfl input hrd a ha
  obtain ⟨l, l', hl1, hl2, hsl⟩ := C87_casper (links := all) (start := view.start) hanc.files.refl hanc.files.trans hall
    (run_finalized hrun (fun l hl => .inr hl) (justified_mono (fun l hl => .inl hl) hpre) hfin)
    (finalized_mono (fun l hl => .inl hl) hf) hconf hconf'
  have mixed : ∀ {l l' : Link}, l ∈ links → view.links l' → Slashable l l' →
      ∃ file ∈ files, ∃ input, Reads (Ssz.wire W sigValid) X file input ∧ ∃ link link' culprits,
      (∃ a ∈ input.attestations, linkOf a = link) ∧ view.links link' ∧
      Culprits X signed (fun e => if e < e6 then v5 else v6) (3 * percent) 200 (stateBehind chain input).genesisValidatorsRoot root
        (registryBehind (networkSpec s (Signing.signingRoot X.sha256)) chain input) (view.registry link')
        (input.attestations.map Attestation.data) view.votes link link' culprits := by
    intro l l' hl1 hl2 hsl
    obtain ⟨fl, hfl, input, hrd, hvote, v, hc⟩ := hcar l hl1
    obtain ⟨v', n2, m2, w2⟩ := hview l' hl2
    have b1 := hbig fl hfl input hrd l.target.epoch (by obtain ⟨a, ha, e⟩ := hvote; exact ⟨a, ha, e ▸ rfl⟩)
    have t1 := share_unfloored (by omega) b1 hc.share
    refine ⟨fl, hfl, input, hrd, l, l', v.filter (fun i => decide (i ∈ v')), hvote, hl2, hsl, hc.distinct.filter _, fun i hi => ?_, fun i hi => ?_,
      culprits_weight (by omega) (by omega) (by omega) hc.distinct n2 hc.active (fun i hi => (m2 i hi).1) (by rw [Nat.mul_assoc]; omega) (by omega)⟩
    · simp only [List.mem_filter, decide_eq_true_eq] at hi
      exact ⟨hc.active i hi.1, (m2 i hi.2).1⟩
    · simp only [List.mem_filter, decide_eq_true_eq] at hi
      obtain ⟨a, ha, hla, -, -, -, hs⟩ := hc.signed i hi.1
      exact ⟨⟨a.data, List.mem_map_of_mem ha, hla, hs⟩, (m2 i hi.2).2⟩
  rcases hl1 with hl1 | hl1 <;> rcases hl2 with hl2 | hl2
  · obtain ⟨v, n1, m1, w1⟩ := hview l hl1
    obtain ⟨v', n2, m2, w2⟩ := hview l' hl2
    refine .inr ⟨l, l', v.filter (fun i => decide (i ∈ v')), hl1, hl2, hsl, n1.filter _, fun i hi => ?_, fun i hi => ?_,
      culprits_weight (by omega) (by omega) (by omega) n1 n2 (fun i hi => (m1 i hi).1) (fun i hi => (m2 i hi).1) (by omega) (by omega)⟩
    · simp only [List.mem_filter, decide_eq_true_eq] at hi
      exact ⟨(m1 i hi.1).1, (m2 i hi.2).1⟩
    · simp only [List.mem_filter, decide_eq_true_eq] at hi
      exact ⟨(m1 i hi.1).2, (m2 i hi.2).2⟩
  · exact .inl (mixed hl2 hl1 hsl.symm)
  · exact .inl (mixed hl1 hl2 hsl)
  · exact absurd hsl (run_not_slashable hrun l hl1 l' hl2)

/-- A client of a network and the chain, with few dishonest validators. -/
theorem network_together (hp : 67 ≤ percent) (hp' : percent ≤ 100) {chain : Chain} {pre post : ConsensusState} {files : List Bytes}
    (h : Follows (networkGuest W sigValid X s percent) pre files post) (hne : files ≠ [])
    (hreal : RealFiles (Ssz.wire W sigValid) X (networkSpec s (Signing.signingRoot X.sha256)) chain files)
    (hbig : Funded (Ssz.wire W sigValid) X (networkSpec s (Signing.signingRoot X.sha256)) chain files)
    {root : Bytes} (hroot : ∀ file ∈ files, ∀ input, Reads (Ssz.wire W sigValid) X file input → (stateBehind chain input).genesisValidatorsRoot = root)
    {view : View} (hview : Counted X signed (fun e => if e < e6 then v5 else v6) root view)
    {anc : Checkpoint → Checkpoint → Prop} (hanc : OneTree (Ssz.wire W sigValid) X anc files view)
    (hpre : JustifiedIn view.links view.start pre.currentJustified) {f : Checkpoint} (hf : FinalizedIn view.links view.start anc f)
    {dishonest : List Nat} (hhonest : AllHonestBut (Ssz.wire W sigValid) X signed (fun e => if e < e6 then v5 else v6) root
      (networkSpec s (Signing.signingRoot X.sha256)) chain files view dishonest)
    {d : Nat} (hsteady : SteadyElectorates (Ssz.wire W sigValid) X (networkSpec s (Signing.signingRoot X.sha256)) chain files view d)
    (hfew : LessThanThird (Ssz.wire W sigValid) X (networkSpec s (Signing.signingRoot X.sha256)) chain files view dishonest d) :
    anc post.finalized f ∨ anc f post.finalized := by
  by_contra hcon
  obtain ⟨hc1, hc2⟩ := not_or.1 hcon
  obtain ⟨key, hkey⟩ := hhonest
  -- the culprits are dishonest, and have too much
  have main : ∀ {share : Nat} {vs vs' : List Validator} {votes votes' : List AttestationData} {l l' : Link} {off : List Nat},
      200 ≤ share → Electorate (Ssz.wire W sigValid) X (networkSpec s (Signing.signingRoot X.sha256)) chain files view vs l.target.epoch →
      Electorate (Ssz.wire W sigValid) X (networkSpec s (Signing.signingRoot X.sha256)) chain files view vs' l'.target.epoch →
      (∀ x ∈ votes, VoteIn (Ssz.wire W sigValid) X files view x) → (∀ x ∈ votes', VoteIn (Ssz.wire W sigValid) X files view x) →
      (greaterBalance vs vs' (union (activeIndices vs l.target.epoch) (activeIndices vs' l'.target.epoch)) ≤
        balanceOf vs' (activeIndices vs' l'.target.epoch) + d) →
      ¬ Culprits X signed (fun e => if e < e6 then v5 else v6) share 200 root root vs vs' votes votes' l l' off := by
    intro share vs vs' votes votes' l l' off hsh he he' hvo hvo' hd2 hc
    have hsub : ∀ i ∈ off, i ∈ dishonest := by
      intro i hi
      by_contra hni
      obtain ⟨k1, k2⟩ := hkey i hni
      obtain ⟨a1, a2⟩ := hc.active i hi
      obtain ⟨⟨x, x1, x2, x3⟩, ⟨y, y1, y2, y3⟩⟩ := hc.signed i hi
      rw [k1 _ _ he a1] at x3
      rw [k1 _ _ he' a2] at y3
      have hsl := hc.slashable
      rw [← x2] at hsl x3
      rw [← y2] at hsl y3
      exact k2 x y (hvo x x1) (hvo' y y1) x3 y3 hsl
    have hle := sum_le_of_subset (registeredBalance vs) off dishonest hc.distinct hsub
    have hw := (hc.weight.2 d (hsteady _ _ _ _ he he') hd2).1
    have := hfew _ _ he
    have hm := Nat.mul_le_mul_right (balanceOf vs (activeIndices vs l.target.epoch)) (show 100 ≤ share + 200 - 300 by omega)
    simp only [balanceOf] at hw this hle hm
    omega
  have comm : ∀ (vs vs' : List Validator) (e e' : Nat), greaterBalance vs vs' (union (activeIndices vs e) (activeIndices vs' e')) ≤
      greaterBalance vs' vs (union (activeIndices vs' e') (activeIndices vs e)) := by
    intro vs vs' e e'
    have hfun : (fun i => max (registeredBalance vs' i) (registeredBalance vs i)) = (fun i => max (registeredBalance vs i) (registeredBalance vs' i)) := by
      funext i
      exact Nat.max_comm _ _
    have nd : ∀ (ws : List Validator) (x : Nat), (activeIndices ws x).Nodup := fun ws x => by
      unfold activeIndices
      exact List.nodup_range.filter _
    unfold greaterBalance
    rw [hfun]
    refine sum_le_of_subset _ _ _ ?_ ?_
    · unfold union
      rw [List.nodup_append]
      refine ⟨nd _ _, (nd _ _).filter _, ?_⟩
      rintro a ha b hb rfl
      simp only [List.mem_filter, decide_eq_true_eq] at hb
      exact hb.2 ha
    · intro i hi
      simp only [union, List.mem_append, List.mem_filter, decide_eq_true_eq] at hi ⊢
      by_cases hx : i ∈ activeIndices vs' e'
      · exact .inl hx
      · rcases hi with hi | hi
        · exact .inr ⟨hi, hx⟩
        · exact absurd hi.1 hx
  rcases network_parts hW X hdomain signed hu ho hl h5 h6 hv he5 percent hp hp' h hne hreal hbig hview hanc hpre hf hc1 hc2 with
    ⟨fl, hfl, input, hrd, l, l', off, ⟨a, ha, hla⟩, hl2, hc⟩ | ⟨l, l', off, hl1, hl2, hc⟩
  · rw [hroot fl hfl input hrd] at hc
    have he : Electorate (Ssz.wire W sigValid) X (networkSpec s (Signing.signingRoot X.sha256)) chain files view
        (registryBehind (networkSpec s (Signing.signingRoot X.sha256)) chain input) l.target.epoch := .proof hfl hrd ⟨a, ha, hla ▸ rfl⟩
    refine main (by omega) he (.chain hl2) (fun x hx => ?_) (fun x hx => .inl hx)
      (Nat.le_trans (comm _ _ _ _) (hsteady _ _ _ _ (.chain hl2) he)) hc
    obtain ⟨b, hb, rfl⟩ := List.mem_map.1 hx
    exact .inr ⟨fl, hfl, input, hrd, b, hb, rfl⟩
  · exact main (by omega) (.chain hl1) (.chain hl2) (fun x hx => .inl hx) (fun x hx => .inl hx)
      (Nat.le_trans (comm _ _ _ _) (hsteady _ _ _ _ (.chain hl2) (.chain hl1))) hc

/-- The links of a client's proofs have a supermajority by the rules of the chain. -/
theorem network_counts (hp : 67 ≤ percent) {chain : Chain} {pre post : ConsensusState} {files : List Bytes}
    (h : Follows (networkGuest W sigValid X s percent) pre files post) (hne : files ≠ [])
    (hreal : RealFiles (Ssz.wire W sigValid) X (networkSpec s (Signing.signingRoot X.sha256)) chain files)
    (hbig : Funded (Ssz.wire W sigValid) X (networkSpec s (Signing.signingRoot X.sha256)) chain files) :
    ∃ links, Run pre links post ∧ post.finalized ≠ pre.finalized ∧
      ∀ link ∈ links, ∃ file ∈ files, ∃ input, Reads (Ssz.wire W sigValid) X file input ∧ (∃ a ∈ input.attestations, linkOf a = link) ∧
        TwoThirds X signed (fun e => if e < e6 then v5 else v6) (stateBehind chain input).genesisValidatorsRoot
          (registryBehind (networkSpec s (Signing.signingRoot X.sha256)) chain input) (input.attestations.map Attestation.data) link := by
  obtain ⟨links, hrun, -, hlt, hcar⟩ := follows_run hW X hdomain signed hu ho hl h5 h6 hv he5 percent h hreal
  refine ⟨links, hrun, fun e => by have := hlt hne; rw [e] at this; omega, fun l hl => ?_⟩
  obtain ⟨fl, hfl, i, hrd, hvote, v, hc⟩ := hcar l hl
  refine ⟨fl, hfl, i, hrd, hvote, v, hc.distinct, fun k hk => ⟨hc.active k hk, ?_⟩, ?_⟩
  · obtain ⟨a, ha, hla, -, -, -, hs⟩ := hc.signed k hk
    exact ⟨a.data, List.mem_map_of_mem ha, hla, hs⟩
  · have t1 := share_unfloored (by omega) (hbig _ hfl i hrd l.target.epoch (by obtain ⟨a, ha, e⟩ := hvote; exact ⟨a, ha, e ▸ rfl⟩)) hc.share
    have := Nat.mul_le_mul_right (balanceOf (registryBehind (networkSpec s (Signing.signingRoot X.sha256)) chain i)
      (activeIndices (registryBehind (networkSpec s (Signing.signingRoot X.sha256)) chain i) l.target.epoch)) hp
    omega

/-- A chain that includes the votes of the files. -/
theorem network_finalized (hp : 67 ≤ percent) {chain : Chain} {pre post : ConsensusState} {files : List Bytes}
    (h : Follows (networkGuest W sigValid X s percent) pre files post) (hne : files ≠ [])
    (hreal : RealFiles (Ssz.wire W sigValid) X (networkSpec s (Signing.signingRoot X.sha256)) chain files)
    (hbig : Funded (Ssz.wire W sigValid) X (networkSpec s (Signing.signingRoot X.sha256)) chain files) {view : View}
    (hinc : Includes (Ssz.wire W sigValid) X signed (fun e => if e < e6 then v5 else v6) (networkSpec s (Signing.signingRoot X.sha256)) chain files view)
    (hpre : JustifiedIn view.links view.start pre.currentJustified) (anc : Checkpoint → Checkpoint → Prop) :
    FinalizedIn view.links view.start anc post.finalized ∧ JustifiedIn view.links view.start post.currentJustified := by
  obtain ⟨links, hrun, hfin, hcar⟩ := network_counts hW X hdomain signed hu ho hl h5 h6 hv he5 percent hp h hne hreal hbig
  have hall : ∀ l ∈ links, view.links l := fun l hl => by
    obtain ⟨fl, hfl, i, hrd, -, hs⟩ := hcar l hl
    exact hinc fl hfl i hrd l hs
  exact ⟨run_finalized hrun hall hpre hfin, (run_justified hrun hall hpre).2⟩

/-- The votes of a file as a view of the chain. -/
theorem network_view (hp : 67 ≤ percent) {chain : Chain} {pre post : ConsensusState} {file : Bytes} {input : GuestInput}
    (h : Follows (networkGuest W sigValid X s percent) pre [file] post)
    (hreal : RealFiles (Ssz.wire W sigValid) X (networkSpec s (Signing.signingRoot X.sha256)) chain [file])
    (hbig : Funded (Ssz.wire W sigValid) X (networkSpec s (Signing.signingRoot X.sha256)) chain [file])
    (hread : ∀ i, Reads (Ssz.wire W sigValid) X file i → i = input) (anc : Checkpoint → Checkpoint → Prop) :
    ∃ view : View, view.start = pre.currentJustified ∧ view.votes = input.attestations.map Attestation.data ∧
      view.registry = (fun _ => registryBehind (networkSpec s (Signing.signingRoot X.sha256)) chain input) ∧
      (∀ l, view.links l → ∃ a ∈ input.attestations, linkOf a = l) ∧
      Counted X signed (fun e => if e < e6 then v5 else v6) (stateBehind chain input).genesisValidatorsRoot view ∧
      FinalizedIn view.links view.start anc post.finalized := by
  obtain ⟨links, hrun, hfin, hcar⟩ := network_counts hW X hdomain signed hu ho hl h5 h6 hv he5 percent hp h (by simp) hreal hbig
  refine ⟨⟨pre.currentJustified, input.attestations.map Attestation.data, (· ∈ links),
    fun _ => registryBehind (networkSpec s (Signing.signingRoot X.sha256)) chain input⟩, rfl, rfl, rfl, fun l hl => ?_, fun l hl => ?_,
    run_finalized hrun (fun _ h => h) .start hfin⟩
  · obtain ⟨fl, hfl, i, hrd, hvote, -⟩ := hcar l hl
    obtain rfl := List.mem_singleton.1 hfl
    rw [hread i hrd] at hvote
    exact hvote
  · obtain ⟨fl, hfl, i, hrd, -, hs⟩ := hcar l hl
    obtain rfl := List.mem_singleton.1 hfl
    rw [hread i hrd] at hs
    exact hs

end

/-- **C87.** A light client of mainnet and the beacon chain: if they part, validators have signed votes that are slashable together. -/
theorem C87_mainnet_partial (W : WireExt) (sigValid : Bytes → Bool) (hW : WireLaws (Ssz.wire W sigValid)) (X : Ext)
    (hdomain : ∀ version root, X.computeDomain version root =
      Signing.computeDomain X.sha256 Signing.beaconAttester version root)
    (signed : Bytes → Bytes → Prop) (hu : Unforgeable X signed) (chain : Chain) (pre post : ConsensusState) (files : List Bytes)
    (h : Follows (guestMain (Ssz.wire W sigValid) X (mainnetOf X) Config.default) pre files post) (hne : files ≠ [])
    (hreal : RealFiles (Ssz.wire W sigValid) X (mainnetOf X) chain files)
    (hbig : Funded (Ssz.wire W sigValid) X (mainnetOf X) chain files)
    (root : Bytes) (view : View) (hview : Counted X signed (fun e => if e < 411392 then [5, 0, 0, 0] else [6, 0, 0, 0]) root view)
    (anc : Checkpoint → Checkpoint → Prop) (hanc : OneTree (Ssz.wire W sigValid) X anc files view)
    (hpre : JustifiedIn view.links view.start pre.currentJustified) (f : Checkpoint) (hf : FinalizedIn view.links view.start anc f)
    (hconf : ¬ anc post.finalized f) (hconf' : ¬ anc f post.finalized) :
    (∃ file ∈ files, ∃ input, Reads (Ssz.wire W sigValid) X file input ∧ ∃ link link' culprits,
      (∃ a ∈ input.attestations, linkOf a = link) ∧ view.links link' ∧
      Culprits X signed (fun e => if e < 411392 then [5, 0, 0, 0] else [6, 0, 0, 0]) 255 200 (stateBehind chain input).genesisValidatorsRoot root
        (registryBehind (mainnetOf X) chain input) (view.registry link') (input.attestations.map Attestation.data) view.votes link link' culprits) ∨
    ∃ link link' culprits, view.links link ∧ view.links link' ∧
      Culprits X signed (fun e => if e < 411392 then [5, 0, 0, 0] else [6, 0, 0, 0]) 200 200 root root (view.registry link) (view.registry link')
        view.votes view.votes link link' culprits :=
  network_parts hW X hdomain signed hu mainnet_ordered rfl rfl rfl (by decide) (by decide) 85 (by decide) (by decide) h hne hreal hbig hview hanc
    hpre hf hconf hconf'

/-- **C87.** A light client of mainnet and the beacon chain, with less than a third of the stake dishonest, do not part. -/
theorem C87_mainnet_safe_partial (W : WireExt) (sigValid : Bytes → Bool) (hW : WireLaws (Ssz.wire W sigValid)) (X : Ext)
    (hdomain : ∀ version root, X.computeDomain version root =
      Signing.computeDomain X.sha256 Signing.beaconAttester version root)
    (signed : Bytes → Bytes → Prop) (hu : Unforgeable X signed) (chain : Chain) (pre post : ConsensusState) (files : List Bytes)
    (h : Follows (guestMain (Ssz.wire W sigValid) X (mainnetOf X) Config.default) pre files post) (hne : files ≠ [])
    (hreal : RealFiles (Ssz.wire W sigValid) X (mainnetOf X) chain files)
    (hbig : Funded (Ssz.wire W sigValid) X (mainnetOf X) chain files)
    (root : Bytes) (hroot : ∀ file ∈ files, ∀ input, Reads (Ssz.wire W sigValid) X file input →
      (stateBehind chain input).genesisValidatorsRoot = root)
    (view : View) (hview : Counted X signed (fun e => if e < 411392 then [5, 0, 0, 0] else [6, 0, 0, 0]) root view)
    (anc : Checkpoint → Checkpoint → Prop) (hanc : OneTree (Ssz.wire W sigValid) X anc files view)
    (hpre : JustifiedIn view.links view.start pre.currentJustified) (f : Checkpoint) (hf : FinalizedIn view.links view.start anc f)
    (dishonest : List Nat) (hhonest : AllHonestBut (Ssz.wire W sigValid) X signed (fun e => if e < 411392 then [5, 0, 0, 0] else [6, 0, 0, 0]) root
      (mainnetOf X) chain files view dishonest)
    (d : Nat) (hsteady : SteadyElectorates (Ssz.wire W sigValid) X (mainnetOf X) chain files view d)
    (hfew : LessThanThird (Ssz.wire W sigValid) X (mainnetOf X) chain files view dishonest d) :
    anc post.finalized f ∨ anc f post.finalized :=
  network_together hW X hdomain signed hu mainnet_ordered rfl rfl rfl (by decide) (by decide) 85 (by decide) (by decide) h hne hreal hbig hroot
    hview hanc hpre hf hhonest hsteady hfew

/-- **C87.** A light client of Sepolia and the beacon chain: if they part, validators have signed votes that are slashable together. -/
theorem C87_sepolia_partial (W : WireExt) (sigValid : Bytes → Bool) (hW : WireLaws (Ssz.wire W sigValid)) (X : Ext)
    (hdomain : ∀ version root, X.computeDomain version root =
      Signing.computeDomain X.sha256 Signing.beaconAttester version root)
    (signed : Bytes → Bytes → Prop) (hu : Unforgeable X signed) (chain : Chain) (pre post : ConsensusState) (files : List Bytes)
    (h : Follows (guestMain (Ssz.wire W sigValid) X (sepoliaOf X) Config.sepolia) pre files post) (hne : files ≠ [])
    (hreal : RealFiles (Ssz.wire W sigValid) X (sepoliaOf X) chain files)
    (hbig : Funded (Ssz.wire W sigValid) X (sepoliaOf X) chain files)
    (root : Bytes) (view : View) (hview : Counted X signed (fun e => if e < 272640 then [0x90, 0, 0, 0x74] else [0x90, 0, 0, 0x75]) root view)
    (anc : Checkpoint → Checkpoint → Prop) (hanc : OneTree (Ssz.wire W sigValid) X anc files view)
    (hpre : JustifiedIn view.links view.start pre.currentJustified) (f : Checkpoint) (hf : FinalizedIn view.links view.start anc f)
    (hconf : ¬ anc post.finalized f) (hconf' : ¬ anc f post.finalized) :
    (∃ file ∈ files, ∃ input, Reads (Ssz.wire W sigValid) X file input ∧ ∃ link link' culprits,
      (∃ a ∈ input.attestations, linkOf a = link) ∧ view.links link' ∧
      Culprits X signed (fun e => if e < 272640 then [0x90, 0, 0, 0x74] else [0x90, 0, 0, 0x75]) 210 200 (stateBehind chain input).genesisValidatorsRoot root
        (registryBehind (sepoliaOf X) chain input) (view.registry link') (input.attestations.map Attestation.data) view.votes link link' culprits) ∨
    ∃ link link' culprits, view.links link ∧ view.links link' ∧
      Culprits X signed (fun e => if e < 272640 then [0x90, 0, 0, 0x74] else [0x90, 0, 0, 0x75]) 200 200 root root (view.registry link) (view.registry link')
        view.votes view.votes link link' culprits :=
  network_parts hW X hdomain signed hu sepolia_ordered rfl rfl rfl (by decide) (by decide) 70 (by decide) (by decide) h hne hreal hbig hview hanc
    hpre hf hconf hconf'

/-- **C87.** A light client of Sepolia and the beacon chain, with less than a third of the stake dishonest, do not part. -/
theorem C87_sepolia_safe_partial (W : WireExt) (sigValid : Bytes → Bool) (hW : WireLaws (Ssz.wire W sigValid)) (X : Ext)
    (hdomain : ∀ version root, X.computeDomain version root =
      Signing.computeDomain X.sha256 Signing.beaconAttester version root)
    (signed : Bytes → Bytes → Prop) (hu : Unforgeable X signed) (chain : Chain) (pre post : ConsensusState) (files : List Bytes)
    (h : Follows (guestMain (Ssz.wire W sigValid) X (sepoliaOf X) Config.sepolia) pre files post) (hne : files ≠ [])
    (hreal : RealFiles (Ssz.wire W sigValid) X (sepoliaOf X) chain files)
    (hbig : Funded (Ssz.wire W sigValid) X (sepoliaOf X) chain files)
    (root : Bytes) (hroot : ∀ file ∈ files, ∀ input, Reads (Ssz.wire W sigValid) X file input →
      (stateBehind chain input).genesisValidatorsRoot = root)
    (view : View) (hview : Counted X signed (fun e => if e < 272640 then [0x90, 0, 0, 0x74] else [0x90, 0, 0, 0x75]) root view)
    (anc : Checkpoint → Checkpoint → Prop) (hanc : OneTree (Ssz.wire W sigValid) X anc files view)
    (hpre : JustifiedIn view.links view.start pre.currentJustified) (f : Checkpoint) (hf : FinalizedIn view.links view.start anc f)
    (dishonest : List Nat) (hhonest : AllHonestBut (Ssz.wire W sigValid) X signed (fun e => if e < 272640 then [0x90, 0, 0, 0x74] else [0x90, 0, 0, 0x75]) root
      (sepoliaOf X) chain files view dishonest)
    (d : Nat) (hsteady : SteadyElectorates (Ssz.wire W sigValid) X (sepoliaOf X) chain files view d)
    (hfew : LessThanThird (Ssz.wire W sigValid) X (sepoliaOf X) chain files view dishonest d) :
    anc post.finalized f ∨ anc f post.finalized :=
  network_together hW X hdomain signed hu sepolia_ordered rfl rfl rfl (by decide) (by decide) 70 (by decide) (by decide) h hne hreal hbig hroot
    hview hanc hpre hf hhonest hsteady hfew

/-- **C87.** A beacon chain with the votes of a light client's proofs in its blocks finalizes what the client of mainnet finalizes, and justifies what the
client justifies. -/
theorem C87_mainnet_finalized_partial (W : WireExt) (sigValid : Bytes → Bool) (hW : WireLaws (Ssz.wire W sigValid)) (X : Ext)
    (hdomain : ∀ version root, X.computeDomain version root =
      Signing.computeDomain X.sha256 Signing.beaconAttester version root)
    (signed : Bytes → Bytes → Prop) (hu : Unforgeable X signed) (chain : Chain) (pre post : ConsensusState) (files : List Bytes)
    (h : Follows (guestMain (Ssz.wire W sigValid) X (mainnetOf X) Config.default) pre files post) (hne : files ≠ [])
    (hreal : RealFiles (Ssz.wire W sigValid) X (mainnetOf X) chain files)
    (hbig : Funded (Ssz.wire W sigValid) X (mainnetOf X) chain files) (view : View)
    (hinc : Includes (Ssz.wire W sigValid) X signed (fun e => if e < 411392 then [5, 0, 0, 0] else [6, 0, 0, 0]) (mainnetOf X) chain files view)
    (hpre : JustifiedIn view.links view.start pre.currentJustified) (anc : Checkpoint → Checkpoint → Prop) :
    FinalizedIn view.links view.start anc post.finalized ∧ JustifiedIn view.links view.start post.currentJustified :=
  network_finalized hW X hdomain signed hu mainnet_ordered rfl rfl rfl (by decide) (by decide) 85 (by decide) h hne hreal hbig hinc hpre anc

/-- **C87.** A beacon chain with the votes of a light client's proofs in its blocks finalizes what the client of Sepolia finalizes, and justifies what the
client justifies. -/
theorem C87_sepolia_finalized_partial (W : WireExt) (sigValid : Bytes → Bool) (hW : WireLaws (Ssz.wire W sigValid)) (X : Ext)
    (hdomain : ∀ version root, X.computeDomain version root =
      Signing.computeDomain X.sha256 Signing.beaconAttester version root)
    (signed : Bytes → Bytes → Prop) (hu : Unforgeable X signed) (chain : Chain) (pre post : ConsensusState) (files : List Bytes)
    (h : Follows (guestMain (Ssz.wire W sigValid) X (sepoliaOf X) Config.sepolia) pre files post) (hne : files ≠ [])
    (hreal : RealFiles (Ssz.wire W sigValid) X (sepoliaOf X) chain files)
    (hbig : Funded (Ssz.wire W sigValid) X (sepoliaOf X) chain files) (view : View)
    (hinc : Includes (Ssz.wire W sigValid) X signed (fun e => if e < 272640 then [0x90, 0, 0, 0x74] else [0x90, 0, 0, 0x75]) (sepoliaOf X) chain files view)
    (hpre : JustifiedIn view.links view.start pre.currentJustified) (anc : Checkpoint → Checkpoint → Prop) :
    FinalizedIn view.links view.start anc post.finalized ∧ JustifiedIn view.links view.start post.currentJustified :=
  network_finalized hW X hdomain signed hu sepolia_ordered rfl rfl rfl (by decide) (by decide) 70 (by decide) h hne hreal hbig hinc hpre anc

/-! ## Concrete cases -/

/-- A beacon chain that finalizes the checkpoint of epoch 4 by a link to epoch 6 only, as epoch 5 is justified from epoch 3. -/
def csLinks (l : Link) : Prop := l = ⟨⟨3, [3]⟩, ⟨4, [4]⟩⟩ ∨ l = ⟨⟨3, [3]⟩, ⟨5, [5]⟩⟩ ∨ l = ⟨⟨4, [4]⟩, ⟨6, [6]⟩⟩

example : FinalizedIn csLinks ⟨3, [3]⟩ (fun a b => a.epoch ≤ b.epoch) ⟨4, [4]⟩ := by
  refine .inr ⟨.link .start (.inl rfl) (by decide), ⟨6, [6]⟩, .inr (.inr rfl), by decide, fun e h h' => ?_⟩
  refine ⟨⟨5, [5]⟩, .link .start (.inr (.inl rfl)) (by decide), ?_, by decide⟩
  simp only at h h' ⊢
  omega

/-- The ancestry in a chain that forks after epoch 3. -/
def csAnc (a b : Checkpoint) : Prop := a = b ∨ a = ⟨3, [3]⟩ ∨ (a = ⟨4, [4]⟩ ∧ b = ⟨5, [5]⟩) ∨ (a = ⟨4, [4]⟩ ∧ b = ⟨6, [6]⟩) ∨
  (a = ⟨5, [9]⟩ ∧ b = ⟨7, [9]⟩)

/-- On the other branch epoch 5 is justified from epoch 3 and finalized by a link to epoch 7 that skips one. -/
def csForked (l : Link) : Prop := csLinks l ∨ l = ⟨⟨3, [3]⟩, ⟨5, [9]⟩⟩ ∨ l = ⟨⟨3, [3]⟩, ⟨6, [9]⟩⟩ ∨ l = ⟨⟨5, [9]⟩, ⟨7, [9]⟩⟩

example : ∃ l l', csForked l ∧ csForked l' ∧ Slashable l l' := by
  refine C87_casper (start := ⟨3, [3]⟩) (anc := fun a b => csAnc a b ∨ (a = ⟨5, [9]⟩ ∧ b = ⟨6, [9]⟩)) (f := ⟨4, [4]⟩) (f' := ⟨5, [9]⟩)
    (fun c => .inl (.inl rfl)) ?_ ?_ ?_ ?_ (by unfold csAnc; decide) (by unfold csAnc; decide)
  · unfold csAnc
    rintro a b c ((rfl | rfl | ⟨rfl, rfl⟩ | ⟨rfl, rfl⟩ | ⟨rfl, rfl⟩) | ⟨rfl, rfl⟩) h <;> simp_all
  · unfold csForked csLinks csAnc
    rintro l ((rfl | rfl | rfl) | rfl | rfl | rfl) <;> decide
  · refine .inr ⟨.link .start (.inl (.inl rfl)) (by decide), ⟨6, [6]⟩, .inl (.inr (.inr rfl)), by decide, fun e h h' => ?_⟩
    refine ⟨⟨5, [5]⟩, .link .start (.inl (.inr (.inl rfl))) (by decide), ?_, by unfold csAnc; decide⟩
    simp only at h h' ⊢
    omega
  · refine .inr ⟨.link .start (.inr (.inl rfl)) (by decide), ⟨7, [9]⟩, .inr (.inr (.inr rfl)), by decide, fun e h h' => ?_⟩
    refine ⟨⟨6, [9]⟩, .link .start (.inr (.inr (.inl rfl))) (by decide), ?_, .inr ⟨rfl, rfl⟩⟩
    simp only at h h' ⊢
    omega

/-- The culprits have so much. -/
theorem dv_culprits {share : Nat} {signed : Bytes → Bytes → Prop} {version : Nat → Bytes} {r r' : Bytes} {n : Net} (hn : n.Shipped)
    {votes votes' : List AttestationData} {link link' : Link} {off : List Nat} {i i' : GuestInput} (hi : i = n.input ∨ i = Fork.input n)
    (hi' : i' = n.input ∨ i' = Fork.input n) (ht : Targets i link.target.epoch) (ht' : Targets i' link'.target.epoch)
    (hc : Culprits exExt signed version share 200 r r' (dvVs n) (dvVs n) votes votes' link link' off) :
    (share - 100) * 320000000000 ≤ 300 * balanceOf (dvVs n) off := by
  have hu : union (List.range 10) (List.range 10) = List.range 10 := by decide
  obtain ⟨-, w1, w2, -⟩ := dv_weights hn
  have hw := hc.weight.2 0
  rw [dv_active hn hi ht, dv_active hn hi' ht', hu, w1, w2] at hw
  have := (hw (Nat.le_refl _) (Nat.le_refl _)).1
  rw [show share + 200 - 300 = share - 100 by omega] at this
  exact this

section
variable {n : Net} (hn : n.Shipped)
include hn

theorem dv_one_tree {view : View} {i : GuestInput} (hi : i = n.input ∨ i = Fork.input n)
    (hlinks : ∀ l, view.links l → ∃ a ∈ i.attestations, linkOf a = l) :
    OneTree (Ssz.wire exWire (fun _ => true)) exExt (dvAnc n) [n.file] view where
  files := ⟨(dv_ancestry hn).refl, (dv_ancestry hn).trans, fun f hf => (dv_ancestry hn).votes f (by simp at hf; simp [hf])⟩
  view l hl := by
    obtain ⟨a, ha, rfl⟩ := hlinks l hl
    rcases hi with rfl | rfl
    · exact dv_votes a ha
    · exact dv_votes' a ha

/-- The electorates of the first file and the view it gives. -/
theorem dv_electorate {view : View} (hreg : view.registry = fun _ => dvVs n)
    (hlinks : ∀ l, view.links l → ∃ a ∈ n.input.attestations, linkOf a = l) {vs : List Validator} {e : Nat}
    (h : Electorate (Ssz.wire exWire (fun _ => true)) exExt n.spec (dvChain n) [n.file] view vs e) :
    vs = dvVs n ∧ activeIndices (dvVs n) e = List.range 10 := by
  cases h with
  | proof hf hr ht =>
    obtain rfl := List.mem_singleton.1 hf
    have hi := dv_reads_one hn hr
    exact ⟨dv_registry (.inl hi), dv_active hn (.inl hi) ht⟩
  | chain hl =>
    obtain ⟨a, ha, rfl⟩ := hlinks _ hl
    exact ⟨by rw [hreg], dv_active hn (.inl rfl) ⟨a, ha, rfl⟩⟩

theorem dv_all_honest {view : View} (hvotes : view.votes = n.input.attestations.map Attestation.data) (hreg : view.registry = fun _ => dvVs n)
    (hlinks : ∀ l, view.links l → ∃ a ∈ n.input.attestations, linkOf a = l) (version : Nat → Bytes) (root : Bytes) (dishonest : List Nat) :
    AllHonestBut (Ssz.wire exWire (fun _ => true)) exExt swSigned version root n.spec (dvChain n) [n.file] view dishonest := by
  refine ⟨registeredKey (dvVs n), fun i _ => ⟨fun vs e he _ => by rw [(dv_electorate hn hreg hlinks he).1], fun d d' hd hd' _ _ => ?_⟩⟩
  have hv : ∀ d, VoteIn (Ssz.wire exWire (fun _ => true)) exExt [n.file] view d → ∃ a ∈ n.votes, a.data = d := by
    rintro d (h | ⟨f, hf, i, hr, h⟩)
    · rw [hvotes] at h
      obtain ⟨a, ha, rfl⟩ := List.mem_map.1 h
      exact ⟨a, ha, rfl⟩
    · obtain rfl := List.mem_singleton.1 hf
      rw [dv_reads_one hn hr] at h
      exact h
  obtain ⟨a, ha, rfl⟩ := hv d hd
  obtain ⟨a', ha', rfl⟩ := hv d' hd'
  exact dv_together hn a ha a' ha'

theorem dv_electorates_steady {view : View} (hreg : view.registry = fun _ => dvVs n)
    (hlinks : ∀ l, view.links l → ∃ a ∈ n.input.attestations, linkOf a = l) :
    SteadyElectorates (Ssz.wire exWire (fun _ => true)) exExt n.spec (dvChain n) [n.file] view 0 := by
  intro vs e vs' e' h h'
  obtain ⟨rfl, h1⟩ := dv_electorate hn hreg hlinks h
  obtain ⟨rfl, h2⟩ := dv_electorate hn hreg hlinks h'
  obtain ⟨-, w1, w2, -⟩ := dv_weights hn
  rw [h1, h2, show union (List.range 10) (List.range 10) = List.range 10 by decide, w1, w2]

theorem dv_less_than_third {view : View} (hreg : view.registry = fun _ => dvVs n)
    (hlinks : ∀ l, view.links l → ∃ a ∈ n.input.attestations, linkOf a = l) :
    LessThanThird (Ssz.wire exWire (fun _ => true)) exExt n.spec (dvChain n) [n.file] view [0, 1, 2] 0 := by
  intro vs e h
  obtain ⟨rfl, h1⟩ := dv_electorate hn hreg hlinks h
  obtain ⟨-, w1, -, -, w3⟩ := dv_weights hn
  rw [h1, w1, w3]
  decide

end

theorem view_mainnet {chain : Chain} {pre post : ConsensusState} {file : Bytes} {input : GuestInput}
    (h : Follows (guestMain (Ssz.wire exWire (fun _ => true)) exExt (mainnetOf exExt) Config.default) pre [file] post)
    (hreal : RealFiles (Ssz.wire exWire (fun _ => true)) exExt (mainnetOf exExt) chain [file])
    (hbig : Funded (Ssz.wire exWire (fun _ => true)) exExt (mainnetOf exExt) chain [file])
    (hread : ∀ i, Reads (Ssz.wire exWire (fun _ => true)) exExt file i → i = input) (anc : Checkpoint → Checkpoint → Prop) :
    ∃ view : View, view.start = pre.currentJustified ∧ view.votes = input.attestations.map Attestation.data ∧
      view.registry = (fun _ => registryBehind (mainnetOf exExt) chain input) ∧
      (∀ l, view.links l → ∃ a ∈ input.attestations, linkOf a = l) ∧
      Counted exExt swSigned (fun e => if e < 411392 then [5, 0, 0, 0] else [6, 0, 0, 0]) (stateBehind chain input).genesisValidatorsRoot view ∧
      FinalizedIn view.links view.start anc post.finalized :=
  network_view szWire_laws exExt (fun _ _ => rfl) swSigned swSigned_unforgeable mainnet_ordered rfl rfl rfl (by decide) (by decide) 85 (by decide)
    h hreal hbig hread anc

theorem view_sepolia {chain : Chain} {pre post : ConsensusState} {file : Bytes} {input : GuestInput}
    (h : Follows (guestMain (Ssz.wire exWire (fun _ => true)) exExt (sepoliaOf exExt) Config.sepolia) pre [file] post)
    (hreal : RealFiles (Ssz.wire exWire (fun _ => true)) exExt (sepoliaOf exExt) chain [file])
    (hbig : Funded (Ssz.wire exWire (fun _ => true)) exExt (sepoliaOf exExt) chain [file])
    (hread : ∀ i, Reads (Ssz.wire exWire (fun _ => true)) exExt file i → i = input) (anc : Checkpoint → Checkpoint → Prop) :
    ∃ view : View, view.start = pre.currentJustified ∧ view.votes = input.attestations.map Attestation.data ∧
      view.registry = (fun _ => registryBehind (sepoliaOf exExt) chain input) ∧
      (∀ l, view.links l → ∃ a ∈ input.attestations, linkOf a = l) ∧
      Counted exExt swSigned (fun e => if e < 272640 then [0x90, 0, 0, 0x74] else [0x90, 0, 0, 0x75]) (stateBehind chain input).genesisValidatorsRoot view ∧
      FinalizedIn view.links view.start anc post.finalized :=
  network_view szWire_laws exExt (fun _ _ => rfl) swSigned swSigned_unforgeable sepolia_ordered rfl rfl rfl (by decide) (by decide) 70 (by decide)
    h hreal hbig hread anc

/-- A client of mainnet that follows the first file, and a beacon chain with the votes of the other: a third of the 320 ETH is slashable. -/
example : ∃ link link' culprits, Slashable link link' ∧ culprits.Nodup ∧ 106666666666 ≤ balanceOf (dvVs Net.mainnet) culprits := by
  have hn : Net.mainnet.Shipped := Or.inl rfl
  have key := C87_mainnet_partial exWire (fun _ => true) szWire_laws exExt (fun _ _ => rfl) swSigned swSigned_unforgeable
  have hview := @view_mainnet
  rw [dv_mainnet, dv_mainnet_cfg] at key hview
  obtain ⟨view, h1, -, h3, h4, h5, h6⟩ := hview (dv_follows' hn) (fun f hf => dv_real hn f (List.mem_append_right _ hf))
    (fun f hf => dv_funded hn f (List.mem_append_right _ hf)) (fun i hi => dv_reads_two hn hi) (dvAnc Net.mainnet)
  rcases key (dvChain Net.mainnet) _ _ _ (dv_follows hn) (by simp) (fun f hf => dv_real hn f (List.mem_append_left _ hf))
    (fun f hf => dv_funded hn f (List.mem_append_left _ hf)) _ view h5 _ (dv_one_tree hn (.inr rfl) h4) (h1 ▸ .start) _ h6
    (dv_conflict hn).1 (dv_conflict hn).2 with ⟨f, hf, i, hr, l, l', off, ⟨a, ha, hl⟩, hl', hc⟩ | ⟨l, l', off, hl, hl', hc⟩
  · have hi : i = Net.mainnet.input ∨ i = Fork.input Net.mainnet := dv_inputs hn (List.mem_append_left _ hf) hr
    obtain ⟨a', ha', hl'⟩ := h4 _ hl'
    rw [h3] at hc
    subst hl hl'
    have := dv_culprits hn hi (.inr rfl) ⟨a, ha, rfl⟩ ⟨a', ha', rfl⟩
      (by rw [dv_registry hi] at hc; exact hc)
    exact ⟨_, _, off, hc.slashable, hc.distinct, by omega⟩
  · obtain ⟨a, ha, hl⟩ := h4 _ hl
    obtain ⟨a', ha', hl'⟩ := h4 _ hl'
    rw [h3] at hc
    subst hl hl'
    have := dv_culprits hn (.inr rfl) (.inr rfl) ⟨a, ha, rfl⟩ ⟨a', ha', rfl⟩ hc
    exact ⟨_, _, off, hc.slashable, hc.distinct, by omega⟩

/-- A client of mainnet that follows the first file, and a beacon chain with the votes of the same, with three of the ten validators dishonest. -/
example : ∃ view : View, FinalizedIn view.links view.start (dvAnc Net.mainnet) Net.mainnet.last ∧
    (dvAnc Net.mainnet Net.mainnet.last Net.mainnet.last ∨ dvAnc Net.mainnet Net.mainnet.last Net.mainnet.last) := by
  have hn : Net.mainnet.Shipped := Or.inl rfl
  have key := C87_mainnet_safe_partial exWire (fun _ => true) szWire_laws exExt (fun _ _ => rfl) swSigned swSigned_unforgeable
  have hview := @view_mainnet
  rw [dv_mainnet, dv_mainnet_cfg] at key hview
  obtain ⟨view, h1, h2, h3, h4, h5, h6⟩ := hview (dv_follows hn) (fun f hf => dv_real hn f (List.mem_append_left _ hf))
    (fun f hf => dv_funded hn f (List.mem_append_left _ hf)) (fun i hi => dv_reads_one hn hi) (dvAnc Net.mainnet)
  exact ⟨view, h6, key (dvChain Net.mainnet) _ _ _ (dv_follows hn) (by simp) (fun f hf => dv_real hn f (List.mem_append_left _ hf))
    (fun f hf => dv_funded hn f (List.mem_append_left _ hf)) _
    (fun f hf i hr => by obtain rfl := List.mem_singleton.1 hf; rw [dv_reads_one hn hr]) view h5 _ (dv_one_tree hn (.inl rfl) h4) (h1 ▸ .start) _ h6
    [0, 1, 2] (dv_all_honest hn h2 h3 h4 _ _ _) 0 (dv_electorates_steady hn h3 h4) (dv_less_than_third hn h3 h4)⟩

/-- A client of Sepolia that follows the first file, and a beacon chain with the votes of the other: a third of the 320 ETH is slashable. -/
example : ∃ link link' culprits, Slashable link link' ∧ culprits.Nodup ∧ 106666666666 ≤ balanceOf (dvVs Net.sepolia) culprits := by
  have hn : Net.sepolia.Shipped := Or.inr rfl
  have key := C87_sepolia_partial exWire (fun _ => true) szWire_laws exExt (fun _ _ => rfl) swSigned swSigned_unforgeable
  have hview := @view_sepolia
  rw [dv_sepolia, dv_sepolia_cfg] at key hview
  obtain ⟨view, h1, -, h3, h4, h5, h6⟩ := hview (dv_follows' hn) (fun f hf => dv_real hn f (List.mem_append_right _ hf))
    (fun f hf => dv_funded hn f (List.mem_append_right _ hf)) (fun i hi => dv_reads_two hn hi) (dvAnc Net.sepolia)
  rcases key (dvChain Net.sepolia) _ _ _ (dv_follows hn) (by simp) (fun f hf => dv_real hn f (List.mem_append_left _ hf))
    (fun f hf => dv_funded hn f (List.mem_append_left _ hf)) _ view h5 _ (dv_one_tree hn (.inr rfl) h4) (h1 ▸ .start) _ h6
    (dv_conflict hn).1 (dv_conflict hn).2 with ⟨f, hf, i, hr, l, l', off, ⟨a, ha, hl⟩, hl', hc⟩ | ⟨l, l', off, hl, hl', hc⟩
  · have hi : i = Net.sepolia.input ∨ i = Fork.input Net.sepolia := dv_inputs hn (List.mem_append_left _ hf) hr
    obtain ⟨a', ha', hl'⟩ := h4 _ hl'
    rw [h3] at hc
    subst hl hl'
    have := dv_culprits hn hi (.inr rfl) ⟨a, ha, rfl⟩ ⟨a', ha', rfl⟩
      (by rw [dv_registry hi] at hc; exact hc)
    exact ⟨_, _, off, hc.slashable, hc.distinct, by omega⟩
  · obtain ⟨a, ha, hl⟩ := h4 _ hl
    obtain ⟨a', ha', hl'⟩ := h4 _ hl'
    rw [h3] at hc
    subst hl hl'
    have := dv_culprits hn (.inr rfl) (.inr rfl) ⟨a, ha, rfl⟩ ⟨a', ha', rfl⟩ hc
    exact ⟨_, _, off, hc.slashable, hc.distinct, by omega⟩

/-- A client of Sepolia that follows the first file, and a beacon chain with the votes of the same, with three of the ten validators dishonest. -/
example : ∃ view : View, FinalizedIn view.links view.start (dvAnc Net.sepolia) Net.sepolia.last ∧
    (dvAnc Net.sepolia Net.sepolia.last Net.sepolia.last ∨ dvAnc Net.sepolia Net.sepolia.last Net.sepolia.last) := by
  have hn : Net.sepolia.Shipped := Or.inr rfl
  have key := C87_sepolia_safe_partial exWire (fun _ => true) szWire_laws exExt (fun _ _ => rfl) swSigned swSigned_unforgeable
  have hview := @view_sepolia
  rw [dv_sepolia, dv_sepolia_cfg] at key hview
  obtain ⟨view, h1, h2, h3, h4, h5, h6⟩ := hview (dv_follows hn) (fun f hf => dv_real hn f (List.mem_append_left _ hf))
    (fun f hf => dv_funded hn f (List.mem_append_left _ hf)) (fun i hi => dv_reads_one hn hi) (dvAnc Net.sepolia)
  exact ⟨view, h6, key (dvChain Net.sepolia) _ _ _ (dv_follows hn) (by simp) (fun f hf => dv_real hn f (List.mem_append_left _ hf))
    (fun f hf => dv_funded hn f (List.mem_append_left _ hf)) _
    (fun f hf i hr => by obtain rfl := List.mem_singleton.1 hf; rw [dv_reads_one hn hr]) view h5 _ (dv_one_tree hn (.inl rfl) h4) (h1 ▸ .start) _ h6
    [0, 1, 2] (dv_all_honest hn h2 h3 h4 _ _ _) 0 (dv_electorates_steady hn h3 h4) (dv_less_than_third hn h3 h4)⟩

/-- A beacon chain whose links are those with a supermajority in the first file finalizes the checkpoint that the client of mainnet finalizes. -/
example : ∃ view : View, view.start = Net.mainnet.justified ∧ (∀ l, view.links l → TwoThirds exExt swSigned
      (fun e => if e < 411392 then [5, 0, 0, 0] else [6, 0, 0, 0]) (exRoot32 77) (dvVs Net.mainnet) (Net.mainnet.votes.map Attestation.data) l) ∧
    FinalizedIn view.links view.start (dvAnc Net.mainnet) Net.mainnet.last := by
  have hn : Net.mainnet.Shipped := Or.inl rfl
  have key := C87_mainnet_finalized_partial exWire (fun _ => true) szWire_laws exExt (fun _ _ => rfl) swSigned swSigned_unforgeable
  rw [dv_mainnet, dv_mainnet_cfg] at key
  refine ⟨⟨Net.mainnet.justified, [], TwoThirds exExt swSigned (fun e => if e < 411392 then [5, 0, 0, 0] else [6, 0, 0, 0]) (exRoot32 77)
    (dvVs Net.mainnet) (Net.mainnet.votes.map Attestation.data), fun _ => []⟩, rfl, fun l hl => hl, ?_⟩
  refine (key (dvChain Net.mainnet) _ _ _ (dv_follows hn) (by simp) (fun f hf => dv_real hn f (List.mem_append_left _ hf))
    (fun f hf => dv_funded hn f (List.mem_append_left _ hf)) ⟨_, _, _, _⟩ ?_ .start _).1
  intro f hf i hr l hl
  obtain rfl := List.mem_singleton.1 hf
  rw [dv_reads_one hn hr] at hl
  exact hl

/-- A beacon chain whose links are those with a supermajority in the first file finalizes the checkpoint that the client of Sepolia finalizes. -/
example : ∃ view : View, view.start = Net.sepolia.justified ∧ (∀ l, view.links l → TwoThirds exExt swSigned
      (fun e => if e < 272640 then [0x90, 0, 0, 0x74] else [0x90, 0, 0, 0x75]) (exRoot32 77) (dvVs Net.sepolia) (Net.sepolia.votes.map Attestation.data) l) ∧
    FinalizedIn view.links view.start (dvAnc Net.sepolia) Net.sepolia.last := by
  have hn : Net.sepolia.Shipped := Or.inr rfl
  have key := C87_sepolia_finalized_partial exWire (fun _ => true) szWire_laws exExt (fun _ _ => rfl) swSigned swSigned_unforgeable
  rw [dv_sepolia, dv_sepolia_cfg] at key
  refine ⟨⟨Net.sepolia.justified, [], TwoThirds exExt swSigned (fun e => if e < 272640 then [0x90, 0, 0, 0x74] else [0x90, 0, 0, 0x75]) (exRoot32 77)
    (dvVs Net.sepolia) (Net.sepolia.votes.map Attestation.data), fun _ => []⟩, rfl, fun l hl => hl, ?_⟩
  refine (key (dvChain Net.sepolia) _ _ _ (dv_follows hn) (by simp) (fun f hf => dv_real hn f (List.mem_append_left _ hf))
    (fun f hf => dv_funded hn f (List.mem_append_left _ hf)) ⟨_, _, _, _⟩ ?_ .start _).1
  intro f hf i hr l hl
  obtain rfl := List.mem_singleton.1 hf
  rw [dv_reads_one hn hr] at hl
  exact hl

/-- A beacon chain that does not include the votes need not finalize the client's checkpoint. -/
example : ¬ FinalizedIn (fun _ => False) Net.mainnet.justified (dvAnc Net.mainnet) Net.mainnet.last := by
  rintro (h | ⟨-, b, h, -⟩)
  · exact absurd (congrArg Checkpoint.epoch h) (by decide)
  · exact h

end Signal
