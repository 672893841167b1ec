import Verif.Spec.Follow
import Verif.Proofs.Program
import Verif.Proofs.Client
import Verif.Props.ShippedVotes

/-! Helper lemmas: when an input can be prepared. -/

namespace Signal
open Spec Program

/-! ## The walk along the chain -/

theorem moves_iff {s t : ConsensusState} {o : Option Link} (hv : ValidState s) : s.transitionLink t = .ok o ↔ Moves s o t := by
  rw [transitionLink_ok_iff]
  constructor
  · rintro ⟨-, -, h3, h4, h⟩
    obtain ⟨c, f⟩ := s
    obtain ⟨c', f'⟩ := t
    rcases h with ⟨h5, h6, rfl⟩ | ⟨h5, h6, h7, h8, rfl⟩ | ⟨h5, h6, h7, rfl⟩
    · cases h5; cases h6; exact .stays _
    · simp only at h7 h8 h6; subst h7
      refine .link (.finalize _ _ _ (by simp only; omega)) ?_
      rintro ⟨hz, -⟩
      cases hz
      exact h6 rfl
    · simp only at h6 h7; subst h6
      refine .link (.justify _ _ _ (by simp only; omega)) ?_
      rintro ⟨hz, h1⟩
      cases hz
      simp only at h7 h1
      omega
  · intro h
    cases h with
    | stays => exact ⟨hv, hv, .inr rfl, .inr rfl, .inl ⟨rfl, rfl, rfl⟩⟩
    | link h hz =>
      refine ⟨hv, h.valid hv, ?_, .inl h.justified_lt, ?_⟩
      · cases h with
        | finalize c f b h =>
          rcases hv with hv | hv
          · exact .inl hv
          · simp at hv; right; simp [hv]
        | justify c f b h => exact .inr rfl
      · have hlt := h.justified_lt
        cases h with
        | finalize c f b h =>
          simp only at hlt hz h ⊢
          refine .inr (.inl ⟨by rintro rfl; omega, ?_, trivial, by omega, trivial⟩)
          rintro rfl
          rcases hv with hv | hv
          · simp only at hv; omega
          · refine hz ⟨hv, ?_⟩
            cases hv
            simpa using h
        | justify c f b h =>
          simp only at hlt h ⊢
          exact .inr (.inr ⟨by rintro rfl; omega, trivial, by omega, trivial⟩)

theorem Spec.Moves.valid {s t : ConsensusState} {o : Option Link} (h : Moves s o t) (hv : ValidState s) : ValidState t :=
  ((transitionLink_ok_iff _ _ _).1 ((moves_iff hv).2 h)).2.1

theorem Spec.WayToFinality.lt {spe : Nat} {ask : StateAnswers} {f : Checkpoint} {e : Nat} {s : ConsensusState} {links : List Link}
    {s' : ConsensusState} {stop : Nat} (h : WayToFinality spe ask f e s links s' stop) : e < stop := by
  induction h with
  | arrives => omega
  | goesOn hs hm hf rest ih => omega

theorem Spec.WayToFinality.last {spe : Nat} {ask : StateAnswers} {f : Checkpoint} {e : Nat} {s : ConsensusState} {links : List Link}
    {s' : ConsensusState} {stop : Nat} (h : WayToFinality spe ask f e s links s' stop) : ∃ slot, ask slot = .ok s' := by
  induction h with
  | arrives hs => exact ⟨_, hs⟩
  | goesOn _ _ _ _ ih => exact ih

theorem loop_way (spe : Nat) (ask : StateAnswers) (f : Checkpoint) (s' : ConsensusState) (out : List Link) :
    ∀ (bound e : Nat) (prev : ConsensusState) (acc : List Link),
      justificationsLoop spe ask f bound (e + 1) prev acc = some (.ok (s', out)) ↔
        ∃ links stop, ValidState prev ∧ out = acc ++ links ∧ WayToFinality spe ask f e prev links s' stop ∧ stop ≤ e + bound := by
  intro bound
  induction bound with
  | zero =>
    intro e prev acc
    simp only [justificationsLoop, reduceCtorEq, false_iff]
    rintro ⟨links, stop, -, -, h, h2⟩
    have := h.lt
    omega
  | succ n ih =>
    intro e prev acc
    constructor
    · intro h
      unfold justificationsLoop at h
      cases hask : ask (startSlot spe (e + 1)) with
      | panic => rw [hask] at h; simp at h
      | err x => rw [hask] at h; simp at h
      | ok cur =>
        rw [hask] at h
        simp only at h
        cases hl : prev.transitionLink cur with
        | panic => rw [hl] at h; simp at h
        | err x => rw [hl] at h; simp at h
        | ok o =>
          rw [hl] at h
          simp only at h
          have hv := ((transitionLink_ok_iff _ _ _).1 hl).1
          split at h
          · rename_i hne
            simp only [Option.some.injEq, Res.ok.injEq, Prod.mk.injEq] at h
            obtain ⟨rfl, rfl⟩ := h
            exact ⟨o.toList, e + 1, hv, rfl, .arrives hask ((moves_iff hv).1 hl) hne, by omega⟩
          · rename_i heq
            simp only [ne_eq, Decidable.not_not] at heq
            obtain ⟨links, stop, -, rfl, h3, h4⟩ := (ih _ _ _).1 h
            exact ⟨o.toList ++ links, stop, hv, by simp, .goesOn hask ((moves_iff hv).1 hl) heq h3, by omega⟩
    · rintro ⟨links, stop, hv, rfl, h, h2⟩
      unfold justificationsLoop
      cases h with
      | arrives hs hm hf =>
        have hs : ask (startSlot spe (e + 1)) = _ := hs
        rw [hs]
        dsimp only
        rw [(moves_iff hv).2 hm]
        dsimp only
        rw [if_pos hf]
      | @goesOn _ _ o t links _ _ hs hm hf rest =>
        have hs : ask (startSlot spe (e + 1)) = _ := hs
        rw [hs]
        dsimp only
        rw [(moves_iff hv).2 hm]
        dsimp only
        rw [if_neg (by simpa using hf)]
        exact (ih _ _ _).2 ⟨links, stop, hm.valid hv, by simp, rest, by omega⟩

/-- What the walk returns. -/
theorem walk_ok_iff (spe : Nat) (ask : StateAnswers) (start bound : Nat) (s s' : ConsensusState) (links : List Link) :
    justificationsUntilNewFinality spe ask start bound = some (.ok (s, s', links)) ↔
      ∃ stop, ChainAt spe ask start s ∧ ValidState s ∧ WayToFinality spe ask s.finalized start s links s' stop ∧ stop ≤ start + bound := by
  unfold justificationsUntilNewFinality
  constructor
  · intro h
    cases hask : ask (startSlot spe start) with
    | panic => rw [hask] at h; simp at h
    | err x => rw [hask] at h; simp at h
    | ok s0 =>
      rw [hask] at h
      simp only [Option.map_eq_some_iff] at h
      obtain ⟨r, hr, h⟩ := h
      cases r with
      | panic => cases h
      | err x => cases h
      | ok p =>
        obtain ⟨s1, out⟩ := p
        simp only [Res.ok_bind, Res.pure_eq, Res.ok.injEq, Prod.mk.injEq] at h
        obtain ⟨rfl, rfl, rfl⟩ := h
        obtain ⟨links, stop, hv, rfl, h1, h2⟩ := (loop_way _ _ _ _ _ _ _ _ _).1 hr
        exact ⟨stop, hask, hv, h1, h2⟩
  · rintro ⟨stop, hs, hv, h1, h2⟩
    have hs : ask (startSlot spe start) = _ := hs
    rw [hs]
    dsimp only
    rw [(loop_way spe ask s.finalized s' links bound start s []).2 ⟨links, stop, hv, rfl, h1, h2⟩]
    rfl

theorem Spec.WayToFinality.finalizes {spe : Nat} {ask : StateAnswers} {f : Checkpoint} {e : Nat} {s : ConsensusState} {links : List Link}
    {s' : ConsensusState} {stop : Nat} (h : WayToFinality spe ask f e s links s' stop) (hf : s.finalized = f) (hv : ValidState s) :
    s'.finalized ≠ f ∧ AtomicFinalization s.currentJustified links (s'.finalized, s'.currentJustified) := by
  induction h with
  | @arrives e s o s' hs hm hne =>
    refine ⟨hne, ?_⟩
    cases hm with
    | stays => exact absurd hf hne
    | link h hz =>
      cases h with
      | finalize c f b h => exact .last _ _ h
      | justify c f b h => exact absurd hf hne
  | @goesOn e s o t links s' stop hs hm ht rest ih =>
    obtain ⟨h1, h2⟩ := ih ht (hm.valid hv)
    refine ⟨h1, ?_⟩
    cases hm with
    | stays => exact h2
    | link h hz =>
      cases h with
      | finalize c f b h =>
        exfalso
        simp only at hf ht hz
        rcases hv with hv | hv
        · simp only [hf, ht] at hv; omega
        · refine hz ⟨hv, ?_⟩
          cases hv
          simpa using h
      | justify c f b h => exact .skip _ _ _ _ h h2

theorem Spec.AtomicFinalization.nodup {c ls out} (h : AtomicFinalization c ls out) : ls.Nodup ∧ ls ≠ [] := by
  have key : ∀ {c ls out}, AtomicFinalization c ls out → ∀ l ∈ ls, c.epoch ≤ l.source.epoch := by
    intro c ls out h
    induction h with
    | last c b h => intro l hl; simp at hl; simp [hl]
    | skip c b links out h rest ih =>
      intro l hl
      rcases List.mem_cons.1 hl with rfl | hl
      · simp
      · have := ih l hl; omega
  induction h with
  | last c b h => simp
  | skip c b links out h rest ih =>
    refine ⟨List.nodup_cons.2 ⟨fun hm => ?_, ih.1⟩, by simp⟩
    have := key rest _ hm
    simp only at this
    omega

/-! ## The blocks -/

theorem mem_blockAttestations {bs : List (Option Block)} {a : Attestation} :
    a ∈ blockAttestations bs ↔ ∃ vs, some (.electra vs) ∈ bs ∧ some a ∈ vs := by
  unfold blockAttestations
  rw [List.mem_flatMap]
  constructor
  · rintro ⟨b, hb, ha⟩
    match b, ha with
    | some (.electra vs), ha =>
      exact ⟨vs, hb, by simpa using ha⟩
  · rintro ⟨vs, hb, ha⟩
    exact ⟨_, hb, by simpa using ha⟩

theorem groupBlocks_succeeds : ∀ (bs : List (Option Block)) (m : List (Link × List Attestation)),
    (∀ b, some b ∈ bs → ∃ votes : List Attestation, b = .electra (votes.map some)) → ∃ m', groupBlocks bs m = .ok m' := by
  have hblock : ∀ (as : List Attestation) (m : List (Link × List Attestation)), ∃ m', groupBlock (as.map some) m = .ok m' := by
    intro as
    induction as with
    | nil => intro m; exact ⟨m, rfl⟩
    | cons a as ih => intro m; exact ih _
  intro bs
  induction bs with
  | nil => intro m _; exact ⟨m, rfl⟩
  | cons o bs ih =>
    intro m h
    cases o with
    | none => exact ih _ (fun b hb => h b (List.mem_cons_of_mem _ hb))
    | some b =>
      obtain ⟨votes, rfl⟩ := h b (List.mem_cons_self ..)
      obtain ⟨m1, h1⟩ := hblock votes m
      obtain ⟨m2, h2⟩ := ih m1 (fun b hb => h b (List.mem_cons_of_mem _ hb))
      exact ⟨m2, by simp only [groupBlocks, h1, Res.ok_bind, h2]⟩

theorem inWindow_iff {spe : Nat} {links : List Link} {mn mx slot : Nat} (h1 : (links.map (·.target.epoch)).min? = some mn)
    (h2 : (links.map (·.target.epoch)).max? = some mx) :
    InWindow spe links slot ↔ slot ∈ slotRange (satMul mn spe) (satMul (satAdd mx 1) spe) := by
  have hr : ∀ f l, slotRange f l = List.range' f (l + 1 - f) := by
    intro f l
    unfold slotRange
    rw [List.range'_eq_map_range]
  have e1 : satMul mn spe = min (mn * spe) (2 ^ 64 - 1) := rfl
  rw [hr, List.mem_range'_1, endSlot_eq, e1]
  rw [List.min?_eq_some_iff] at h1
  rw [List.max?_eq_some_iff] at h2
  unfold InWindow
  constructor
  · rintro ⟨⟨lo, hlo, h3⟩, hi, hhi, h4⟩
    have h5 := h1.2 _ (List.mem_map_of_mem hlo)
    have h6 := h2.2 _ (List.mem_map_of_mem hhi)
    have h7 : mn * spe ≤ lo.target.epoch * spe := Nat.mul_le_mul_right _ h5
    have h8 : (hi.target.epoch + 1) * spe ≤ (mx + 1) * spe := Nat.mul_le_mul_right _ (by omega)
    omega
  · rintro ⟨h3, h4⟩
    obtain ⟨lo, hlo, rfl⟩ := List.mem_map.1 h1.1
    obtain ⟨hi, hhi, rfl⟩ := List.mem_map.1 h2.1
    exact ⟨⟨lo, hlo, h3⟩, hi, hhi, by omega⟩

/-- What the collection returns, and when. -/
theorem collect_ok_iff {spe : Nat} {getBlock : Nat → Res HostError (Option Block)} {links : List Link} (hne : links ≠ [])
    (hnd : links.Nodup) :
    ((∃ atts, collectAttestations spe getBlock links = .ok atts) ↔ ∀ slot, InWindow spe links slot → getBlock slot = .ok none ∨
      ∃ vs : List Attestation, getBlock slot = .ok (some (.electra (vs.map some)))) ∧
    ∀ atts, collectAttestations spe getBlock links = .ok atts → ∃ all, atts = links.flatMap (fun l => votesFor l all) ∧
      ∀ a, a ∈ all ↔ ∃ slot vs, InWindow spe links slot ∧ getBlock slot = .ok (some (.electra vs)) ∧ some a ∈ vs := by
  obtain ⟨mn, h1⟩ : ∃ mn, (links.map (·.target.epoch)).min? = some mn := by
    cases links with
    | nil => exact absurd rfl hne
    | cons l ls => exact ⟨_, rfl⟩
  obtain ⟨mx, h2⟩ : ∃ mx, (links.map (·.target.epoch)).max? = some mx := by
    cases links with
    | nil => exact absurd rfl hne
    | cons l ls => exact ⟨_, rfl⟩
  have hwin := fun slot => inWindow_iff (spe := spe) (slot := slot) h1 h2
  unfold collectAttestations
  rw [if_neg hne]
  simp only [h1, h2, expect, Res.ok_bind]
  refine ⟨⟨?_, ?_⟩, ?_⟩
  · rintro ⟨atts, h⟩ slot hs
    simp only [Res.bind_eq_ok, Res.pure_eq, Res.ok.injEq] at h
    obtain ⟨blocks, h3, m, h4, -⟩ := h
    rw [mapRes_eq_ok] at h3
    have hmem : getBlock slot ∈ blocks.map Res.ok := by
      rw [← h3]
      exact List.mem_map_of_mem ((hwin slot).1 hs)
    obtain ⟨b, hb, hb'⟩ := List.mem_map.1 hmem
    cases b with
    | none => exact .inl hb'.symm
    | some b =>
      obtain ⟨vs, rfl⟩ := Client.groupBlocks_shape _ _ _ h4 b hb
      exact .inr ⟨vs, hb'.symm⟩
  · intro h
    have hall : ∀ slots : List Nat, (∀ slot ∈ slots, InWindow spe links slot) → ∃ blocks : List (Option Block), slots.map getBlock = blocks.map Res.ok ∧
        ∀ b, some b ∈ blocks → ∃ votes : List Attestation, b = .electra (votes.map some) := by
      intro slots
      induction slots with
      | nil => intro _; exact ⟨[], rfl, by simp⟩
      | cons slot slots ih =>
        intro hs
        obtain ⟨blocks, h3, h4⟩ := ih (fun s hm => hs s (List.mem_cons_of_mem _ hm))
        rcases h slot (hs slot (List.mem_cons_self ..)) with h5 | ⟨vs, h5⟩
        · exact ⟨none :: blocks, by simp [h3, h5], by simpa using h4⟩
        · refine ⟨some (.electra (vs.map some)) :: blocks, by simp [h3, h5], ?_⟩
          intro b hb
          rcases List.mem_cons.1 hb with hb | hb
          · cases hb; exact ⟨vs, rfl⟩
          · exact h4 b hb
    obtain ⟨blocks, h3, h4⟩ := hall (slotRange (satMul mn spe) (satMul (satAdd mx 1) spe)) (fun slot hs => (hwin slot).2 hs)
    obtain ⟨m, h5⟩ := groupBlocks_succeeds blocks [] h4
    exact ⟨assemble links m, by rw [mapRes_eq_ok.2 h3, Res.ok_bind, h5]; rfl⟩
  · intro atts h
    simp only [Res.bind_eq_ok, Res.pure_eq, Res.ok.injEq] at h
    obtain ⟨blocks, h3, m, h4, rfl⟩ := h
    rw [mapRes_eq_ok] at h3
    refine ⟨blockAttestations blocks, ?_, ?_⟩
    · rw [assemble_eq _ _ hnd]
      apply List.flatMap_congr
      intro l _
      rw [groupBlocks_ok _ _ _ h4 l]
      rfl
    · intro a
      rw [mem_blockAttestations]
      constructor
      · rintro ⟨vs, hb, ha⟩
        have : (Res.ok (some (.electra vs)) : Res HostError (Option Block)) ∈ blocks.map Res.ok := List.mem_map_of_mem hb
        rw [← h3] at this
        obtain ⟨slot, hs, hg⟩ := List.mem_map.1 this
        exact ⟨slot, vs, (hwin slot).2 hs, hg, ha⟩
      · rintro ⟨slot, vs, hs, hg, ha⟩
        have : getBlock slot ∈ blocks.map Res.ok := by
          rw [← h3]
          exact List.mem_map_of_mem ((hwin slot).1 hs)
        obtain ⟨b, hb, hb'⟩ := List.mem_map.1 this
        rw [hg] at hb'
        cases hb'
        exact ⟨vs, hb, ha⟩

/-! ## The votes -/

/-- Who carries a link depends only on which votes there are, not on their order. -/
theorem carries_congr {X : Ext} {cfg : Config} {R R' : Reader} {t : Checkpoint} {link : Link} {as bs : List Attestation}
    (h1 : R'.spec = R.spec) (h2 : R'.activeValidators = R.activeValidators) (h3 : R'.fork = R.fork)
    (h4 : R'.genesisValidatorsRoot = R.genesisValidatorsRoot) (h5 : R'.randaoMix = R.randaoMix) (hm : ∀ a, a ∈ bs ↔ a ∈ as)
    (h : Carries X cfg R t link as) : Carries X cfg R' t link bs := by
  obtain ⟨spec, g, fk, av, rm, at', cs, sb⟩ := R
  obtain ⟨spec', g', fk', av', rm', at'', cs', sb'⟩ := R'
  simp only at h1 h2 h3 h4 h5
  subst h1 h2 h3 h4 h5
  obtain ⟨active, signers, voters, sh, hj, hw, hs, hsel⟩ := h
  refine ⟨active, signers, voters, sh, ⟨hj.fork_supported, hj.lookahead, hj.active_set, ?_, hj.voters_nodup, ?_, hj.threshold,
    hj.two_thirds⟩, hw, ⟨hs.1, hs.2, hs.3⟩, fun a ha => hsel a ((hm a).1 ha)⟩
  · intro a ha
    have := hj.votes a ((hm a).1 ha)
    exact ⟨this.1, this.2, this.3, this.4⟩
  · intro i
    rw [hj.voters_iff]
    constructor
    · rintro ⟨⟨a, ha, h2⟩, h1⟩
      exact ⟨⟨a, (hm a).2 ha, h2⟩, h1⟩
    · rintro ⟨⟨a, ha, h2⟩, h1⟩
      exact ⟨⟨a, (hm a).1 ha, h2⟩, h1⟩

/-! ## The parts of `prepare_input` -/

theorem activeValidators_ok_iff (r : HostReader) (e : Nat) : (∃ a, r.activeValidators e = .ok a) ↔
    ∃ st, r.provider (min (e * r.spec.slotsPerEpoch) (2 ^ 64 - 1)) = .ok st ∧ ∀ v ∈ st.beacon.validators, v.activeAt e →
      ∃ key, r.decompress v.pubkey = some key := by
  constructor
  · rintro ⟨a, h⟩
    unfold HostReader.activeValidators at h
    obtain ⟨st, h1, h2⟩ := Res.bind_eq_ok.1 h
    have h1 : r.provider (min (e * r.spec.slotsPerEpoch) (2 ^ 64 - 1)) = .ok st := by
      unfold HostReader.state at h1
      exact Res.mapErr_eq_ok.1 h1
    refine ⟨st, h1, fun v hv hact => ?_⟩
    obtain ⟨i, hi⟩ := List.mem_iff_getElem?.1 hv
    have hmem : (v, i) ∈ st.beacon.validators.zipIdx.filter
        (fun (v, _) => decide (v.activationEpoch ≤ e) && decide (e < v.exitEpoch)) := by
      rw [List.mem_filter]
      refine ⟨List.mem_zipIdx_iff_getElem?.2 (by simpa using hi), ?_⟩
      unfold Validator.activeAt at hact
      simpa using hact
    obtain ⟨b, -, hb⟩ := forall₂_mem_left (mapRes_ok_forall h2) hmem
    simp only [toValidatorInfo, Res.bind_eq_ok, okOr_eq_ok] at hb
    obtain ⟨_, ⟨key, hk, -⟩, -⟩ := hb
    exact ⟨key, hk⟩
  · rintro ⟨st, h1, h2⟩
    have h1 : r.state e = .ok st := Res.mapErr_eq_ok.2 h1
    unfold HostReader.activeValidators
    rw [h1, Res.ok_bind]
    have key : ∀ {α β ε : Type} (f : α → Res ε β) (l : List α), (∀ x ∈ l, ∃ b, f x = .ok b) → ∃ out, mapRes f l = .ok out := by
      intro α β ε f l
      induction l with
      | nil => intro _; exact ⟨[], rfl⟩
      | cons x l ih =>
        intro hl
        obtain ⟨a, ha⟩ := ih (fun y hy => hl y (List.mem_cons_of_mem _ hy))
        obtain ⟨b, hb⟩ := hl x (List.mem_cons_self ..)
        exact ⟨b :: a, by rw [mapRes, hb, Res.ok_bind, ha]; rfl⟩
    refine key _ _ (fun x hx => ?_)
    rw [List.mem_filter] at hx
    obtain ⟨k, hk⟩ := h2 x.1 (List.mem_of_getElem? (List.mem_zipIdx_iff_getElem?.1 (show (x.1, x.2) ∈ _ from hx.1)))
      (by unfold Validator.activeAt; simpa using hx.2)
    exact ⟨(x.2, x.1.info k), by simp only [toValidatorInfo, hk, okOr, Res.ok_bind, Res.pure_eq]; rfl⟩

theorem trusted_ok_iff {X : Ext} {spec : ChainSpec} {w : World} {epoch : Nat} {trusted : Checkpoint} :
    (∃ st, trustedCheckpoint X spec w epoch = .ok trusted ∧
      stateAtCheckpoint X (hostStateOps X) spec.slotsPerEpoch w.provider trusted = .ok st) ↔
    ∃ st block, stateAtEpochBoundary (hostStateOps X) spec.slotsPerEpoch w.provider epoch = .ok st ∧
      w.boundaryBlock st.latestBlockHeader.slot = .ok (some block) ∧ block.stateRoot = st.beacon.tree.root X ∧
      block.tree.root X = (filledHeader (hostStateOps X) st).tree.root X ∧ trusted = ⟨epoch, block.tree.root X⟩ := by
  unfold trustedCheckpoint stateAtCheckpoint
  simp only [Res.bind_eq_ok, Res.mapErr_eq_ok, okOr_eq_ok, assert_eq_ok, ensure_eq_ok, decide_eq_true_eq, Res.pure_eq, Res.ok.injEq,
    exists_and_left, exists_const]
  constructor
  · rintro ⟨⟨st, h1, _, h2, b, rfl, h3, rfl⟩, _, st', h4, h5, rfl⟩
    rw [h1] at h4
    cases h4
    exact ⟨st, h1, b, h2, h3, h5, rfl⟩
  · rintro ⟨st, h1, b, h2, h3, h4, rfl⟩
    exact ⟨⟨st, h1, _, h2, b, rfl, h3, rfl⟩, st, st, h1, h4, rfl⟩

theorem settingAt_of {W : Wire.WireExt} {X : Ext} {word : Nat} {spec : ChainSpec} {cfg : Config} {bound : Nat} {w : World} {epoch : Nat}
    {r : HostReader} {trusted : Checkpoint} (hs : SensibleChain X spec) (hw : HonestWorld W X word spec cfg bound w epoch)
    (hr : ReaderFor X spec bound w epoch r trusted) : SettingAt X r.toReader := by
  have hspec : r.spec = spec := by
    obtain ⟨-, state, next, links, atts, -, rfl⟩ := hr
    rfl
  have hspec' : r.toReader.spec = spec := hspec
  refine ⟨by rw [hspec']; exact hs.committee_size, by rw [hspec']; exact hs.lookahead, by rw [hspec']; exact hs.mixes,
    by rw [hspec']; exact hs.mixes_word, by rw [hspec']; exact hs.shuffle, by rw [hspec']; exact hs.slots,
    by rw [hspec']; exact hs.slots_pos, by rw [hspec']; exact hs.slots_fit, ?_⟩
  intro atts hatts a ha l hl
  have hatts : Res.ok r.attestations = Res.ok atts := hatts
  cases hatts
  have hl : r.activeValidators a.data.target.epoch = .ok l := Res.mapErr_eq_ok.1 hl
  rw [hspec']
  refine noWrap_of_fits (hw.committees r trusted hr a ha l hl).1 (length_ofList_le l) (Nat.pos_iff_ne_zero.1 hs.slots_pos) ?_
  unfold committeesPerSlot
  omega

end Signal
