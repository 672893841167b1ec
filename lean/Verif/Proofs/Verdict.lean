import Verif.Spec.Verdict
import Verif.Proofs.Verify

/-! Two readers with the same view of the chain: helper lemmas. -/

namespace Signal
open Spec

/-! ## Identities -/

theorem OMap.insert_map {V W : Type} (f : V → W) (m : OMap V) (i : Nat) (x : V) :
    (OMap.insert m i x).map (fun p => (p.1, f p.2)) = OMap.insert (m.map (fun p => (p.1, f p.2))) i (f x) := by
  induction m with
  | nil => rfl
  | cons q m ih =>
    obtain ⟨k, v⟩ := q
    simp only [OMap.insert, List.map_cons]
    split
    · rfl
    · split
      · rfl
      · simp [ih]

theorem OMap.ofList_map {V W : Type} (f : V → W) (l : List (Nat × V)) :
    (OMap.ofList l).map (fun p => (p.1, f p.2)) = OMap.ofList (l.map (fun p => (p.1, f p.2))) := by
  unfold OMap.ofList
  rw [List.foldl_map]
  have : ∀ m : OMap V, (l.foldl (fun m p => OMap.insert m p.1 p.2) m).map (fun p => (p.1, f p.2)) =
      l.foldl (fun m p => OMap.insert m p.1 (f p.2)) (m.map (fun p => (p.1, f p.2))) := by
    induction l with
    | nil => intro m; rfl
    | cons q l ih => intro m; simp only [List.foldl_cons, ih, OMap.insert_map]
  exact this []

/-- The compared part of a validator. -/
def strip (v : ValidatorInfo) : Bytes × Bool × Nat × Nat :=
  (v.pubkey, v.slashed, v.activationEligibilityEpoch, v.activationEpoch)

theorem identities_eq (l : List (Nat × ValidatorInfo)) : identities l = l.map (fun p => (p.1, strip p.2)) := rfl

theorem identities_ofList {l l' : List (Nat × ValidatorInfo)} (h : identities l = identities l') :
    identities (OMap.ofList l) = identities (OMap.ofList l') := by
  rw [identities_eq, identities_eq] at h ⊢
  rw [OMap.ofList_map, OMap.ofList_map, h]

theorem identities_keys {m m' : OMap ValidatorInfo} (h : identities m = identities m') : m.keys = m'.keys := by
  have := congrArg (List.map (·.1)) h
  simpa [identities_eq, OMap.keys, List.map_map, Function.comp_def] using this

theorem identities_get? {m m' : OMap ValidatorInfo} (h : identities m = identities m') (i : Nat) :
    (m.get? i).map strip = (m'.get? i).map strip := by
  have h1 := OMap.get?_map (fun _ => strip) m i
  have h2 := OMap.get?_map (fun _ => strip) m' i
  rw [identities_eq, identities_eq] at h
  rw [← h1, ← h2, h]

theorem identities_isSome {m m' : OMap ValidatorInfo} (h : identities m = identities m') {i : Nat} :
    (∃ v, m.get? i = some v) ↔ ∃ v, m'.get? i = some v := by
  have := identities_get? h i
  cases h1 : m.get? i <;> cases h2 : m'.get? i <;> simp_all

theorem identities_pubkey {m m' : OMap ValidatorInfo} (h : identities m = identities m') (i : Nat) :
    pubkey m i = pubkey m' i := by
  have := identities_get? h i
  unfold pubkey
  cases h1 : m.get? i <;> cases h2 : m'.get? i <;> simp_all [strip]

theorem identities_unslashed {m m' : OMap ValidatorInfo} (h : identities m = identities m') (s : List Nat) :
    unslashed m s = unslashed m' s := by
  unfold unslashed
  congr 1
  funext i
  have := identities_get? h i
  cases h1 : m.get? i <;> cases h2 : m'.get? i <;> simp_all [strip]

/-! ## Seeds, committees, votes -/

theorem Res.bind_congr {ε α β : Type} {x : Res ε α} {f g : α → Res ε β} (h : ∀ a, x = .ok a → f a = g a) :
    (x >>= f) = (x >>= g) := by
  cases x with
  | ok a => exact h a rfl
  | err e => rfl
  | panic => rfl

theorem getSeed_congr {X : Ext} {R G : Reader} {e : Nat} {d : Bytes} (hs : G.spec = R.spec)
    (hm : G.randaoMix e (seedMixIndex X R.spec e) = R.randaoMix e (seedMixIndex X R.spec e)) :
    G.getSeed X e d = R.getSeed X e d := by
  unfold Reader.getSeed Reader.getRandaoMix
  rw [hs]
  refine Res.bind_congr fun a ha => Res.bind_congr fun b hb => Res.bind_congr fun i hi => ?_
  congr 1
  refine Res.bind_congr fun idx hx => ?_
  simp only [Res.mapErr_eq_ok, safeAdd_eq_ok, safeSub_eq_ok, safeRem_eq_ok] at ha hb hi hx
  have : idx % 2 ^ 32 = seedMixIndex X R.spec e := by
    unfold seedMixIndex
    rw [hx.2, hi.2, hb.2, ha.2]
  rw [this, hm]

theorem computeCommittees_congr {X : Ext} {R G : Reader} {e : Nat} {m m' : OMap ValidatorInfo} (hs : G.spec = R.spec)
    (hm : G.randaoMix e (seedMixIndex X R.spec e) = R.randaoMix e (seedMixIndex X R.spec e))
    (hk : m'.keys = m.keys) : computeCommittees X G m' e = computeCommittees X R m e := by
  unfold computeCommittees
  rw [getSeed_congr hs hm, hk, hs]

theorem vote_congr {X : Ext} {R G : Reader} {m m' : OMap ValidatorInfo} {a : Attestation} {s : List Nat}
    (hs : G.spec = R.spec) (hg : G.genesisValidatorsRoot = R.genesisValidatorsRoot)
    (hf : G.fork a.data.target.epoch = R.fork a.data.target.epoch) (hi : identities m' = identities m) :
    Vote X R m a s → Vote X G m' a s := by
  rintro ⟨h1, h2, h3, e, rfl, h4, h5, h6, fork, root, h7, h8, h9⟩
  have hf : G.fork e.data.target.epoch = R.fork e.data.target.epoch := hf
  refine ⟨h1, h2, fun i h => (identities_isSome hi).2 (h3 i h), e, rfl, by rw [hs]; exact h4, by rw [hs]; exact h5,
    h6, fork, root, by rw [hf]; exact h7, by rw [hg]; exact h8, ?_⟩
  rw [hs, show pubkey m' = pubkey m from funext (identities_pubkey hi)]
  exact h9

theorem processAttestation_congr {X : Ext} {R G : Reader} {m m' : OMap ValidatorInfo} {c : CommitteeCache}
    {a : Attestation} {s : OSet}
    (hs : G.spec = R.spec) (hg : G.genesisValidatorsRoot = R.genesisValidatorsRoot)
    (hf : G.fork a.data.target.epoch = R.fork a.data.target.epoch) (hi : identities m' = identities m)
    (h : processAttestation X R m c a = .ok s) : processAttestation X G m' c a = .ok s := by
  obtain ⟨h1, e, h2, h3⟩ := processAttestation_ok_iff.1 h
  exact processAttestation_ok_iff.2 ⟨vote_congr hs hg hf hi h1, e, h2, by rw [hs]; exact h3⟩

/-! ## Groups -/

/-- The voters `verify` counts for a group of votes. -/
def CountedVoters (X : Ext) (R : Reader) (link : Link) (atts : List Attestation) (voters : List Nat) : Prop :=
  ∃ l c f, R.activeValidators link.target.epoch = .ok l ∧
    computeCommittees X R (OMap.ofList l) link.target.epoch = .ok c ∧
    (∀ a ∈ atts, processAttestation X R (OMap.ofList l) c a = .ok (f a)) ∧
    voters = unslashed (OMap.ofList l) (OSet.extend [] (atts.flatMap f))

theorem CountedVoters.unique {X : Ext} {R : Reader} {link : Link} {atts : List Attestation} {v v' : List Nat}
    (h : CountedVoters X R link atts v) (h' : CountedVoters X R link atts v') : v = v' := by
  obtain ⟨l, c, f, h1, h2, h3, rfl⟩ := h
  obtain ⟨l', c', f', h1', h2', h3', rfl⟩ := h'
  rw [h1] at h1'; cases h1'
  rw [h2] at h2'; cases h2'
  congr 2
  apply List.flatMap_congr
  intro a ha
  have := h3 a ha
  rw [h3' a ha] at this
  exact (Res.ok.inj this).symm

/-- The view of one group. -/
structure GroupView (X : Ext) (R G : Reader) (e : Nat) (atts : List Attestation) : Prop where
  spec : G.spec = R.spec
  genesis : G.genesisValidatorsRoot = R.genesisValidatorsRoot
  fork : ∀ a ∈ atts, G.fork a.data.target.epoch = R.fork a.data.target.epoch
  mix : G.randaoMix e (seedMixIndex X R.spec e) = R.randaoMix e (seedMixIndex X R.spec e)
  validators : ∀ l, R.activeValidators e = .ok l → ∃ l', G.activeValidators e = .ok l' ∧ identities l' = identities l

theorem CountedVoters.congr {X : Ext} {R G : Reader} {link : Link} {atts : List Attestation} {v : List Nat}
    (hv : GroupView X R G link.target.epoch atts) (h : CountedVoters X R link atts v) :
    CountedVoters X G link atts v := by
  obtain ⟨l, c, f, h1, h2, h3, rfl⟩ := h
  obtain ⟨l', h4, h5⟩ := hv.validators l h1
  have hi := identities_ofList h5
  refine ⟨l', c, f, h4, ?_, ?_, ?_⟩
  · rw [computeCommittees_congr hv.spec hv.mix (identities_keys hi), h2]
  · intro a ha
    exact processAttestation_congr hv.spec hv.genesis (hv.fork a ha) hi (h3 a ha)
  · rw [identities_unslashed hi]

/-- One iteration, in terms of the counted voters. -/
theorem processGroup_voters {X : Ext} {cfg : Config} {R : Reader} {trusted : Checkpoint}
    {st st' : ConsensusState} {link : Link} {atts : List Attestation} :
    processGroup X cfg R trusted st link atts = .ok st' ↔
      st.finalized = trusted ∧ validateLink cfg R.spec trusted link = .ok () ∧
      (∃ l v, R.activeValidators link.target.epoch = .ok l ∧ CountedVoters X R link atts v ∧
        EnoughWeight cfg R.spec (OMap.ofList l) v) ∧
      st.stateTransition link = .ok st' ∧ st'.isValid = true := by
  rw [processGroup_ok_iff]
  constructor
  · rintro ⟨h1, h2, l, c, f, h3, h4, h5, h6, h7, h8, h9, h10, h11, h12, h13⟩
    exact ⟨h1, h2, ⟨l, _, h3, ⟨l, c, f, h3, h4, h5, rfl⟩, ⟨by omega, by omega, h8, by omega⟩⟩, h12, h13⟩
  · rintro ⟨h1, h2, ⟨l, v, h3, ⟨l', c, f, h3', h4, h5, rfl⟩, h6, h7, h8, h9⟩, h12, h13⟩
    rw [h3] at h3'; cases h3'
    have a1 : weight (OMap.ofList l) (unslashed (OMap.ofList l) (OSet.extend [] (atts.flatMap f))) ≤ floored R.spec
      (weight (OMap.ofList l) (unslashed (OMap.ofList l) (OSet.extend [] (atts.flatMap f)))) := le_max_left _ _
    have a2 : totalWeight (OMap.ofList l) ≤ floored R.spec (totalWeight (OMap.ofList l)) := le_max_left _ _
    exact ⟨h1, h2, l, c, f, h3, h4, h5, by omega, by omega, h8, by omega, by omega, by omega, h12, h13⟩

theorem processGroup_transfer {X : Ext} {cfg : Config} {R G : Reader} {trusted : Checkpoint}
    {st st' : ConsensusState} {link : Link} {atts : List Attestation} {v : List Nat}
    (hv : GroupView X R G link.target.epoch atts) (hc : CountedVoters X R link atts v)
    (h : processGroup X cfg R trusted st link atts = .ok st') (st'' : ConsensusState) :
    processGroup X cfg G trusted st link atts = .ok st'' ↔
      st'' = st' ∧ ∀ l, G.activeValidators link.target.epoch = .ok l →
        EnoughWeight cfg G.spec (OMap.ofList l) v := by
  obtain ⟨h1, h2, ⟨l, _, h3, _, _⟩, h5, h6⟩ := processGroup_voters.1 h
  have hc' := hc.congr hv
  rw [processGroup_voters]
  constructor
  · rintro ⟨_, _, ⟨l', v', h3', hc'', hw⟩, h5', _⟩
    rw [h5] at h5'; cases h5'
    refine ⟨rfl, fun l'' hl => ?_⟩
    rw [h3'] at hl; cases hl
    rw [hc'.unique hc'']; exact hw
  · rintro ⟨rfl, hw⟩
    obtain ⟨l', h4, _⟩ := hv.validators l h3
    exact ⟨h1, by rw [hv.spec]; exact h2, ⟨l', v, h4, hc', hw l' h4⟩, h5, h6⟩

theorem verifyLoop_transfer {X : Ext} {cfg : Config} {R G : Reader} {trusted : Checkpoint} {voters : Link → List Nat} :
    ∀ {gs : List (Link × List Attestation)} {st st' : ConsensusState}
    (_ : ∀ p ∈ gs, GroupView X R G p.1.target.epoch p.2) (_ : ∀ p ∈ gs, CountedVoters X R p.1 p.2 (voters p.1))
    (_ : verifyLoop X cfg R trusted st gs = .ok st') (st'' : ConsensusState),
    verifyLoop X cfg G trusted st gs = .ok st'' ↔
      st'' = st' ∧ ∀ p ∈ gs, ∀ l, G.activeValidators p.1.target.epoch = .ok l →
        EnoughWeight cfg G.spec (OMap.ofList l) (voters p.1) := by
  intro gs
  induction gs with
  | nil =>
    intro st st' _ _ h st''
    rw [verifyLoop_nil] at h ⊢
    subst h
    simp
  | cons p gs ih =>
    obtain ⟨link, atts⟩ := p
    intro st st' hv hc h st''
    obtain ⟨s₁, h1, h2⟩ := verifyLoop_cons.1 h
    have ht := processGroup_transfer (hv (link, atts) (by simp)) (hc (link, atts) (by simp)) h1
    have hr := ih (fun p hp => hv p (by simp [hp])) (fun p hp => hc p (by simp [hp])) h2 st''
    rw [verifyLoop_cons]
    simp only [List.forall_mem_cons]
    constructor
    · rintro ⟨s₁', g1, g2⟩
      obtain ⟨rfl, g3⟩ := (ht s₁').1 g1
      obtain ⟨g4, g5⟩ := hr.1 g2
      exact ⟨g4, g3, g5⟩
    · rintro ⟨g1, g2, g3⟩
      exact ⟨s₁, (ht s₁).2 ⟨rfl, g2⟩, hr.2 ⟨g1, g3⟩⟩

theorem groups_counted {X : Ext} {cfg : Config} {R : Reader} {t : Checkpoint}
    {gs : List (Link × List Attestation)} {s s' : ConsensusState} (h : verifyLoop X cfg R t s gs = .ok s') :
    ∃ voters : Link → List Nat, ∀ p ∈ gs, CountedVoters X R p.1 p.2 (voters p.1) := by
  have hnd := groups_nodup h
  have hm : ∀ p ∈ gs, ∃ v, CountedVoters X R p.1 p.2 v := by
    intro p hp
    obtain ⟨s₁, s₂, h1⟩ := verifyLoop_mem h p hp
    obtain ⟨_, _, ⟨l, v, _, hc, _⟩, _⟩ := processGroup_voters.1 h1
    exact ⟨v, hc⟩
  clear h
  induction gs with
  | nil => exact ⟨fun _ => [], by simp⟩
  | cons p gs ih =>
    simp only [List.map_cons, List.nodup_cons] at hnd
    obtain ⟨f, hf⟩ := ih hnd.2 (fun p hp => hm p (by simp [hp]))
    obtain ⟨v, hv⟩ := hm p (by simp)
    refine ⟨fun l => if l = p.1 then v else f l, ?_⟩
    intro q hq
    rcases List.mem_cons.1 hq with rfl | hq
    · simpa using hv
    · have : q.1 ≠ p.1 := by
        intro he
        exact hnd.1 (List.mem_map.2 ⟨q, hq, he⟩)
      simpa [this] using hf q hq

end Signal
