import Verif.Model.AssertReader
import Verif.Proofs.Verdict

/-! Readers checked against each other: helper lemmas. -/

namespace Signal
open Spec

theorem assertRead_ok_iff {ε α : Type} {same : α → α → Bool} {a b : Res ε α} {x : α} :
    assertRead same a b = .ok x ↔ a = .ok x ∧ ∃ y, b = .ok y ∧ same x y = true := by
  simp only [assertRead, Res.bind_eq_ok, Res.unwrap_eq_ok, assert_eq_ok, Res.pure_eq, Res.ok.injEq]
  constructor
  · rintro ⟨_, h1, y, h2, _, h3, rfl⟩; exact ⟨h1, y, h2, h3⟩
  · rintro ⟨h1, y, h2, h3⟩; exact ⟨x, h1, y, h2, (), h3, rfl⟩

theorem assertRead_eq_iff {ε α : Type} [DecidableEq α] {a b : Res ε α} {x : α} :
    assertRead (fun a b => decide (a = b)) a b = .ok x ↔ a = .ok x ∧ b = .ok x := by
  rw [assertRead_ok_iff]
  constructor
  · rintro ⟨h1, y, h2, h3⟩
    rw [decide_eq_true_eq] at h3; subst h3
    exact ⟨h1, h2⟩
  · rintro ⟨h1, h2⟩; exact ⟨h1, x, h2, by simp⟩

theorem inStep_eq_iff {α : Type} [DecidableEq α] {as bs : List α} :
    inStep (fun a b => decide (a = b)) as bs = true ↔ as = bs := by
  induction as generalizing bs with
  | nil => cases bs <;> simp [inStep]
  | cons a as ih => cases bs <;> simp [inStep, ih]

theorem inStep_agreeOn_iff {as bs : List (Nat × ValidatorInfo)} :
    inStep agreeOn as bs = true ↔ identities bs = identities as := by
  induction as generalizing bs with
  | nil => cases bs <;> simp [inStep, identities]
  | cons a as ih =>
    cases bs with
    | nil => simp [inStep, identities]
    | cons b bs =>
      have : identities (b :: bs) = identities (a :: as) ↔ agreeOn a b = true ∧ identities bs = identities as := by
        obtain ⟨i, v⟩ := a
        obtain ⟨j, w⟩ := b
        obtain ⟨a1, a2, a3, a4, a5, a6⟩ := v
        obtain ⟨b1, b2, b3, b4, b5, b6⟩ := w
        simp only [identities, List.map_cons, List.cons.injEq, Prod.mk.injEq, agreeOn, Bool.and_eq_true,
          decide_eq_true_eq, ValidatorInfo.mk.injEq]
        constructor
        · rintro ⟨⟨rfl, rfl, rfl, rfl, rfl⟩, h⟩; simp [h]
        · rintro ⟨⟨rfl, h⟩, h'⟩
          simp_all
      rw [this]
      simp only [inStep, Bool.and_eq_true, ih]

/-- `G` answers whatever `R` answers to the questions of a verification of `atts` that finalizes `root`. -/
structure AnswersToo (X : Ext) (R G : Reader) (atts : List Attestation) (root : Root) : Prop where
  spec : G.spec = R.spec
  start : ∀ x, R.consensusState = .ok x → G.consensusState = .ok x
  votes : R.attestations = .ok atts → G.attestations = .ok atts
  genesis : ∀ x, R.genesisValidatorsRoot = .ok x → G.genesisValidatorsRoot = .ok x
  fork : ∀ a ∈ atts, ∀ x, R.fork a.data.target.epoch = .ok x → G.fork a.data.target.epoch = .ok x
  mix : ∀ a ∈ atts, ∀ x,
    R.randaoMix a.data.target.epoch (seedMixIndex X R.spec a.data.target.epoch) = .ok x →
    G.randaoMix a.data.target.epoch (seedMixIndex X R.spec a.data.target.epoch) = .ok x
  validators : ∀ a ∈ atts, ∀ x, R.activeValidators a.data.target.epoch = .ok x →
    G.activeValidators a.data.target.epoch = .ok x
  slot : ∀ x, R.slotForBlock root = .ok x → G.slotForBlock root = .ok x

theorem getSeed_ok_mix {X : Ext} {R : Reader} {e : Nat} {d seed : Bytes} (h : R.getSeed X e d = .ok seed) :
    ∃ mix, R.randaoMix e (seedMixIndex X R.spec e) = .ok (some mix) := by
  simp only [Reader.getSeed, Reader.getRandaoMix, Res.bind_eq_ok, Res.mapErr_eq_ok, safeAdd_eq_ok, safeSub_eq_ok,
    safeRem_eq_ok, Res.pure_eq, Res.ok.injEq, expect_eq_ok] at h
  obtain ⟨_, ⟨_, rfl⟩, _, ⟨_, rfl⟩, _, ⟨_, rfl⟩, mix, ⟨_, ⟨_, rfl⟩, m, g5, rfl⟩, rfl⟩ := h
  exact ⟨mix, g5⟩

theorem computeCommittees_ok_mix {X : Ext} {R : Reader} {m : OMap ValidatorInfo} {e : Nat} {c : CommitteeCache}
    (h : computeCommittees X R m e = .ok c) : ∃ mix, R.randaoMix e (seedMixIndex X R.spec e) = .ok (some mix) := by
  obtain ⟨seed, _, _, _, _, h4, _⟩ := computeCommittees_ok h
  exact getSeed_ok_mix h4

theorem processGroup_answers_too {X : Ext} {cfg : Config} {R G : Reader} {atts group : List Attestation} {root : Root}
    (h : AnswersToo X R G atts root) {t : Checkpoint} {st st' : ConsensusState} {link : Link}
    (hne : group ≠ []) (hsub : ∀ a ∈ group, a ∈ atts) (hk : ∀ a ∈ group, linkOf a = link)
    (hp : processGroup X cfg R t st link group = .ok st') : processGroup X cfg G t st link group = .ok st' := by
  obtain ⟨a, ha⟩ := List.exists_mem_of_ne_nil _ hne
  have he : a.data.target.epoch = link.target.epoch := by rw [← hk a ha]; rfl
  have hmix := h.mix a (hsub a ha)
  have hval := h.validators a (hsub a ha)
  rw [he] at hmix hval
  rw [processGroup_ok_iff] at hp ⊢
  obtain ⟨h1, h2, l, c, f, h3, h4, h5, h6⟩ := hp
  obtain ⟨mix, hm⟩ := computeCommittees_ok_mix h4
  rw [h.spec]
  refine ⟨h1, h2, l, c, f, hval _ h3, ?_, ?_, h6⟩
  · rw [computeCommittees_congr (m := OMap.ofList l) h.spec (by rw [hmix _ hm, hm]) rfl]
    exact h4
  · intro b hb
    obtain ⟨⟨v1, v2, v3, e, rfl, v4, v5, v6, fork, root', v7, v8, v9⟩, hi⟩ := processAttestation_ok_iff.1 (h5 b hb)
    refine processAttestation_ok_iff.2 ⟨⟨v1, v2, v3, e, rfl, by rw [h.spec]; exact v4, by rw [h.spec]; exact v5, v6,
      fork, root', h.fork _ (hsub _ hb) _ v7, h.genesis _ v8, by rw [h.spec]; exact v9⟩, by rw [h.spec]; exact hi⟩

theorem verify_answers_too {X : Ext} {cfg : Config} {R G : Reader} {atts : List Attestation} {post : ConsensusState}
    {slot : Nat} (hatts : R.attestations = .ok atts) (h : AnswersToo X R G atts post.finalized.root)
    (hv : verify X cfg R = .ok (post, slot)) : verify X cfg G = .ok (post, slot) := by
  obtain ⟨pre, atts', h1, h2, h3, h4, h5⟩ := verify_ok hv
  rw [hatts] at h2; cases h2
  refine verify_ok_of (h.start _ h1) (h.votes hatts) ?_ h4 (h.slot _ h5)
  have key : ∀ (gs : List (Link × List Attestation)) (s : ConsensusState),
      (∀ p ∈ gs, p.2 ≠ [] ∧ (∀ a ∈ p.2, a ∈ atts) ∧ ∀ a ∈ p.2, linkOf a = p.1) →
      verifyLoop X cfg R pre.finalized s gs = .ok post → verifyLoop X cfg G pre.finalized s gs = .ok post := by
    intro gs
    induction gs with
    | nil => intro s _ h; exact h
    | cons p gs ih =>
      obtain ⟨l, g⟩ := p
      intro s hg hl
      obtain ⟨s₁, k1, k2⟩ := verifyLoop_cons.1 hl
      obtain ⟨q1, q2, q3⟩ := hg _ List.mem_cons_self
      exact verifyLoop_cons.2 ⟨s₁, processGroup_answers_too h q1 q2 q3 k1,
        ih s₁ (fun p hp => hg p (List.mem_cons_of_mem _ hp)) k2⟩
  refine key _ _ ?_ h3
  rintro ⟨l, g⟩ hp
  obtain ⟨q1, q2⟩ := chunkBy_key hp
  refine ⟨q1, ?_, q2⟩
  intro a ha
  rw [← chunkBy_flatten (key := linkOf) atts]
  exact List.mem_flatMap.2 ⟨_, hp, ha⟩

/-- What a successful verification has been told. -/
theorem verify_asked {X : Ext} {cfg : Config} {R : Reader} {r : ConsensusState × Nat} (h : verify X cfg R = .ok r)
    {atts : List Attestation} (hatts : R.attestations = .ok atts) {a : Attestation} (ha : a ∈ atts) :
    (∃ x, R.genesisValidatorsRoot = .ok x) ∧ (∃ x, R.fork a.data.target.epoch = .ok x) ∧
    (∃ x, R.activeValidators a.data.target.epoch = .ok x) ∧
    ∃ x, R.randaoMix a.data.target.epoch (seedMixIndex X R.spec a.data.target.epoch) = .ok (some x) := by
  obtain ⟨post, slot⟩ := r
  obtain ⟨pre, atts', h1, h2, h3, h4, h5⟩ := verify_ok h
  rw [hatts] at h2; cases h2
  obtain ⟨g, hg, hag⟩ := exists_group ha
  obtain ⟨s₁, s₂, hp⟩ := verifyLoop_mem h3 _ hg
  obtain ⟨_, _, l, c, f, g3, g4, g5, _⟩ := processGroup_ok_iff.1 hp
  obtain ⟨e, rfl, _, _, _, fork, root, hf, hr, _⟩ := (processAttestation_ok_iff.1 (g5 a hag)).1.electra
  exact ⟨⟨_, hr⟩, ⟨_, hf⟩, ⟨_, g3⟩, computeCommittees_ok_mix g4⟩

end Signal
