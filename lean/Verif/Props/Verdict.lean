import Verif.Proofs.Verdict
import Verif.Props.Verify

/-!
# C61, C62: what the verdict of `verify` depends on
-/

namespace Signal
open Spec

theorem Spec.SameView.group {X : Ext} {R G : Reader} (h : SameView X R G) {atts : List Attestation}
    (ha : R.attestations = .ok atts) {p : Link × List Attestation} (hp : p ∈ chunkBy linkOf atts) :
    GroupView X R G p.1.target.epoch p.2 := by
  obtain ⟨l, g⟩ := p
  obtain ⟨hne, hk⟩ := chunkBy_key hp
  obtain ⟨a, hag⟩ := List.exists_mem_of_ne_nil g hne
  have hsub : ∀ b ∈ g, b ∈ atts := by
    intro b hb
    rw [← chunkBy_flatten (key := linkOf) atts]
    exact List.mem_flatMap.2 ⟨_, hp, hb⟩
  have he : a.data.target.epoch = l.target.epoch := by rw [← hk a hag]; rfl
  dsimp only
  rw [← he]
  exact ⟨h.spec, h.genesis, fun b hb => h.fork atts ha b (hsub b hb), h.mix atts ha a (hsub a hag),
    h.validators atts ha a (hsub a hag)⟩

/-- **C61.** If a verification succeeds, then over any other reader with the same view, up to balances and exits, it
either fails or gives the same result; and it gives that result exactly if for every link, with the balances of
that reader, the validators that were counted have enough weight. -/
theorem C61_verdict_iff (X : Ext) (cfg : Config) (R G : Reader) (post : ConsensusState) (slot : Nat)
    (h : verify X cfg R = .ok (post, slot)) (hv : SameView X R G)
    (hslot : G.slotForBlock post.finalized.root = R.slotForBlock post.finalized.root) :
    ∃ pre atts, R.consensusState = .ok pre ∧ R.attestations = .ok atts ∧
      ∃ voters : Link → List Nat,
        (∀ a ∈ atts, ∃ active signers, Justifies X cfg R pre.finalized (linkOf a)
          (atts.filter (fun b => decide (linkOf b = linkOf a))) active signers (voters (linkOf a))) ∧
        (∀ result, verify X cfg G = .ok result → result = (post, slot)) ∧
        (verify X cfg G = .ok (post, slot) ↔
          ∀ a ∈ atts, ∀ l, G.activeValidators a.data.target.epoch = .ok l →
            EnoughWeight cfg G.spec (OMap.ofList l) (voters (linkOf a))) := by
  obtain ⟨pre, atts, h1, h2, h3, h4, h5⟩ := verify_ok h
  obtain ⟨voters, hc⟩ := groups_counted h3
  have ht := verifyLoop_transfer (fun p hp => hv.group h2 hp) hc h3
  refine ⟨pre, atts, h1, h2, voters, ?_, ?_, ?_⟩
  · intro a ha
    obtain ⟨g, hg, hag⟩ := exists_group ha
    obtain ⟨s₁, s₂, hp⟩ := verifyLoop_mem h3 _ hg
    obtain ⟨_, _, _, active, signers, voters', hj, _⟩ := processGroup_justifies hp
    have hgf := group_of_link h3 hg
    obtain ⟨g1, g2, l, c, f, g3, g4, g5, g6, g7, g8, g9, g10, g11, g12, g13⟩ := processGroup_ok_iff.1 hp
    have hvv := (hc _ hg).unique ⟨l, c, f, g3, g4, g5, rfl⟩
    dsimp only at hvv g3 g4
    obtain ⟨hfork, hla⟩ := validateLink_ok_iff.1 g2
    refine ⟨OMap.ofList l, f, ?_⟩
    rw [← hgf, hvv]
    refine ⟨hfork, hla, ⟨l, g3, rfl⟩, fun a ha => (processAttestation_ok_iff.1 (g5 a ha)).1,
      List.Nodup.filter _ (OSet.sorted_extend List.Pairwise.nil _).nodup, ?_, g8,
      by dsimp only at g11; omega⟩
    intro i
    rw [mem_unslashed, OSet.mem_extend]
    simp only [List.not_mem_nil, List.mem_flatMap, false_or]
  · rintro ⟨post', slot'⟩ h'
    obtain ⟨pre', atts', k1, k2, k3, _, k5⟩ := verify_ok h'
    rw [hv.start, h1] at k1; cases k1
    rw [hv.votes, h2] at k2; cases k2
    obtain ⟨rfl, _⟩ := (ht post').1 k3
    rw [hslot, h5] at k5; cases k5
    rfl
  · constructor
    · intro h' a ha l hl
      obtain ⟨pre', atts', k1, k2, k3, _, _⟩ := verify_ok h'
      rw [hv.start, h1] at k1; cases k1
      rw [hv.votes, h2] at k2; cases k2
      obtain ⟨g, hg, _⟩ := exists_group ha
      exact ((ht post).1 k3).2 _ hg l hl
    · intro hw
      refine verify_ok_of (by rw [hv.start]; exact h1) (by rw [hv.votes]; exact h2) ((ht post).2 ⟨rfl, ?_⟩) h4
        (by rw [hslot]; exact h5)
      rintro ⟨l, g⟩ hp l' hl'
      obtain ⟨hne, hk⟩ := chunkBy_key hp
      obtain ⟨a, hag⟩ := List.exists_mem_of_ne_nil g hne
      have ha : a ∈ atts := by
        rw [← chunkBy_flatten (key := linkOf) atts]
        exact List.mem_flatMap.2 ⟨_, hp, hag⟩
      have := hk a hag
      subst this
      exact hw a ha l' hl'

/-! ## The same answers -/

theorem isValidIndexedAttestation_congr {X : Ext} {R G : Reader} {vs : List ValidatorInfo} {data : AttestationData}
    {sig : Bytes} (hs : G.spec = R.spec) (hg : G.genesisValidatorsRoot = R.genesisValidatorsRoot)
    (hf : G.fork data.target.epoch = R.fork data.target.epoch) :
    isValidIndexedAttestation X G vs data sig = isValidIndexedAttestation X R vs data sig := by
  unfold isValidIndexedAttestation
  rw [hf, hg, hs]

theorem processAttestation_congr_eq {X : Ext} {R G : Reader} {m : OMap ValidatorInfo} {c : CommitteeCache}
    {a : Attestation} (hs : G.spec = R.spec) (hg : G.genesisValidatorsRoot = R.genesisValidatorsRoot)
    (hf : G.fork a.data.target.epoch = R.fork a.data.target.epoch) :
    processAttestation X G m c a = processAttestation X R m c a := by
  cases a with
  | base d => rfl
  | electra e =>
    have hf : G.fork e.data.target.epoch = R.fork e.data.target.epoch := hf
    unfold processAttestation
    rw [hs]
    simp only [fun vs => isValidIndexedAttestation_congr (X := X) (vs := vs) (sig := e.signature) hs hg hf]

theorem collectParticipants_congr {X : Ext} {R G : Reader} {m : OMap ValidatorInfo} {c : CommitteeCache}
    (hs : G.spec = R.spec) (hg : G.genesisValidatorsRoot = R.genesisValidatorsRoot) :
    ∀ {atts : List Attestation} {acc : OSet}
    (_ : ∀ a ∈ atts, G.fork a.data.target.epoch = R.fork a.data.target.epoch),
    collectParticipants X G m c atts acc = collectParticipants X R m c atts acc := by
  intro atts
  induction atts with
  | nil => intro acc _; rfl
  | cons a atts ih =>
    intro acc hf
    unfold collectParticipants
    rw [processAttestation_congr_eq hs hg (hf a (by simp))]
    exact Res.bind_congr fun _ _ => ih (fun b hb => hf b (by simp [hb]))

theorem processGroup_answers {X : Ext} {cfg : Config} {R G : Reader} {trusted : Checkpoint} {st : ConsensusState}
    {link : Link} {atts : List Attestation} (hv : GroupView X R G link.target.epoch atts)
    (ha : G.activeValidators link.target.epoch = R.activeValidators link.target.epoch) :
    processGroup X cfg G trusted st link atts = processGroup X cfg R trusted st link atts := by
  unfold processGroup
  dsimp only
  rw [hv.spec, ha]
  simp only [fun l : List (Nat × ValidatorInfo) =>
    computeCommittees_congr (m := OMap.ofList l) (m' := OMap.ofList l) hv.spec hv.mix rfl,
    fun (l : List (Nat × ValidatorInfo)) c => collectParticipants_congr (X := X) (m := OMap.ofList l) (c := c) (acc := [])
      hv.spec hv.genesis hv.fork]

theorem verifyLoop_answers {X : Ext} {cfg : Config} {R G : Reader} {trusted : Checkpoint} :
    ∀ {gs : List (Link × List Attestation)} {st : ConsensusState}
    (_ : ∀ p ∈ gs, GroupView X R G p.1.target.epoch p.2 ∧
      G.activeValidators p.1.target.epoch = R.activeValidators p.1.target.epoch),
    verifyLoop X cfg G trusted st gs = verifyLoop X cfg R trusted st gs := by
  intro gs
  induction gs with
  | nil => intro st _; rfl
  | cons p gs ih =>
    obtain ⟨l, atts⟩ := p
    intro st h
    obtain ⟨h1, h2⟩ := h (l, atts) (by simp)
    unfold verifyLoop
    rw [processGroup_answers h1 h2]
    exact Res.bind_congr fun _ _ => ih (fun q hq => h q (by simp [hq]))

theorem Spec.Run.finalized_source {s ls s'} (h : Run s ls s') :
    s'.finalized = s.finalized ∨ ∃ l ∈ ls, s'.finalized = l.source := by
  induction h with
  | nil => exact Or.inl rfl
  | @cons s l s₁ ls s' h1 _ ih =>
    rcases ih with ih | ⟨l', hl, ih⟩
    · cases h1 with
      | justify c f b hb => exact Or.inl ih
      | finalize c f b hb => exact Or.inr ⟨⟨c, b⟩, by simp, ih⟩
    · exact Or.inr ⟨l', by simp [hl], ih⟩

/-- **C61.** The outcome of a verification, also a failing one, is a function of the answers to the requests for the target
epochs and source checkpoints of the votes. -/
theorem C61_determined (X : Ext) (cfg : Config) (R G : Reader) (h : SameAnswers X R G) :
    verify X cfg G = verify X cfg R := by
  unfold verify
  rw [h.start, h.votes]
  refine Res.bind_congr fun pre _ => Res.bind_congr fun atts ha => ?_
  rw [Res.unwrap_eq_ok] at ha
  have hv : SameView X R G := ⟨h.spec, h.start, h.votes, h.genesis, h.fork, h.mix, fun atts ha a hm l hl =>
    ⟨l, by rw [h.validators atts ha a hm]; exact hl, rfl⟩⟩
  have hmem : ∀ p ∈ chunkBy linkOf atts, ∃ a ∈ atts, linkOf a = p.1 := by
    rintro ⟨l, g⟩ hp
    obtain ⟨hne, hk⟩ := chunkBy_key hp
    obtain ⟨a, hag⟩ := List.exists_mem_of_ne_nil g hne
    refine ⟨a, ?_, hk a hag⟩
    rw [← chunkBy_flatten (key := linkOf) atts]
    exact List.mem_flatMap.2 ⟨_, hp, hag⟩
  rw [linkOf_eq, verifyLoop_answers (R := R)]
  · refine Res.bind_congr fun post hp => Res.bind_congr fun _ hne => ?_
    simp only [ensure_eq_ok, decide_eq_true_eq] at hne
    obtain ⟨l, hl, hs⟩ := ((verifyLoop_run hp).finalized_source).resolve_left hne
    obtain ⟨p, hpm, rfl⟩ := List.mem_map.1 hl
    obtain ⟨a, hm, hla⟩ := hmem p hpm
    have := h.slot atts ha a hm
    rw [hs, ← hla]
    have e : (linkOf a).source.root = a.data.source.root := rfl
    rw [e, this]
  · intro p hp
    refine ⟨hv.group ha hp, ?_⟩
    obtain ⟨a, hm, hla⟩ := hmem p hp
    rw [← hla]
    exact h.validators atts ha a hm

end Signal
