import Verif.Proofs.Signing
import Verif.Props.Safety
import Verif.Props.Networks

/-!
# What the counted validators signed (C76), and safety against a dishonest minority (C77)

Specification: `Verif/Spec/Signing.lean`.
-/

namespace Signal
open Spec

/-! ## C76 -/

/-- **C76.** The message checked is the signing root of the consensus specification: the root of the tree of the attestation data next to
the attester domain of the fork version and the genesis validators root. -/
theorem C76_message (X : Ext) (spec : ChainSpec) (hX : RealSigning X spec) (d : AttestationData) (version root : Bytes)
    (hv : version.length = 4) :
    spec.signingRoot d (X.computeDomain version root) = (Duty.vote d version root).message X := by
  rw [hX.root, hX.domain, computeDomain_eq X _ hv, signingRoot_eq]
  rfl

/-- **C76.** Barring collisions, the message of a vote is the message of nothing else: not of other data, not for another fork version or
chain, and not of a message of another kind. -/
theorem C76_binding (X : Ext) (d : AttestationData) (version root : Bytes) (y : Duty) (hx : (Duty.vote d version root).WF) (hy : y.WF)
    (hd : Duty.Distinguished X (.vote d version root) y) :
    y.message X = (Duty.vote d version root).message X ↔ y = .vote d version root := by
  refine ⟨fun h => ?_, fun h => by rw [h]⟩
  obtain ⟨h1, h2⟩ := Duty.message_inj X hx hy hd h.symm
  cases y with
  | other o t v g => exact absurd (domainOf_inj X rfl hy.2.1 h2).1.symm hy.2.2.1
  | vote d' v' g' =>
    have hf := forkDataTree_inj (hd.fork_data (domainOf_inj X rfl rfl h2).2)
    have ht : dataTree d = dataTree d' := by
      refine root_inj X _ _ (dataTree_sameShape d d') (dataTree_chunked hx.1) (dataTree_chunked hy.1) ?_ h1
      intro x hx y hy
      refine hd.message x ?_ y ?_
      · simp only [Tree.hashed, Duty.object, List.mem_append, List.mem_cons] at hx ⊢
        rcases hx with hx | hx <;> simp [hx]
      · simp only [Tree.hashed, Duty.object, List.mem_append, List.mem_cons] at hy ⊢
        rcases hy with hy | hy <;> simp [hy]
    rw [dataTree_inj hx.1 hy.1 ht, hf.1, hf.2]

/-- The owner of a key who signed the message of a vote, and signs nothing but their duties, has this vote among them. -/
theorem duty_of_signed (X : Ext) (signed : Bytes → Bytes → Prop) (key : Bytes) (duties : List Duty) (d : AttestationData)
    (version root : Bytes) (hx : (Duty.vote d version root).WF) (ho : OnlySigned X signed key duties)
    (hd : ∀ x ∈ duties, Duty.Distinguished X (.vote d version root) x)
    (hs : signed key ((Duty.vote d version root).message X)) : Duty.vote d version root ∈ duties := by
  obtain ⟨x, hm, he⟩ := ho.2 _ hs
  rw [(C76_binding X d version root x hx (ho.1 x hm) (hd x hm)).1 he.symm] at hm
  exact hm

/-- **C76.** In an accepted run every validator counted for an attestation has signed the message of exactly this attestation's data, for the
genesis validators root of the chain and the fork version of the target epoch; one who signs nothing but their duties has this very vote
among them. (`active`, `signers` and `voters` are those whose balances are compared with the threshold.) -/
theorem C76_counted (X : Ext) (cfg : Config) (R : Reader) (hX : RealSigning X R.spec) (post : ConsensusState) (slot : Nat)
    (h : verify X cfg R = .ok (post, slot)) (pre : ConsensusState) (hpre : R.consensusState = .ok pre) (atts : List Attestation)
    (hatts : R.attestations = .ok atts) (signed : Bytes → Bytes → Prop) (hu : Unforgeable X signed)
    (hdata : ∀ a ∈ atts, WfVoteData a.data) (hroot : ∀ root, R.genesisValidatorsRoot = .ok root → root.length = 32)
    (hfork : ∀ e fork, R.fork e = .ok fork → fork.previousVersion.length = 4 ∧ fork.currentVersion.length = 4)
    (a : Attestation) (ha : a ∈ atts) :
    ∃ active signers voters root fork, Justifies X cfg R pre.finalized (linkOf a)
        (atts.filter (fun b => decide (linkOf b = linkOf a))) active signers voters ∧
      R.genesisValidatorsRoot = .ok root ∧ R.fork a.data.target.epoch = .ok fork ∧ signers a ≠ [] ∧
      ∀ i ∈ signers a, ∃ v, active.get? i = some v ∧
        let vote := Duty.vote a.data
          (if a.data.target.epoch < fork.epoch then fork.previousVersion else fork.currentVersion) root
        signed (X.pkSerialize v.pubkey) (vote.message X) ∧
        ∀ duties, OnlySigned X signed (X.pkSerialize v.pubkey) duties → (∀ x ∈ duties, Duty.Distinguished X vote x) → vote ∈ duties := by
  obtain ⟨active, signers, voters, hj, -⟩ := verify_justifies X cfg R post slot h pre hpre atts hatts a ha
  have hv := hj.votes a (List.mem_filter.2 ⟨ha, by simp⟩)
  obtain ⟨e, rfl, -, hs, -, fork, root, hf, hr, hsig⟩ := hv.electra
  have hver : (if e.data.target.epoch < fork.epoch then fork.previousVersion else fork.currentVersion).length = 4 := by
    split
    · exact (hfork _ _ hf).1
    · exact (hfork _ _ hf).2
  rw [C76_message X R.spec hX _ _ _ hver] at hsig
  refine ⟨active, signers, voters, root, fork, hj, hr, hf, hv.signers_nonempty, fun i hi => ?_⟩
  obtain ⟨v, hget⟩ := hv.signers_active i hi
  have hsgn := hu _ _ _ hsig v.pubkey (List.mem_map.2 ⟨i, hi, by simp [pubkey, hget]⟩)
  refine ⟨v, hget, hsgn, fun duties ho hd => ?_⟩
  exact duty_of_signed X signed _ duties _ _ _ ⟨hdata _ ha, hver, hroot _ hr⟩ ho hd hsgn

/-- **C76.** No vote for Sepolia has the message of a vote for mainnet, whatever the data, epochs and genesis validators roots. -/
theorem C76_networks (X : Ext) (d d' : AttestationData) (e e' : Nat) (root root' : Bytes) (hd : WfVoteData d) (hd' : WfVoteData d')
    (hr : root.length = 32) (hr' : root'.length = 32)
    (hn : Duty.Distinguished X (.vote d ((mainnetForks.forkAt e).versionAt e) root) (.vote d' ((sepoliaForks.forkAt e').versionAt e') root')) :
    (Duty.vote d' ((sepoliaForks.forkAt e').versionAt e') root').message X ≠
      (Duty.vote d ((mainnetForks.forkAt e).versionAt e) root).message X := by
  have h1 := versionAt_mem mainnetForks mainnet_ordered e
  have h2 := versionAt_mem sepoliaForks sepolia_ordered e'
  have w1 : ∀ v ∈ mainnetForks.genesisVersion :: mainnetForks.forks.map (·.1), v.length = 4 := by decide
  have w2 : ∀ v ∈ sepoliaForks.genesisVersion :: sepoliaForks.forks.map (·.1), v.length = 4 := by decide
  have key : ∀ v ∈ sepoliaForks.genesisVersion :: sepoliaForks.forks.map (·.1),
      v ∉ mainnetForks.genesisVersion :: mainnetForks.forks.map (·.1) := by decide
  intro h
  have h := (C76_binding X d _ root (.vote d' _ root') ⟨hd, w1 _ h1, hr⟩ ⟨hd', w2 _ h2, hr'⟩ hn).1 h
  injection h with _ h _
  exact key _ h2 (h ▸ h1)

/-! ## C77 -/

/-- A vote counted by the guest was signed by the owner of the registered key. -/
theorem signedVote_signed (X : Ext) (spec : ChainSpec) (hX : RealSigning X spec) (signed : Bytes → Bytes → Prop) (hu : Unforgeable X signed)
    {root : Root} {vs : List Validator} {link : Link} {atts : List Attestation} {i : Nat}
    (hfork : ∀ e, (spec.forkAtEpoch e).previousVersion.length = 4 ∧ (spec.forkAtEpoch e).currentVersion.length = 4)
    (h : SignedVote X spec root vs link atts i) :
    i ∈ activeIndices vs link.target.epoch ∧ ∃ e, Attestation.electra e ∈ atts ∧ e.data.source = link.source ∧ e.data.target = link.target ∧
      signed (registeredKey vs i) ((Duty.vote e.data (if link.target.epoch < (spec.forkAtEpoch link.target.epoch).epoch
            then (spec.forkAtEpoch link.target.epoch).previousVersion
            else (spec.forkAtEpoch link.target.epoch).currentVersion) root).message X) := by
  obtain ⟨e, hm, hs, ht, -, -, signers, keys, hi, hact, hk, hsig⟩ := h
  refine ⟨hact i hi, e, hm, hs, ht, ?_⟩
  rw [C76_message X spec hX _ _ _ (by split <;> simp [hfork])] at hsig
  have : registeredKey vs i ∈ keys.map X.pkSerialize := by rw [hk]; exact List.mem_map.2 ⟨i, hi, rfl⟩
  obtain ⟨k, hk1, hk2⟩ := List.mem_map.1 this
  rw [← hk2]
  exact hu _ _ _ hsig k hk1

/-- **C40** and C76: behind every link of a committed journal are distinct unslashed validators of the real registry, with the
configured share of the active balance and two thirds of it, each of whom has signed, with the registered key, a vote for this link on this
chain; those who sign nothing but their duties have such a vote among them.

Partial: the conditions of `C40_end_to_end_partial`. -/
theorem C40_signed_partial {ε : Type} (X : Ext) (spec : ChainSpec) (cfg : Config) (hX : RealSigning X spec)
    (hfork : ∀ e, (spec.forkAtEpoch e).previousVersion.length = 4 ∧ (spec.forkAtEpoch e).currentVersion.length = 4)
    (signed : Bytes → Bytes → Prop) (hu : Unforgeable X signed) (input : GuestInput)
    (out : Bytes) (h : (guestEntry X spec cfg input : Res ε Bytes) = .ok out)
    (hdr : Header) (st : BeaconState) (hreal : RealChain X spec input hdr st)
    (hepoch : input.consensusState.finalized.epoch ≠ 0) (hlook : cfg.epochLookaheadLimit ≤ spec.maxSeedLookahead)
    (hdata : ∀ a ∈ input.attestations, WfVoteData a.data) :
    ∃ post slot links, out = Abi.encodeJournal input.consensusState post slot ∧ Run input.consensusState links post ∧
      ∀ link ∈ links, ∃ voters : List Nat, voters.Nodup ∧
        (let vs := registryOf spec st input.consensusState
        floored spec (balanceOf vs (activeIndices vs link.target.epoch)) * cfg.justificationThresholdFactor ≤
            floored spec (balanceOf vs voters) * cfg.justificationThresholdQuotient ∧
          2 * floored spec (balanceOf vs (activeIndices vs link.target.epoch)) ≤ 3 * floored spec (balanceOf vs voters) ∧
        ∀ i ∈ voters, i ∈ activeIndices vs link.target.epoch ∧ (∀ v, vs[i]? = some v → v.slashed = false) ∧
          ∃ e, Attestation.electra e ∈ input.attestations ∧ e.data.source = link.source ∧ e.data.target = link.target ∧
            let vote := Duty.vote e.data (if link.target.epoch < (spec.forkAtEpoch link.target.epoch).epoch
              then (spec.forkAtEpoch link.target.epoch).previousVersion
              else (spec.forkAtEpoch link.target.epoch).currentVersion) st.genesisValidatorsRoot
            signed (registeredKey vs i) (vote.message X) ∧
            ∀ duties, OnlySigned X signed (registeredKey vs i) duties → (∀ x ∈ duties, Duty.Distinguished X vote x) → vote ∈ duties) := by
  obtain ⟨post, slot, links, ho, -, hrun, -, hsup⟩ := C40_end_to_end_partial X spec cfg input out h hdr st hreal hepoch hlook
  refine ⟨post, slot, links, ho, hrun, fun link hl => ?_⟩
  obtain ⟨voters, hn, hm, h1, h2⟩ := hsup link hl
  refine ⟨voters, hn, h1, h2, fun i hi => ?_⟩
  obtain ⟨ha, hs, hsv⟩ := hm i hi
  obtain ⟨-, e, he, hsrc, htgt, hsig⟩ := signedVote_signed X spec hX signed hu hfork hsv
  refine ⟨ha, hs, e, he, hsrc, htgt, hsig, fun duties hod hdis => ?_⟩
  exact duty_of_signed X signed _ duties _ _ _
    ⟨hdata _ he, by split <;> simp [hfork], hreal.state_wf.genesisValidatorsRoot⟩ hod hdis hsig

/-- An honest validator does not sign votes for two slashable links. -/
theorem honest_not_both (X : Ext) (spec : ChainSpec) (hX : RealSigning X spec) (signed : Bytes → Bytes → Prop) (hu : Unforgeable X signed)
    {root : Root} {vs : List Validator} {link link' : Link} {atts atts' : List Attestation} {i : Nat}
    (hfork : ∀ e, (spec.forkAtEpoch e).previousVersion.length = 4 ∧ (spec.forkAtEpoch e).currentVersion.length = 4)
    (hroot : root.length = 32) (hdata : ∀ a ∈ atts ++ atts', WfVoteData a.data)
    (hh : FollowsProtocol X signed (registeredKey vs i) (countedVotes spec root (atts ++ atts')))
    (h : SignedVote X spec root vs link atts i) (h' : SignedVote X spec root vs link' atts' i) : ¬ Slashable link link' := by
  obtain ⟨duties, ho, hn, hd⟩ := hh
  have key : ∀ {l : Link} {as : List Attestation}, (∀ a ∈ as, a ∈ atts ++ atts') → SignedVote X spec root vs l as i →
      ∃ d v, Duty.vote d v root ∈ duties ∧ d.source = l.source ∧ d.target = l.target := by
    intro l as hsub hsv
    obtain ⟨-, e, hm, hs, ht, hsig⟩ := signedVote_signed X spec hX signed hu hfork hsv
    refine ⟨e.data, _, duty_of_signed X signed _ duties _ _ _ ⟨hdata _ (hsub _ hm), ?_, hroot⟩ ho (fun x hx => ?_) hsig, hs, ht⟩
    · split <;> simp [hfork]
    · refine hd x hx _ (List.mem_map.2 ⟨_, hsub _ hm, ?_⟩)
      simp only [Attestation.data, ht]
  obtain ⟨d, v, hm, hs, ht⟩ := key (fun a ha => List.mem_append_left _ ha) h
  obtain ⟨d', v', hm', hs', ht'⟩ := key (fun a ha => List.mem_append_right _ ha) h'
  have := hn d v d' v' root hm hm'
  rw [hs, ht, hs', ht'] at this
  exact this

/-- **C77.** Two accepted runs of the guest from the same pre-state over the same real chain do not finalize conflicting checkpoints, as long as the
validators who do not follow the protocol have less than `2/3 W + 2/3 W' - U` of the balance, for all target epochs of the two runs, where
`W`, `W'` are the active balances at the two epochs, and `U` is the balance of the validators active at either.

Partial: the conditions of `C41_accountable_safety_partial`. -/
theorem C77_no_conflict_partial (X : Ext) (spec : ChainSpec) (cfg : Config) (hX : RealSigning X spec)
    (hfork : ∀ e, (spec.forkAtEpoch e).previousVersion.length = 4 ∧ (spec.forkAtEpoch e).currentVersion.length = 4)
    (signed : Bytes → Bytes → Prop) (hu : Unforgeable X signed)
    (input input' : GuestInput) (r r' : GuestReader) (post post' : ConsensusState) (slot slot' : Nat)
    (hr : input.intoReader X spec = .ok r) (hr' : input'.intoReader X spec = .ok r')
    (hv : verify X cfg r.toReader = .ok (post, slot)) (hv' : verify X cfg r'.toReader = .ok (post', slot'))
    (hpre : input.consensusState = input'.consensusState)
    (hdr : Header) (st : BeaconState) (hreal : RealChain X spec input hdr st) (hreal' : RealChain X spec input' hdr st)
    (hepoch : input.consensusState.finalized.epoch ≠ 0) (hlook : cfg.epochLookaheadLimit ≤ spec.maxSeedLookahead)
    (hdata : ∀ a ∈ input.attestations ++ input'.attestations, WfVoteData a.data)
    (hbig : ∀ a ∈ input.attestations ++ input'.attestations, 3 * spec.effectiveBalanceIncrement <
      2 * balanceOf (registryOf spec st input.consensusState)
        (activeIndices (registryOf spec st input.consensusState) a.data.target.epoch))
    (anc : Checkpoint → Checkpoint → Prop) (hanc : Ancestry anc (input.attestations ++ input'.attestations))
    (dishonest : List Nat)
    (hhonest : ∀ a ∈ input.attestations ++ input'.attestations,
      ∀ i ∈ activeIndices (registryOf spec st input.consensusState) a.data.target.epoch, i ∉ dishonest →
      FollowsProtocol X signed (registeredKey (registryOf spec st input.consensusState) i)
      (countedVotes spec st.genesisValidatorsRoot (input.attestations ++ input'.attestations)))
    (hfew : ∀ a ∈ input.attestations, ∀ a' ∈ input'.attestations,
      let vs := registryOf spec st input.consensusState
      let e := a.data.target.epoch
      let e' := a'.data.target.epoch
      3 * balanceOf vs dishonest + 3 * balanceOf vs (activeAtEither vs e e') <
        2 * balanceOf vs (activeIndices vs e) + 2 * balanceOf vs (activeIndices vs e')) :
    anc post.finalized post'.finalized ∨ anc post'.finalized post.finalized := by
  by_contra hcon
  obtain ⟨hc1, hc2⟩ := not_or.1 hcon
  obtain ⟨l, l', ⟨a, ha, h1⟩, ⟨a', ha', h2⟩, hs, off, hn, hsign, hw⟩ := C41_accountable_safety_partial X spec cfg input input' r r' post post'
    slot slot' hr hr' hv hv' hpre hdr st hreal hreal' hepoch hlook hbig anc hanc hc1 hc2
  have hsub : ∀ i ∈ off, i ∈ dishonest := by
    intro i hi
    by_contra hni
    have hact := (signedVote_signed X spec hX signed hu hfork (hsign i hi).1).1
    rw [← h1] at hact
    exact honest_not_both X spec hX signed hu hfork hreal.state_wf.genesisValidatorsRoot hdata
      (hhonest a (List.mem_append_left _ ha) i hact hni) (hsign i hi).1 (hsign i hi).2 hs
  have hle := sum_le_of_subset (registeredBalance (registryOf spec st input.consensusState)) off dishonest hn hsub
  have := hfew a ha a' ha'
  subst h1 h2
  dsimp only [linkOf, balanceOf] at *
  omega

/-- **C77** when the same validators are active at all target epochs: no conflict as long as those who do not follow the protocol hold
less than a third of the active balance. -/
theorem C77_one_third_partial (X : Ext) (spec : ChainSpec) (cfg : Config) (hX : RealSigning X spec)
    (hfork : ∀ e, (spec.forkAtEpoch e).previousVersion.length = 4 ∧ (spec.forkAtEpoch e).currentVersion.length = 4)
    (signed : Bytes → Bytes → Prop) (hu : Unforgeable X signed)
    (input input' : GuestInput) (r r' : GuestReader) (post post' : ConsensusState) (slot slot' : Nat)
    (hr : input.intoReader X spec = .ok r) (hr' : input'.intoReader X spec = .ok r')
    (hv : verify X cfg r.toReader = .ok (post, slot)) (hv' : verify X cfg r'.toReader = .ok (post', slot'))
    (hpre : input.consensusState = input'.consensusState)
    (hdr : Header) (st : BeaconState) (hreal : RealChain X spec input hdr st) (hreal' : RealChain X spec input' hdr st)
    (hepoch : input.consensusState.finalized.epoch ≠ 0) (hlook : cfg.epochLookaheadLimit ≤ spec.maxSeedLookahead)
    (hdata : ∀ a ∈ input.attestations ++ input'.attestations, WfVoteData a.data)
    (active : List Nat)
    (hsame : ∀ a ∈ input.attestations ++ input'.attestations,
      activeIndices (registryOf spec st input.consensusState) a.data.target.epoch = active)
    (hbig : 3 * spec.effectiveBalanceIncrement < 2 * balanceOf (registryOf spec st input.consensusState) active)
    (anc : Checkpoint → Checkpoint → Prop) (hanc : Ancestry anc (input.attestations ++ input'.attestations))
    (dishonest : List Nat)
    (hhonest : ∀ a ∈ input.attestations ++ input'.attestations,
      ∀ i ∈ activeIndices (registryOf spec st input.consensusState) a.data.target.epoch, i ∉ dishonest →
      FollowsProtocol X signed (registeredKey (registryOf spec st input.consensusState) i)
      (countedVotes spec st.genesisValidatorsRoot (input.attestations ++ input'.attestations)))
    (hfew : 3 * balanceOf (registryOf spec st input.consensusState) dishonest <
      balanceOf (registryOf spec st input.consensusState) active) :
    anc post.finalized post'.finalized ∨ anc post'.finalized post.finalized := by
  refine C77_no_conflict_partial X spec cfg hX hfork signed hu input input' r r' post post' slot slot' hr hr' hv hv' hpre hdr st hreal hreal'
    hepoch hlook hdata (fun a ha => by rw [hsame a ha]; exact hbig) anc hanc dishonest hhonest (fun a ha a' ha' => ?_)
  dsimp only
  unfold activeAtEither
  rw [hsame a (List.mem_append_left _ ha), hsame a' (List.mem_append_right _ ha')]
  have : active.filter (fun i => decide (i ∉ active)) = [] := by
    rw [List.filter_eq_nil_iff]; simp
  rw [this, List.append_nil]
  omega

/-! ## A concrete case

Ten validators. Validators 0 and 1 sign whatever they are asked to; the others sign their votes and one message of another kind. The
signature scheme accepts an aggregate only if all owners have signed the message. -/

/-- The example with another signature scheme. -/
def sgWith (f : Bytes → Bytes → List Bytes → Bool) : Ext := { exExt with fastAggregateVerify := f }

/-- The duties of a validator: the votes of `gxVotes` they take part in, and a message of a sync committee. -/
def sgDuties (i : Nat) : List Duty :=
  let k := if i < 2 then 0 else if i < 5 then 1 else if i < 7 then 2 else 3
  [.vote ⟨24 + k, 0, List.replicate 32 0, exC4, gxC6⟩ [5, 0, 0, 0] (exRoot32 77),
   .vote ⟨28 + k, 0, List.replicate 32 0, gxC6, exC7⟩ [5, 0, 0, 0] (exRoot32 77),
   .other (.leaf (exRoot32 99)) [7, 0, 0, 0] [5, 0, 0, 0] (exRoot32 77)]

/-- Who signed what, keys being compressed. -/
def sgSigned (key message : Bytes) : Bool :=
  decide (key = exExt.pkSerialize (exKey 0)) || decide (key = exExt.pkSerialize (exKey 1)) ||
    (List.range 10).any (fun i => decide (1 < i ∧ key = exExt.pkSerialize (exKey i)) &&
      (sgDuties i).any (fun x => decide (message = x.message exExt)))

def sgExt : Ext := sgWith (fun sig msg keys =>
  exExt.fastAggregateVerify sig msg keys && keys.all (fun k => sgSigned (exExt.pkSerialize k) msg))

theorem sgExt_real : RealSigning sgExt exSpec := ⟨fun _ _ => rfl, fun _ _ => rfl⟩

theorem sgExt_unforgeable : Unforgeable sgExt (fun key m => sgSigned key m = true) := by
  intro sig m keys h k hk
  exact List.all_eq_true.1 (Bool.and_eq_true_iff.1 h).2 k hk

section
set_option smartUnfolding false

theorem sg_root (f : Bytes → Bytes → List Bytes → Bool) : @Tree.root (sgWith f) = @Tree.root exExt := by with_unfolding_all rfl
theorem sg_hashed (f : Bytes → Bytes → List Bytes → Bool) : @Tree.hashed (sgWith f) = @Tree.hashed exExt := by with_unfolding_all rfl
theorem sg_intoReader (f : Bytes → Bytes → List Bytes → Bool) (input : GuestInput) (spec : ChainSpec) :
    input.intoReader (sgWith f) spec = input.intoReader exExt spec := by with_unfolding_all rfl

end

theorem sg_message (x : Duty) : x.message sgExt = x.message exExt := by
  unfold Duty.message sgExt
  rw [sg_root]
  cases x <;> simp only [Duty.domain, domainOf, sg_root]

theorem sg_noCollision (l : List Bytes) : NoCollisionOn sgExt l ↔ NoCollisionOn exExt l := Iff.rfl

theorem sg_realChain {input : GuestInput} {hdr : Header} {st : BeaconState} (h : RealChain exExt exSpec input hdr st) :
    RealChain sgExt exSpec input hdr st := by
  refine ⟨h.header_wf, h.state_wf, ?_, ?_, h.finalized_past, ?_, h.no_wrap⟩
  · rw [← h.block_root]; unfold sgExt; rw [sg_root]
  · rw [← h.state_root]; unfold sgExt; rw [sg_root]
  · have key : ∀ p T, NoCollision exExt p T → NoCollision sgExt p T := by
      intro p T hn P hP
      unfold sgExt
      rw [sg_hashed]
      exact hn P hP
    exact ⟨key _ _ h.no_collision.1, key _ _ h.no_collision.2.1, key _ _ h.no_collision.2.2⟩

/-- An input with the votes of validators 2 to 9 only. -/
def sgSecond : GuestInput := { gxInput with attestations := gxVotes.filter (fun a => decide (a.data.slot ≠ 24 ∧ a.data.slot ≠ 28)) }
def sgSecondReader : GuestReader :=
  { gxReader with attestations := gxVotes.filter (fun a => decide (a.data.slot ≠ 24 ∧ a.data.slot ≠ 28)) }

theorem sgSecond_reader : sgSecond.intoReader exExt exSpec = .ok sgSecondReader := by
  unfold GuestInput.intoReader
  simp only [Res.bind_eq_ok, Res.mapErr_eq_ok, ensure_eq_ok, decide_eq_true_eq, slotEpoch_eq_ok_iff,
    Res.pure_eq, Res.ok.injEq]
  exact ⟨(), proofOf_verify exExt gxHdr_chunked [11], gxStateP.root exExt, gxHdr_extract, (),
    proofOf_verify exExt gxStateP_chunked gxStateWanted, gxStateInfo, gxState_extract, (),
    proofOf_verify exExt gxRegP_chunked gxRegWanted, exActive, gxReg_extract, 3, ⟨by decide, by decide⟩, (),
    by decide, exActive, gxInput_registry, (), gxInput_patches, _, gxInput_slots, rfl⟩

theorem sgSecond_real : RealChain exExt exSpec sgSecond gxHdr gxState :=
  ⟨gxInput_real.header_wf, gxInput_real.state_wf, gxInput_real.block_root, gxInput_real.state_root,
    gxInput_real.finalized_past, gxInput_real.no_collision, gxInput_real.no_wrap⟩

set_option maxRecDepth 100000 in
theorem sgFirst_verifies : verify sgExt Config.sepolia gxReader.toReader = .ok (⟨exC7, gxC6⟩, 24) := by decide +kernel

set_option maxRecDepth 100000 in
theorem sgSecond_verifies : verify sgExt Config.sepolia sgSecondReader.toReader = .ok (⟨exC7, gxC6⟩, 24) := by decide +kernel

/-- All strings hashed for the messages of the duties. -/
def sgStrings : List Bytes :=
  ((List.range 10).flatMap (fun i => (sgDuties i).flatMap (fun x => (Tree.node x.object (.leaf (x.domain exExt))).hashed exExt))).dedup

theorem sgStrings_noCollision : NoCollisionOn exExt sgStrings := noCollisionOn_of_nodup (by decide +kernel)

theorem sg_strings {i : Nat} (hi : i < 10) {x : Duty} (hx : x ∈ sgDuties i) :
    ∀ b ∈ (Tree.node x.object (.leaf (x.domain sgExt))).hashed sgExt, b ∈ sgStrings := by
  intro b hb
  unfold sgExt at hb
  rw [sg_hashed] at hb
  have hd : x.domain (sgWith (fun sig msg keys =>
      exExt.fastAggregateVerify sig msg keys && keys.all (fun k => sgSigned (exExt.pkSerialize k) msg))) = x.domain exExt := by
    cases x <;> simp only [Duty.domain, domainOf, sg_root]
  rw [hd] at hb
  exact List.mem_dedup.2 (List.mem_flatMap.2 ⟨i, List.mem_range.2 hi, List.mem_flatMap.2 ⟨x, hx, hb⟩⟩)

theorem sg_forkData {i : Nat} {x : Duty} (hx : x ∈ sgDuties i) : x.forkData = forkDataTree [5, 0, 0, 0] (exRoot32 77) := by
  simp only [sgDuties, List.mem_cons, List.not_mem_nil, or_false] at hx
  rcases hx with rfl | rfl | rfl <;> rfl

theorem sg_distinguished {i j : Nat} (hi : i < 10) (hj : j < 10) {x y : Duty} (hx : x ∈ sgDuties i) (hy : y ∈ sgDuties j) :
    Duty.Distinguished sgExt x y where
  message := by
    have hall : ∀ b ∈ (Tree.node x.object (.leaf (x.domain sgExt))).hashed sgExt ++
        (Tree.node y.object (.leaf (y.domain sgExt))).hashed sgExt, b ∈ sgStrings := by
      intro b hb
      rcases List.mem_append.1 hb with hb | hb
      · exact sg_strings hi hx b hb
      · exact sg_strings hj hy b hb
    exact fun a ha b hb => sgStrings_noCollision a (hall a ha) b (hall b hb)
  fork_data := fun _ => by rw [sg_forkData hx, sg_forkData hy]

/-- Every vote in the inputs is among the duties of one of the validators. -/
theorem sg_counted : ∀ y ∈ countedVotes exSpec (exRoot32 77) (gxInput.attestations ++ sgSecond.attestations), ∃ j, j < 10 ∧ y ∈ sgDuties j := by
  have h1 : ∀ y ∈ countedVotes exSpec (exRoot32 77) gxVotes, ∃ j, j < 10 ∧ y ∈ sgDuties j := by
    intro y hy
    simp only [countedVotes, gxVotes, List.map_cons, List.map_nil, List.mem_cons, List.not_mem_nil, or_false] at hy
    rcases hy with rfl | rfl | rfl | rfl | rfl | rfl | rfl | rfl | rfl
    · exact ⟨0, by decide, List.mem_cons_self⟩
    · exact ⟨2, by decide, List.mem_cons_self⟩
    · exact ⟨5, by decide, List.mem_cons_self⟩
    · exact ⟨7, by decide, List.mem_cons_self⟩
    · exact ⟨0, by decide, List.mem_cons_of_mem _ List.mem_cons_self⟩
    · exact ⟨5, by decide, List.mem_cons_of_mem _ List.mem_cons_self⟩
    · exact ⟨2, by decide, List.mem_cons_of_mem _ List.mem_cons_self⟩
    · exact ⟨7, by decide, List.mem_cons_of_mem _ List.mem_cons_self⟩
    · exact ⟨0, by decide, List.mem_cons_of_mem _ List.mem_cons_self⟩
  intro y hy
  obtain ⟨a, ha, rfl⟩ := List.mem_map.1 hy
  refine h1 _ (List.mem_map.2 ⟨a, ?_, rfl⟩)
  rcases List.mem_append.1 ha with ha | ha
  · exact ha
  · exact (List.mem_filter.1 ha).1

theorem sgDuties_wf (i : Nat) : ∀ x ∈ sgDuties i, x.WF := by
  have h4 : WfCheckpoint exC4 := ⟨by decide, by decide⟩
  have h6 : WfCheckpoint gxC6 := ⟨by decide, exExt.sha256_length _⟩
  have h7 : WfCheckpoint exC7 := ⟨by decide, by decide⟩
  have hk : ∀ n, n < 2 ^ 63 → n + (if i < 2 then 0 else if i < 5 then 1 else if i < 7 then 2 else 3) < 2 ^ 64 := by
    intro n hn; split_ifs <;> omega
  intro x hx
  simp only [sgDuties, List.mem_cons, List.not_mem_nil, or_false] at hx
  rcases hx with rfl | rfl | rfl
  · exact ⟨⟨hk 24 (by decide), show 0 < 2 ^ 64 by decide, show (List.replicate 32 (0 : UInt8)).length = 32 by decide, h4, h6⟩,
      by decide, by decide⟩
  · exact ⟨⟨hk 28 (by decide), show 0 < 2 ^ 64 by decide, show (List.replicate 32 (0 : UInt8)).length = 32 by decide, h6, h7⟩,
      by decide, by decide⟩
  · exact ⟨show (exRoot32 99).length = 32 by decide, by decide, by decide, by decide, by decide⟩

theorem sgDuties_notSlashable (i : Nat) : NotSlashable (sgDuties i) := by
  intro d v d' v' g h h' hs
  have key : ∀ {d v}, Duty.vote d v g ∈ sgDuties i →
      (d.source = exC4 ∧ d.target = gxC6) ∨ (d.source = gxC6 ∧ d.target = exC7) := by
    intro d v h
    simp only [sgDuties, List.mem_cons, List.not_mem_nil, or_false, Duty.vote.injEq, reduceCtorEq] at h
    rcases h with ⟨rfl, -⟩ | ⟨rfl, -⟩
    · exact Or.inl ⟨rfl, rfl⟩
    · exact Or.inr ⟨rfl, rfl⟩
  have e4 : exC4.epoch = 4 := rfl
  have e6 : gxC6.epoch = 6 := rfl
  have e7 : exC7.epoch = 7 := rfl
  rcases key h with ⟨a, b⟩ | ⟨a, b⟩ <;> rcases key h' with ⟨a', b'⟩ | ⟨a', b'⟩ <;> rw [a, b, a', b'] at hs <;>
    rcases hs with ⟨h1, h2⟩ | ⟨h1, h2⟩ | ⟨h1, h2⟩ <;> simp_all

theorem sg_follows (i : Nat) (h1 : 1 < i) (h2 : i < 10) :
    FollowsProtocol sgExt (fun key m => sgSigned key m = true) (exExt.pkSerialize (exKey i))
      (countedVotes exSpec (exRoot32 77) (gxInput.attestations ++ sgSecond.attestations)) := by
  refine ⟨sgDuties i, ⟨sgDuties_wf i, fun m hm => ?_⟩, sgDuties_notSlashable i, fun x hx y hy => ?_⟩
  · have hne : ∀ j, j < 10 → exExt.pkSerialize (exKey i) = exExt.pkSerialize (exKey j) → i = j := by
      have : ∀ i, i < 10 → ∀ j, j < 10 → exExt.pkSerialize (exKey i) = exExt.pkSerialize (exKey j) → i = j := by decide +kernel
      exact this i h2
    simp only [sgSigned, Bool.or_eq_true, decide_eq_true_eq, List.any_eq_true, Bool.and_eq_true, List.mem_range] at hm
    rcases hm with (hm | hm) | ⟨j, hj, ⟨-, hk⟩, x, hx, he⟩
    · have := hne 0 (by omega) hm; omega
    · have := hne 1 (by omega) hm; omega
    · obtain rfl := hne j hj hk
      exact ⟨x, hx, by rw [he, sg_message]⟩
  · obtain ⟨j, hj, hyj⟩ := sg_counted y hy
    exact sg_distinguished hj h2 hyj hx

theorem sg_data : ∀ a ∈ gxInput.attestations ++ sgSecond.attestations, WfVoteData a.data := by
  intro a ha
  obtain ⟨j, -, hj⟩ := sg_counted _ (List.mem_map.2 ⟨a, ha, rfl⟩)
  exact (sgDuties_wf j _ hj).1

theorem sg_ancestry : Ancestry gxAnc (gxInput.attestations ++ sgSecond.attestations) where
  refl _ := Or.inl rfl
  trans := gxAnc_trans
  votes := by
    intro a ha
    refine gxAnc_ancestry.votes a (List.mem_append_left _ ?_)
    rcases List.mem_append.1 ha with ha | ha
    · exact ha
    · exact (List.mem_filter.1 ha).1

theorem sg_active : ∀ a ∈ gxInput.attestations ++ sgSecond.attestations,
    activeIndices (registryOf exSpec gxState gxInput.consensusState) a.data.target.epoch = List.range 10 := by decide +kernel

theorem sg_forkVersions (e : Nat) : (exSpec.forkAtEpoch e).previousVersion.length = 4 ∧ (exSpec.forkAtEpoch e).currentVersion.length = 4 := by
  simp only [exSpec]
  split <;> exact ⟨rfl, rfl⟩

/-- The hypotheses of `C77_one_third_partial` are met by two inputs, the second one without votes of the two validators who do not follow the
protocol. -/
example : gxAnc gxC6 gxC6 ∨ gxAnc gxC6 gxC6 := by
  have hr : ∀ i, i < 10 → registeredKey (registryOf exSpec gxState gxInput.consensusState) i = exExt.pkSerialize (exKey i) := by
    decide +kernel
  refine C77_one_third_partial sgExt exSpec Config.sepolia sgExt_real sg_forkVersions _ sgExt_unforgeable gxInput sgSecond gxReader
    sgSecondReader ⟨exC7, gxC6⟩ ⟨exC7, gxC6⟩ 24 24 ((sg_intoReader _ _ _).trans gxInput_reader) ((sg_intoReader _ _ _).trans sgSecond_reader)
    sgFirst_verifies sgSecond_verifies rfl gxHdr gxState (sg_realChain gxInput_real) (sg_realChain sgSecond_real) (by decide) (by decide)
    sg_data (List.range 10) sg_active (by decide +kernel) gxAnc sg_ancestry [0, 1] ?_ (by decide +kernel)
  intro a ha i hi hni
  rw [sg_active a ha, List.mem_range] at hi
  rw [hr i hi]
  refine sg_follows i ?_ hi
  simp only [List.mem_cons, List.not_mem_nil, or_false, not_or] at hni
  omega

/-- The hypotheses of `C76_counted` are met by the same run: validator 5 is counted for the vote of slot 26, and signed this vote. -/
example : ∃ active signers voters root fork, Justifies sgExt Config.sepolia gxReader.toReader gxC3 ⟨exC4, gxC6⟩
      (gxVotes.filter (fun b => decide (linkOf b = ⟨exC4, gxC6⟩))) active signers voters ∧
    gxReader.toReader.genesisValidatorsRoot = .ok root ∧ gxReader.toReader.fork 6 = .ok fork ∧
    signers (exVote 26 exC4 gxC6 [5, 6]) ≠ [] ∧ ∀ i ∈ signers (exVote 26 exC4 gxC6 [5, 6]), ∃ v, active.get? i = some v := by
  obtain ⟨active, signers, voters, root, fork, h1, h2, h3, h4, h5⟩ := C76_counted sgExt Config.sepolia gxReader.toReader sgExt_real _ _
    sgFirst_verifies _ rfl _ rfl _ sgExt_unforgeable (fun a ha => sg_data a (List.mem_append_left _ ha))
    (by intro root h; cases h; decide) (by intro e fork h; cases h; exact sg_forkVersions e) (exVote 26 exC4 gxC6 [5, 6])
    (by simp [gxReader, gxVotes])
  exact ⟨active, signers, voters, root, fork, h1, h2, h3, h4, fun i hi => (h5 i hi).imp (fun v hv => hv.1)⟩

/-- The hypotheses of `C76_binding` are met by two votes, and by a vote and a message of another kind. -/
example : (sgDuties 2)[0]? ≠ (sgDuties 2)[1]? ∧
    ∀ x ∈ sgDuties 2, x.WF ∧ Duty.Distinguished sgExt (.vote ⟨25, 0, List.replicate 32 0, exC4, gxC6⟩ [5, 0, 0, 0] (exRoot32 77)) x :=
  ⟨by simp [sgDuties], fun x hx => ⟨sgDuties_wf 2 x hx, sg_distinguished (i := 2) (by decide) (by decide) List.mem_cons_self hx⟩⟩

/-- The hypotheses of `C40_signed_partial` are met by the example input. -/
example : (guestEntry sgExt exSpec Config.sepolia gxInput : Res Unit Bytes) = .ok (Abi.encodeJournal ⟨exC4, gxC3⟩ ⟨exC7, gxC6⟩ 24) ∧
    RealSigning sgExt exSpec ∧ Unforgeable sgExt (fun key m => sgSigned key m = true) ∧ RealChain sgExt exSpec gxInput gxHdr gxState ∧
    gxInput.consensusState.finalized.epoch ≠ 0 ∧ Config.sepolia.epochLookaheadLimit ≤ exSpec.maxSeedLookahead ∧
    ∀ a ∈ gxInput.attestations, WfVoteData a.data := by
  refine ⟨?_, sgExt_real, sgExt_unforgeable, sg_realChain gxInput_real, by decide, by decide,
    fun a ha => sg_data a (List.mem_append_left _ ha)⟩
  unfold guestEntry
  rw [show gxInput.intoReader sgExt exSpec = .ok gxReader from (sg_intoReader _ _ _).trans gxInput_reader]
  simp only [Res.unwrap, Res.ok_bind, sgFirst_verifies]
  rfl

set_option maxRecDepth 100000 in
/-- The hypothesis of `C76_networks` is met by votes with the same data, in epochs of Electra of both networks. -/
example : Duty.Distinguished exExt
    (.vote ⟨24, 0, List.replicate 32 0, exC4, exC6⟩ ((mainnetForks.forkAt 400000).versionAt 400000) (exRoot32 77))
    (.vote ⟨24, 0, List.replicate 32 0, exC4, exC6⟩ ((sepoliaForks.forkAt 250000).versionAt 250000) (exRoot32 78)) where
  message := by
    have h : NoCollisionOn exExt
        ((Tree.node (dataTree ⟨24, 0, List.replicate 32 0, exC4, exC6⟩) (.leaf (domainOf exExt [1, 0, 0, 0] [5, 0, 0, 0] (exRoot32 77)))).hashed exExt ++
        (Tree.node (dataTree ⟨24, 0, List.replicate 32 0, exC4, exC6⟩)
          (.leaf (domainOf exExt [1, 0, 0, 0] [0x90, 0, 0, 0x74] (exRoot32 78)))).hashed exExt).dedup :=
      noCollisionOn_of_nodup (by decide +kernel)
    intro x hx y hy
    exact h x (List.mem_dedup.2 hx) y (List.mem_dedup.2 hy)
  fork_data := fun h => absurd h (by decide +kernel)

end Signal
