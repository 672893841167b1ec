import Verif.Props.Guest
import Verif.Props.Multiproof
import Verif.Props.Outcome
import Verif.Proofs.ExampleChain

/-!
# C105: two proofs for one root
-/

namespace Signal
open Spec

/-- SHA-256 has no collision among the strings hashed when verifying two proofs. -/
def NoCollisionBetween (X : Ext) (p q : Multiproof) : Prop := ∀ Q, Encodes q Q → NoCollision X p Q

/-- **C105.** Two proofs that verify against the same root do not contradict each other: no index has different nodes in them. No tree behind the root is assumed.
Missing: proofs of 64 or more levels (`NoWrap`), for which it is false (`C105_contradict`), and collisions. -/
theorem C105_agree_partial (X : Ext) (p q : Multiproof) (root : Root) (hp : p.verify X root = .ok ()) (hq : q.verify X root = .ok ())
    (hc : NoCollisionBetween X p q) (hwp : NoWrap p) (hwq : NoWrap q) :
    ∀ g v w, (g, v) ∈ p.nodes → (g, w) ∈ q.nodes → v = w := by
  obtain ⟨-, l, r, he, hr⟩ := (C25_verify_ok_iff X q root).1 hq
  intro g v w hv hw
  have hat := (C27_indices_unambiguous_partial q _ he (hwq _ he)).2.2 g w hw
  rw [hr] at hp
  exact (C26_nodes_sound_partial X p _ he.2.1 hp (hc _ he) hwp g v hv _ hat).symm

/-- **C105** for the slot in the journal: two accepted inputs, of whatever trusted states, votes and configurations, that finalize the same block report the same
slot. Missing: as above, for the slot proofs of the inputs. -/
theorem C105_slots_partial (X : Ext) {spec spec' : ChainSpec} {cfg cfg' : Config} {input input' : GuestInput} {r r' : GuestReader}
    {post post' : ConsensusState} {slot slot' : Nat}
    (hr : input.intoReader X spec = .ok r) (hr' : input'.intoReader X spec' = .ok r')
    (hv : verify X cfg r.toReader = .ok (post, slot)) (hv' : verify X cfg' r'.toReader = .ok (post', slot'))
    (hroot : post'.finalized.root = post.finalized.root)
    (hc : ∀ p ∈ input.blockSlotProofs, ∀ q ∈ input'.blockSlotProofs, NoCollisionBetween X p q)
    (hw : ∀ p ∈ input.blockSlotProofs ++ input'.blockSlotProofs, NoWrap p) : slot' = slot := by
  have hs : ∀ {spec : ChainSpec} {cfg : Config} {input : GuestInput} {r : GuestReader} {post : ConsensusState} {slot : Nat}, input.intoReader X spec = .ok r →
      verify X cfg r.toReader = .ok (post, slot) → ∃ p ∈ input.blockSlotProofs, p.verify X post.finalized.root = .ok () ∧
        ∃ c, (blockSlotGindex, c) ∈ p.nodes ∧ slot = u64FromChunk c := by
    intro spec cfg input r post slot hr hv
    have hs : r.toReader.slotForBlock post.finalized.root = .ok slot := by
      unfold verify at hv
      simp only [Res.bind_eq_ok, Res.pure_eq, Res.ok.injEq, Res.mapErr_eq_ok, Prod.mk.injEq] at hv
      obtain ⟨_, _, _, _, st, _, _, _, sl, h1, rfl, rfl⟩ := hv
      exact h1
    obtain ⟨p, hp, h1, c, rest, h2, h3⟩ := slotForBlock_proof X hr hs
    refine ⟨p, hp, ?_, c, values_subset (h2 ▸ List.mem_cons_self), h3⟩
    unfold Multiproof.verify
    rw [h1]
    simp
  obtain ⟨p, h1, h2, c, h3, rfl⟩ := hs hr hv
  obtain ⟨q, h1', h2', c', h3', rfl⟩ := hs hr' hv'
  rw [hroot] at h2'
  rw [C105_agree_partial X p q _ h2 h2' (hc p h1 q h1') (hw p (List.mem_append_left _ h1)) (hw q (List.mem_append_right _ h1')) _ _ _ h3 h3']

/-- **C105** for the whole journal: two runs of the guest from one trusted state, the second with votes only for links of the first, commit to the same journal byte by byte,
whatever else the inputs contain, on whatever networks. Missing: as above. -/
theorem C105_journals_partial {ε : Type} (X : Ext) {spec spec' : ChainSpec} {cfg cfg' : Config} {input input' : GuestInput} {journal journal' : Bytes}
    (h : (guestEntry X spec cfg input : Res ε Bytes) = .ok journal) (h' : (guestEntry X spec' cfg' input' : Res ε Bytes) = .ok journal')
    (hs : input'.consensusState = input.consensusState) (hsub : ∀ a' ∈ input'.attestations, ∃ a ∈ input.attestations, linkOf a = linkOf a')
    (hc : ∀ p ∈ input.blockSlotProofs, ∀ q ∈ input'.blockSlotProofs, NoCollisionBetween X p q)
    (hw : ∀ p ∈ input.blockSlotProofs ++ input'.blockSlotProofs, NoWrap p) : journal' = journal := by
  have run : ∀ {spec : ChainSpec} {cfg : Config} {input : GuestInput} {journal : Bytes}, (guestEntry X spec cfg input : Res ε Bytes) = .ok journal →
      ∃ (r : GuestReader) (post : ConsensusState) (slot : Nat), input.intoReader X spec = .ok r ∧ verify X cfg r.toReader = .ok (post, slot) ∧
        r.consensusState = input.consensusState ∧ r.attestations = input.attestations ∧ journal = Abi.encodeJournal input.consensusState post slot := by
    intro spec cfg input journal h
    unfold guestEntry at h
    cases hr : input.intoReader X spec with
    | panic => rw [hr] at h; cases h
    | err e => rw [hr] at h; cases h
    | ok r =>
      rw [hr] at h
      simp only [Res.unwrap, Res.ok_bind] at h
      cases hv : verify X cfg r.toReader with
      | panic => rw [hv] at h; cases h
      | err e => rw [hv] at h; cases h
      | ok out =>
        rw [hv] at h
        cases h
        refine ⟨r, out.1, out.2, rfl, hv, ?_⟩
        unfold GuestInput.intoReader at hr
        simp only [Res.bind_eq_ok, Res.pure_eq, Res.ok.injEq] at hr
        obtain ⟨_, -, _, -, _, -, _, -, _, -, _, -, _, -, _, -, _, -, _, -, _, -, rfl⟩ := hr
        exact ⟨rfl, rfl, rfl⟩
  obtain ⟨r, post, slot, hr, v, e1, e2, rfl⟩ := run h
  obtain ⟨r', post', slot', hr', v', e1', e2', rfl⟩ := run h'
  have := (C103_outcome v v' (pre := input.consensusState) (by rw [← e1]; rfl) (by rw [← hs, ← e1']; rfl) (atts := input.attestations) (by rw [← e2]; rfl)
    (by rw [← e2']; rfl) hsub).1
  subst this
  rw [hs, C105_slots_partial X hr hr' v v' rfl hc hw]

/-- **C105** is false without the bound on the levels, whatever the hash function is: for any two chunks there are two proofs that verify against one root, and the
one reports the first chunk and the other the second one at the same index. -/
theorem C105_contradict (X : Ext) (v w : Bytes) (hv : v.length = 32) (hw : w.length = 32) :
    ∃ (p q : Multiproof) (root : Root), p.verify X root = .ok () ∧ q.verify X root = .ok () ∧ p.values = [(3, v)] ∧ q.values = [(3, w)] ∧ NoWrap q := by
  obtain ⟨c, hc, h⟩ := C27_forged_value X v hv 3 (by decide)
  have hT : (Tree.node (.leaf c) (.leaf w)).Chunked := ⟨hc, hw⟩
  obtain ⟨p, h1, h2⟩ := h (.node (.leaf c) (.leaf w)) hT 2 (.leaf c) (by simp [Tree.nodeAt]) rfl
  refine ⟨p, proofOf (.node (.leaf c) (.leaf w)) [3], _, h1, proofOf_verify X hT [3], h2, ?_, proofOf_noWrap hT (by simp [Tree.depth]) _⟩
  rw [proofOf_values hT (by simp [Tree.depth])]
  rfl

/-- The hypotheses are met: two different proofs for the block of epoch 6, one of which shows more. -/
example : (proofOf gxHdr6.tree [8]).verify exExt gxC6.root = .ok () ∧ (proofOf gxHdr6.tree [8, 11]).verify exExt gxC6.root = .ok () ∧
    proofOf gxHdr6.tree [8] ≠ proofOf gxHdr6.tree [8, 11] ∧
    NoCollisionBetween exExt (proofOf gxHdr6.tree [8]) (proofOf gxHdr6.tree [8, 11]) ∧ NoWrap (proofOf gxHdr6.tree [8]) ∧ NoWrap (proofOf gxHdr6.tree [8, 11]) := by
  refine ⟨proofOf_verify exExt gxHdr6_chunked [8], proofOf_verify exExt gxHdr6_chunked [8, 11], by decide +kernel, ?_,
    proofOf_noWrap gxHdr6_chunked gxHdr6_depth _, proofOf_noWrap gxHdr6_chunked gxHdr6_depth _⟩
  intro Q hQ
  rw [C25_tree_unique _ _ _ hQ (proofOf_encodes gxHdr6_chunked _)]
  exact gxHdr6_noCollision

theorem gxWide_slots : blockSlotLoop exExt [proofOf gxHdr6.tree [8, 11]] [] = .ok [(gxC6.root, 24)] := by
  have h1 : (proofOf gxHdr6.tree [8, 11]).calculateRoot exExt = .ok gxC6.root := proofOf_root exExt gxHdr6_chunked [8, 11]
  have h2 : nextAssertGindex (proofOf gxHdr6.tree [8, 11]).values blockSlotGindex = .ok (u64Chunk 24, [(11, gxHdr6.stateRoot)]) := by
    rw [proofOf_values gxHdr6_chunked gxHdr6_depth]
    decide +kernel
  unfold blockSlotLoop
  rw [h1, h2]
  decide +kernel

/-- The hypotheses of `C105_slots_partial` and `C105_journals_partial` are met by the example input and a copy of it with the wider proof. -/
example : gxInput.intoReader exExt exSpec = .ok gxReader ∧
    { gxInput with blockSlotProofs := [proofOf gxHdr6.tree [8, 11]] : GuestInput }.intoReader exExt exSpec = .ok gxReader ∧
    verify exExt Config.default gxReader.toReader = .ok (⟨exC7, gxC6⟩, 24) ∧
    (∀ p ∈ gxInput.blockSlotProofs, ∀ q ∈ [proofOf gxHdr6.tree [8, 11]], NoCollisionBetween exExt p q) ∧
    ∀ p ∈ gxInput.blockSlotProofs ++ [proofOf gxHdr6.tree [8, 11]], NoWrap p := by
  refine ⟨gxInput_reader, ?_, gxReader_verifies, ?_, ?_⟩
  · unfold GuestInput.intoReader
    simp only [Res.bind_eq_ok, Res.mapErr_eq_ok, ensure_eq_ok, decide_eq_true_eq, slotEpoch_eq_ok_iff, Res.pure_eq, Res.ok.injEq]
    exact ⟨(), proofOf_verify exExt gxHdr_chunked [11], gxStateP.root exExt, gxHdr_extract, (),
      proofOf_verify exExt gxStateP_chunked gxStateWanted, gxStateInfo, gxState_extract, (),
      proofOf_verify exExt gxRegP_chunked gxRegWanted, exActive, gxReg_extract, 3, ⟨by decide, by decide⟩, (),
      by decide, exActive, gxInput_registry, (), gxInput_patches, _, gxWide_slots, rfl⟩
  · intro p hp q hq Q hQ
    rw [List.mem_singleton.1 hp]
    rw [List.mem_singleton.1 hq] at hQ
    rw [C25_tree_unique _ _ _ hQ (proofOf_encodes gxHdr6_chunked _)]
    exact gxHdr6_noCollision
  · intro p hp
    rcases List.mem_append.1 hp with h | h <;> rw [List.mem_singleton.1 h] <;> exact proofOf_noWrap gxHdr6_chunked gxHdr6_depth _

end Signal
