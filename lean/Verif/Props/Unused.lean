import Verif.Props.Needs
import Verif.Props.Wire
import Verif.Proofs.ExampleChain

/-!
# C102: parts of an input that cannot change its journal
-/

namespace Signal
open Spec

theorem blockSlotLoop_acc {X : Ext} {ps : List Multiproof} : ∀ {m out : List (Root × Nat)}, blockSlotLoop X ps m = .ok out →
    ∃ new, out = new ++ m ∧ (∀ m', blockSlotLoop X ps m' = .ok (new ++ m')) ∧ ∀ x ∈ new, ∃ p ∈ ps, p.calculateRoot X = .ok x.1 := by
  induction ps with
  | nil => intro m out h; cases h; exact ⟨[], rfl, fun _ => rfl, nofun⟩
  | cons p ps ih =>
    intro m out h
    unfold blockSlotLoop at h
    simp only [Res.bind_eq_ok, Res.mapErr_eq_ok] at h
    obtain ⟨root, h1, ⟨slot, rest⟩, h2, h3⟩ := h
    obtain ⟨new, rfl, h4, h5⟩ := ih h3
    refine ⟨new ++ [(root, u64FromChunk slot)], by simp, fun m' => ?_, ?_⟩
    · unfold blockSlotLoop
      simp only [h1, h2, Res.mapErr, Res.ok_bind, h4]
      simp
    · intro x hx
      rcases List.mem_append.1 hx with hx | hx
      · obtain ⟨q, hq, e⟩ := h5 x hx
        exact ⟨q, List.mem_cons_of_mem _ hq, e⟩
      · cases List.mem_singleton.1 hx
        exact ⟨p, List.mem_cons_self, h1⟩

theorem blockSlotLoop_append {X : Ext} {a b : List Multiproof} : ∀ {m out : List (Root × Nat)}, blockSlotLoop X (a ++ b) m = .ok out →
    ∃ mid, blockSlotLoop X a m = .ok mid ∧ blockSlotLoop X b mid = .ok out := by
  induction a with
  | nil => intro m out h; exact ⟨m, rfl, h⟩
  | cons p a ih =>
    intro m out h
    rw [List.cons_append] at h
    unfold blockSlotLoop at h
    simp only [Res.bind_eq_ok] at h
    obtain ⟨root, h1, x, h2, h3⟩ := h
    obtain ⟨mid, h4, h5⟩ := ih h3
    refine ⟨mid, ?_, h5⟩
    unfold blockSlotLoop
    rw [h1, Res.ok_bind, h2, Res.ok_bind]
    exact h4

/-- An input with other patches and further slot proofs. -/
def GuestInput.revised (input : GuestInput) (patches : OMap StatePatch) (before after : List Multiproof) : GuestInput :=
  { input with patches := patches, blockSlotProofs := before ++ input.blockSlotProofs ++ after }

theorem revised_reader {X : Ext} {spec : ChainSpec} {input : GuestInput} {patches : OMap StatePatch} {before after : List Multiproof} {r r' : GuestReader}
    (h : input.intoReader X spec = .ok r) (h' : (input.revised patches before after).intoReader X spec = .ok r') :
    ∃ old new, r' = { r with patches := patches, blockSlots := new ++ r.blockSlots ++ old } ∧ r.patches = input.patches ∧
      r.attestations = input.attestations ∧ r.consensusState = input.consensusState ∧
      ∀ x ∈ new, ∃ p ∈ after, p.calculateRoot X = .ok x.1 := by
  unfold GuestInput.intoReader at h h'
  unfold GuestInput.revised at h'
  simp only [Res.bind_eq_ok, Res.pure_eq, Res.ok.injEq] at h h'
  obtain ⟨_, e1, root, e2, _, e3, state, e4, _, e5, vs, e6, epoch, e7, _, e8, vs', e9, _, -, slots, e11, rfl⟩ := h
  obtain ⟨_, -, root', d2, _, d3, state', d4, _, d5, ws, d6, epoch', d7, _, d8, ws', d9, _, -, slots', d11, rfl⟩ := h'
  cases e2.symm.trans d2
  cases e4.symm.trans d4
  cases e6.symm.trans d6
  cases e7.symm.trans d7
  cases e9.symm.trans d9
  obtain ⟨m2, f1, f2⟩ := blockSlotLoop_append d11
  obtain ⟨m1, f3, f4⟩ := blockSlotLoop_append f1
  obtain ⟨old, rfl, -, -⟩ := blockSlotLoop_acc f3
  obtain ⟨mid, rfl, g1, -⟩ := blockSlotLoop_acc f4
  obtain ⟨new, rfl, -, g2⟩ := blockSlotLoop_acc f2
  have := e11.symm.trans (g1 [])
  simp only [List.append_nil, Res.ok.injEq] at this
  subst this
  exact ⟨old, new, by simp, rfl, rfl, rfl, g2⟩

/-- **C102.** Whatever is done to the patches for epochs that no vote targets, and whatever slot proofs are put in front of the others or, for other blocks than
the finalized one, after them: the guest commits to the same journal, or it aborts, and it aborts only if it does not even accept what the input says about the
state. -/
theorem C102_unused {ε : Type} {X : Ext} {spec : ChainSpec} {cfg : Config} {input : GuestInput} {journal : Bytes}
    (h : (guestEntry X spec cfg input : Res ε Bytes) = .ok journal) :
    ∃ post slot, journal = Abi.encodeJournal input.consensusState post slot ∧
      ∀ (patches : OMap StatePatch) (before after : List Multiproof),
        (∀ a ∈ input.attestations, patches.get? a.data.target.epoch = input.patches.get? a.data.target.epoch) →
        (∀ p ∈ after, p.calculateRoot X ≠ .ok post.finalized.root) →
        ((guestEntry X spec cfg { input with patches := patches, blockSlotProofs := before ++ input.blockSlotProofs ++ after } : Res ε Bytes) = .ok journal ∧
          ∃ r, { input with patches := patches, blockSlotProofs := before ++ input.blockSlotProofs ++ after }.intoReader X spec = .ok r) ∨
        ((guestEntry X spec cfg { input with patches := patches, blockSlotProofs := before ++ input.blockSlotProofs ++ after } : Res ε Bytes) = .panic ∧
          ∀ r, { input with patches := patches, blockSlotProofs := before ++ input.blockSlotProofs ++ after }.intoReader X spec ≠ .ok r) := by
  unfold guestEntry at h
  cases hr : input.intoReader X spec with
  | panic => rw [hr] at h; cases h
  | err e => rw [hr] at h; cases h
  | ok r =>
    rw [hr] at h
    simp only [Res.unwrap, Res.ok_bind] at h
    cases hv : verify X cfg r.toReader with
    | panic => rw [hv] at h; cases h
    | err e => rw [hv] at h; cases h
    | ok out =>
      obtain ⟨post, slot⟩ := out
      rw [hv] at h
      cases h
      refine ⟨post, slot, rfl, fun patches before after hp ha => ?_⟩
      change ((guestEntry X spec cfg (input.revised patches before after) : Res ε Bytes) = _ ∧ ∃ r, (input.revised patches before after).intoReader X spec = .ok r) ∨
        ((guestEntry X spec cfg (input.revised patches before after) : Res ε Bytes) = _ ∧ ∀ r, (input.revised patches before after).intoReader X spec ≠ .ok r)
      cases hr' : (input.revised patches before after).intoReader X spec with
      | panic => exact .inr ⟨by unfold guestEntry; rw [hr']; rfl, nofun⟩
      | err e => exact .inr ⟨by unfold guestEntry; rw [hr']; rfl, nofun⟩
      | ok r' =>
        refine .inl ⟨?_, r', rfl⟩
        obtain ⟨old, new, rfl, q1, q2, q3, q4⟩ := revised_reader hr hr'
        have hsame : SameAt (fun e => ∃ a ∈ input.attestations, a.data.target.epoch = e) r.toReader
            { r with patches := patches, blockSlots := new ++ r.blockSlots ++ old : GuestReader }.toReader := by
          have hpatch : ∀ e, (∃ a ∈ input.attestations, a.data.target.epoch = e) →
              { r with patches := patches, blockSlots := new ++ r.blockSlots ++ old : GuestReader }.patchAt e = r.patchAt e := by
            rintro e ⟨a, hm, rfl⟩
            unfold GuestReader.patchAt
            dsimp only
            rw [hp a hm, q1]
          refine ⟨rfl, rfl, fun _ _ => rfl, fun e he => ?_, fun e i he => ?_⟩
          · unfold GuestReader.toReader GuestReader.activeValidators
            dsimp only
            rw [hpatch e he]
          · unfold GuestReader.toReader
            dsimp only
            rw [hpatch e he]
        have hslot : ({ r with patches := patches, blockSlots := new ++ r.blockSlots ++ old : GuestReader }.toReader).slotForBlock post.finalized.root =
            r.toReader.slotForBlock post.finalized.root := by
          have hfound : ∃ x, r.blockSlots.find? (fun e => decide (e.1 = post.finalized.root)) = some x := by
            unfold verify at hv
            simp only [Res.bind_eq_ok, Res.pure_eq, Res.ok.injEq, Prod.mk.injEq] at hv
            obtain ⟨_, -, _, -, s', -, _, -, n, hn, rfl, rfl⟩ := hv
            cases hf : r.blockSlots.find? (fun e => decide (e.1 = s'.finalized.root)) with
            | none =>
              unfold GuestReader.toReader at hn
              dsimp only at hn
              rw [hf] at hn
              cases hn
            | some x => exact ⟨x, rfl⟩
          obtain ⟨x, hx⟩ := hfound
          have hnew : new.find? (fun e => decide (e.1 = post.finalized.root)) = none := by
            rw [List.find?_eq_none]
            intro y hy hd
            obtain ⟨p, hm, e⟩ := q4 y hy
            exact ha p hm (e.trans (by rw [of_decide_eq_true hd]))
          unfold GuestReader.toReader
          dsimp only
          rw [List.find?_append, List.find?_append, hnew, hx]
          rfl
        have hfin := verify_same hsame X cfg (atts := input.attestations) (by rw [← q2]; rfl) (fun a ha => ⟨a, ha, rfl⟩) (by rw [← q2]; rfl) rfl hv hslot
        unfold guestEntry
        rw [hr']
        simp only [Res.unwrap, Res.ok_bind, hfin]
        rfl

theorem gxMore_patches : validateStatePatches exExt exSpec [(6, ⟨[(4, exRoot32 1)], [(8, 9)]⟩), (7, ⟨[(5, exRoot32 1)], [(8, 9)]⟩), (8, ⟨[(1, exRoot32 5)], [(8, 9)]⟩)]
    gxC3 gxStateInfo exActive = .ok () := by
  decide +kernel

theorem gxMore_slots : blockSlotLoop exExt ([proofOf gxHdr6'.tree [8]] ++ [proofOf gxHdr6.tree [8]] ++ []) [] = .ok [(gxC6.root, 24), (gxC6'.root, 25)] := by
  obtain ⟨new, h1, h2, -⟩ := blockSlotLoop_acc gxInput_slots
  rw [List.append_nil] at h1
  subst h1
  have h3 : (proofOf gxHdr6'.tree [8]).calculateRoot exExt = .ok gxC6'.root := proofOf_root exExt gxHdr6'_chunked [8]
  show blockSlotLoop exExt (proofOf gxHdr6'.tree [8] :: [proofOf gxHdr6.tree [8]]) [] = _
  unfold blockSlotLoop
  rw [h3, gxFork_slot]
  simp only [Res.mapErr, Res.ok_bind]
  rw [h2]
  decide +kernel

/-- The hypotheses are met, and the first case of the conclusion occurs: a patch for epoch 8 is added, which no vote targets, and a proof for another block. -/
example : (guestEntry exExt exSpec Config.default gxInput : Res Unit Bytes) = .ok (Abi.encodeJournal ⟨exC4, gxC3⟩ ⟨exC7, gxC6⟩ 24) ∧
    (∀ a ∈ gxInput.attestations, OMap.get? [(6, ⟨[(4, exRoot32 1)], [(8, 9)]⟩), (7, ⟨[(5, exRoot32 1)], [(8, 9)]⟩), (8, ⟨[(1, exRoot32 5)], [(8, 9)]⟩)]
      a.data.target.epoch = gxInput.patches.get? a.data.target.epoch) ∧
    ∃ r, { gxInput with
      patches := [(6, ⟨[(4, exRoot32 1)], [(8, 9)]⟩), (7, ⟨[(5, exRoot32 1)], [(8, 9)]⟩), (8, ⟨[(1, exRoot32 5)], [(8, 9)]⟩)]
      blockSlotProofs := [proofOf gxHdr6'.tree [8]] ++ gxInput.blockSlotProofs ++ [] : GuestInput }.intoReader exExt exSpec = .ok r := by
  refine ⟨gxInput_runs, by decide +kernel, ?_⟩
  have h : GuestInput.intoReader exExt exSpec { gxInput with
      patches := [(6, ⟨[(4, exRoot32 1)], [(8, 9)]⟩), (7, ⟨[(5, exRoot32 1)], [(8, 9)]⟩), (8, ⟨[(1, exRoot32 5)], [(8, 9)]⟩)]
      blockSlotProofs := [proofOf gxHdr6'.tree [8]] ++ gxInput.blockSlotProofs ++ [] } = .ok { gxReader with
      patches := [(6, ⟨[(4, exRoot32 1)], [(8, 9)]⟩), (7, ⟨[(5, exRoot32 1)], [(8, 9)]⟩), (8, ⟨[(1, exRoot32 5)], [(8, 9)]⟩)]
      blockSlots := [(gxC6.root, 24), (gxC6'.root, 25)] } := by
    unfold GuestInput.intoReader
    simp only [Res.bind_eq_ok, Res.mapErr_eq_ok, ensure_eq_ok, decide_eq_true_eq, slotEpoch_eq_ok_iff,
      Res.pure_eq, Res.ok.injEq]
    exact ⟨(), proofOf_verify exExt gxHdr_chunked [11], gxStateP.root exExt, gxHdr_extract, (),
      proofOf_verify exExt gxStateP_chunked gxStateWanted, gxStateInfo, gxState_extract, (),
      proofOf_verify exExt gxRegP_chunked gxRegWanted, exActive, gxReg_extract, 3, ⟨by decide, by decide⟩, (),
      by decide, exActive, gxInput_registry, (), gxMore_patches, _, gxMore_slots, rfl⟩
  exact ⟨_, h⟩

end Signal
