import Verif.Props.Host
import Verif.Props.Signing

/-!
# C103: the links that are voted for determine the outcome
-/

namespace Signal
open Spec

theorem run_det {s : ConsensusState} {ls : List Link} {a b : ConsensusState} (h : Run s ls a) (h' : Run s ls b) : a = b := by
  obtain ⟨rest, e, r⟩ := h.prefix_of_subset h' (fun _ hx => hx)
  have : rest = [] := by simpa using e
  subst this
  cases r
  rfl

/-- **C103.** Two verifications that start in the same state end in the same state if each vote of the second is for a link that some vote of the first is for.
The votes of each are then for the same links, in the same order. Nothing else has to be common to them: not the libraries, the configuration, the chain
specification, the registry or the signers. -/
theorem C103_outcome {X X' : Ext} {cfg cfg' : Config} {R R' : Reader} {pre post post' : ConsensusState} {slot slot' : Nat} {atts atts' : List Attestation}
    (h : verify X cfg R = .ok (post, slot)) (h' : verify X' cfg' R' = .ok (post', slot'))
    (hs : R.consensusState = .ok pre) (hs' : R'.consensusState = .ok pre) (ha : R.attestations = .ok atts) (ha' : R'.attestations = .ok atts')
    (hsub : ∀ a' ∈ atts', ∃ a ∈ atts, linkOf a = linkOf a') :
    post' = post ∧ ∃ links, Blocks atts links ∧ Blocks atts' links := by
  obtain ⟨p, as, links, k1, k2, k3, k4, k5, -, k6⟩ := C09_exactly_one_finalization X cfg R post slot h
  obtain ⟨p', as', links', l1, l2, l3, l4, l5, -, -⟩ := C09_exactly_one_finalization X' cfg' R' post' slot' h'
  rw [hs] at k1; cases k1
  rw [ha] at k2; cases k2
  rw [hs'] at l1; cases l1
  rw [ha'] at l2; cases l2
  have hin : ∀ a ∈ atts, linkOf a ∈ links := by
    intro a hm
    rw [k3.concat] at hm
    obtain ⟨l, hl, hm⟩ := List.mem_flatMap.1 hm
    have := of_decide_eq_true (List.mem_filter.1 hm).2
    exact this ▸ hl
  have hlinks : links' ⊆ links := by
    intro l hl
    obtain ⟨a', hm, rfl⟩ := l3.nonempty l hl
    obtain ⟨a, hm', e⟩ := hsub a' hm
    exact e ▸ hin a hm'
  obtain ⟨rest, e, hr⟩ := k4.prefix_of_subset l4 hlinks
  cases rest with
  | nil =>
    rw [List.append_nil] at e
    subst e
    cases hr
    exact ⟨rfl, links, k3, l3⟩
  | cons l rest =>
    obtain ⟨s, -, q1, q2, -⟩ := k6 _ _ _ e
    exact absurd (run_det q1 l4 ▸ q2) l5

/-- **C103** for the guest: two inputs with the same state before, the second with votes only for links of the first, lead to the same state after in the
journals, on whatever networks they are run. -/
theorem C103_journals {ε : Type} {X X' : Ext} {spec spec' : ChainSpec} {cfg cfg' : Config} {input input' : GuestInput} {journal journal' : Bytes}
    (h : (guestEntry X spec cfg input : Res ε Bytes) = .ok journal) (h' : (guestEntry X' spec' cfg' input' : Res ε Bytes) = .ok journal')
    (hs : input'.consensusState = input.consensusState) (hsub : ∀ a' ∈ input'.attestations, ∃ a ∈ input.attestations, linkOf a = linkOf a') :
    ∃ post slot slot', journal = Abi.encodeJournal input.consensusState post slot ∧ journal' = Abi.encodeJournal input.consensusState post slot' := by
  have run : ∀ {X : Ext} {spec : ChainSpec} {cfg : Config} {input : GuestInput} {journal : Bytes}, (guestEntry X spec cfg input : Res ε Bytes) = .ok journal →
      ∃ (r : GuestReader) (post : ConsensusState) (slot : Nat), verify X cfg r.toReader = .ok (post, slot) ∧
        r.consensusState = input.consensusState ∧ r.attestations = input.attestations ∧ journal = Abi.encodeJournal input.consensusState post slot := by
    intro X spec cfg input journal h
    unfold guestEntry at h
    cases hr : input.intoReader X spec with
    | panic => rw [hr] at h; cases h
    | err e => rw [hr] at h; cases h
    | ok r =>
      rw [hr] at h
      simp only [Res.unwrap, Res.ok_bind] at h
      cases hv : verify X cfg r.toReader with
      | panic => rw [hv] at h; cases h
      | err e => rw [hv] at h; cases h
      | ok out =>
        rw [hv] at h
        cases h
        unfold GuestInput.intoReader at hr
        simp only [Res.bind_eq_ok, Res.pure_eq, Res.ok.injEq] at hr
        obtain ⟨_, -, _, -, _, -, _, -, _, -, _, -, _, -, _, -, _, -, _, -, _, -, rfl⟩ := hr
        exact ⟨_, out.1, out.2, hv, rfl, rfl, rfl⟩
  obtain ⟨r, post, slot, v, e1, e2, rfl⟩ := run h
  obtain ⟨r', post', slot', v', e1', e2', rfl⟩ := run h'
  have := (C103_outcome v v' (pre := input.consensusState) (by rw [← e1]; rfl) (by rw [← hs, ← e1']; rfl) (atts := input.attestations) (by rw [← e2]; rfl)
    (by rw [← e2']; rfl) hsub).1
  subst this
  exact ⟨post', slot, slot', rfl, by rw [hs]⟩

/-- The hypotheses are met: with other libraries, another threshold and fewer votes. -/
example : verify exExt Config.default gxReader.toReader = .ok (⟨exC7, gxC6⟩, 24) ∧
    verify sgExt Config.sepolia sgSecondReader.toReader = .ok (⟨exC7, gxC6⟩, 24) ∧
    sgSecondReader.toReader.consensusState = gxReader.toReader.consensusState ∧
    sgSecondReader.attestations.length < gxReader.attestations.length ∧
    ∀ a' ∈ sgSecondReader.attestations, ∃ a ∈ gxReader.attestations, linkOf a = linkOf a' :=
  ⟨gxReader_verifies, sgSecond_verifies, rfl, by decide +kernel, fun a' h => ⟨a', (List.mem_filter.1 h).1, rfl⟩⟩

/-- The condition on the links is needed: the same validators vote for another block. -/
example : verify exExt Config.default gxReader.toReader = .ok (⟨exC7, gxC6⟩, 24) ∧
    verify exExt Config.default gxForkReader.toReader = .ok (⟨gxC7', gxC6'⟩, 25) ∧
    gxForkReader.consensusState = gxReader.consensusState := ⟨gxReader_verifies, gxFork_verifies, by unfold gxForkReader; rfl⟩

end Signal
