import Verif.Proofs.Machine

/-!
# C62: the verdict does not depend on the machine

The host computes with 64-bit words, the guest with 32-bit words and less memory.
-/

namespace Signal
open Spec

/-- **C62.** Two machines with different word sizes that hold the committees of all target epochs come to the same outcome
over the same reader: the same result, the same error or both abort. -/
theorem C62_word_size (X : Ext) (word capacity : Nat) (cfg : Config) (R : Reader) (hk : KeepsLength X)
    (hf : ∀ atts, R.attestations = .ok atts → ∀ a ∈ atts, ∀ l, R.activeValidators a.data.target.epoch = .ok l →
      FitsWord X.usizeMod R.spec l ∧ FitsWord word R.spec l) :
    verify (onMachine X word capacity) cfg R = verify X cfg R := by
  unfold verify
  refine Res.bind_congr fun pre _ => Res.bind_congr fun atts ha => ?_
  rw [Res.unwrap_eq_ok] at ha
  rw [verifyLoop_machine hk]
  rintro ⟨l, g⟩ hp
  obtain ⟨hne, hkey⟩ := chunkBy_key hp
  obtain ⟨a, hag⟩ := List.exists_mem_of_ne_nil g hne
  have hm : a ∈ atts := by
    rw [← chunkBy_flatten (key := attLink) atts]
    exact List.mem_flatMap.2 ⟨_, hp, hag⟩
  have := hf atts ha a hm
  have e : l.target.epoch = a.data.target.epoch := by rw [← hkey a hag]; rfl
  dsimp only
  rw [e]
  exact this

/-- **C62.** So do two guests over the same input, if in addition both have room for the stacks its proofs ask for. -/
theorem C62_guest {ε : Type} (X : Ext) (word capacity : Nat) (cfg : Config) (spec : ChainSpec) (input : GuestInput)
    (hk : KeepsLength X) (h1 : ∀ p ∈ input.proofs, p.maxStackDepth ≤ X.stackCapacity)
    (h2 : ∀ p ∈ input.proofs, p.maxStackDepth ≤ capacity)
    (hf : ∀ g, input.intoReader X spec = .ok g → ∀ a ∈ g.attestations,
      FitsWord X.usizeMod spec (g.activeValidators a.data.target.epoch) ∧
      FitsWord word spec (g.activeValidators a.data.target.epoch)) :
    (guestEntry (onMachine X word capacity) spec cfg input : Res ε Bytes) = guestEntry X spec cfg input := by
  unfold guestEntry
  rw [intoReader_machine h1 h2]
  refine Res.bind_congr fun g hg => ?_
  rw [Res.unwrap_eq_ok] at hg
  rw [C62_word_size X word capacity cfg g.toReader hk]
  intro atts ha a hm l hl
  cases ha
  cases hl
  have hs : g.toReader.spec = spec := by
    obtain ⟨_, _, _, -, -, -, -, -, -, -, -, -, -, -, hgr, -⟩ := intoReader_eq_ok hg
    exact hgr
  rw [hs]
  exact hf g hg a hm

variable (X : Ext) (order : List Nat → List Nat) (ho : ∀ l, (order l).Perm l) (hcap : 126 ≤ X.stackCapacity)
variable {cfg : Config} {r : HostReader} {trusted : Checkpoint} {st : HostState} {input : GuestInput}
  {pre post : ConsensusState} {slot : Nat}

include ho hcap

/-- The host of the guest's size would have made the same input. -/
theorem preflight_machine (word capacity : Nat) (hroom : 126 ≤ capacity) (hk : KeepsLength X)
    (ht : TrustedState X r trusted st)
    (hc : Consistent X r trusted st (verifyQueries X r.spec r.attestations post.finalized.root))
    (hf : ∀ a ∈ r.attestations, ∀ l, r.activeValidators a.data.target.epoch = .ok l →
      FitsWord X.usizeMod r.spec l ∧ FitsWord word r.spec l)
    (h : preflight X order cfg r trusted = .ok (input, pre, post, slot)) :
    verifyQueries (onMachine X word capacity) r.spec r.attestations post.finalized.root =
      verifyQueries X r.spec r.attestations post.finalized.root ∧
    preflight (onMachine X word capacity) order cfg r trusted = .ok (input, pre, post, slot) := by
  obtain ⟨hv, rfl, log, hl, hi⟩ := preflight_parts X order ht h
  have hv' : verify (onMachine X word capacity) cfg r.toReader = .ok (post, slot) := by
    rw [C62_word_size X word capacity cfg r.toReader hk, hv]
    intro atts ha a hm l hl
    cases ha
    exact hf a hm l (toReader_active.1 hl)
  have hdvd : r.attestations ≠ [] →
      r.spec.epochsPerHistoricalVector ∣ X.usizeMod ∧ r.spec.epochsPerHistoricalVector ∣ word := by
    intro hne
    obtain ⟨a, ha⟩ := List.exists_mem_of_ne_nil _ hne
    obtain ⟨_, _, _, h2, h3, _⟩ := verify_answered hv
    cases h2
    obtain ⟨_, ⟨l, g⟩, _⟩ := h3 a ha
    obtain ⟨f1, f2⟩ := hf a ha l (toReader_active.1 g)
    exact ⟨f1.history, f2.history⟩
  have hq : verifyQueries (onMachine X word capacity) r.spec r.attestations post.finalized.root =
      verifyQueries X r.spec r.attestations post.finalized.root :=
    verifyQueries_machine (fun h => (hdvd h).1) (fun h => (hdvd h).2)
  refine ⟨hq, ?_⟩
  have ha : ∃ a, r.activeValidators trusted.epoch = .ok a := by
    unfold toInput at hi
    simp only [Res.bind_eq_ok, Res.mapErr_eq_ok] at hi
    obtain ⟨_, _, _, _, _, _, _, _, _, _, a, ha, _⟩ := hi
    exact ⟨a, ha⟩
  obtain ⟨input', h'⟩ := C61_preflight_succeeds (onMachine X word capacity) order ho hroom ht.machine hv'
    (by rw [hq]; exact hc.machine) ha
  obtain ⟨-, -, log', hl', hi'⟩ := preflight_parts (onMachine X word capacity) order ht.machine h'
  rw [hq, hl] at hl'
  cases hl'
  have := toInput_machine hi hi'
  subst this
  rw [h']
  rw [(inputFor_of_toInput X order ho hcap ht hc hl hi).consensus]

/-- **C62, C61.** The host runs the preflight on its machine, the guest the program on a smaller one, both large enough for the
active validators: the guest either aborts or commits to the journal the host announces. -/
theorem C62_same_journal_or_abort (word capacity : Nat) (hroom : 126 ≤ capacity) (hk : KeepsLength X)
    (ht : TrustedState X r trusted st)
    (hc : Consistent X r trusted st (verifyQueries X r.spec r.attestations post.finalized.root))
    (hf : ∀ a ∈ r.attestations, ∀ l, r.activeValidators a.data.target.epoch = .ok l →
      FitsWord X.usizeMod r.spec l ∧ FitsWord word r.spec l)
    (h : preflight X order cfg r trusted = .ok (input, pre, post, slot)) (journal : Bytes) {ε : Type}
    (hj : (guestEntry (onMachine X word capacity) r.spec cfg input : Res ε Bytes) = .ok journal) :
    journal = Abi.encodeJournal pre post slot := by
  obtain ⟨hq, h'⟩ := preflight_machine X order ho hcap word capacity hroom hk ht hc hf h
  exact C61_same_journal_or_abort (onMachine X word capacity) order ho hroom ht.machine (by rw [hq]; exact hc.machine) h'
    journal hj

/-- **C62, C61.** And it does commit to it for every accepted input, if no active validator's balance has changed. -/
theorem C62_same_journal (word capacity : Nat) (hroom : 126 ≤ capacity) (hk : KeepsLength X)
    (ht : TrustedState X r trusted st)
    (hc : Consistent X r trusted st (verifyQueries X r.spec r.attestations post.finalized.root))
    (hf : ∀ a ∈ r.attestations, ∀ l, r.activeValidators a.data.target.epoch = .ok l →
      FitsWord X.usizeMod r.spec l ∧ FitsWord word r.spec l)
    (h : preflight X order cfg r trusted = .ok (input, pre, post, slot))
    (hbal : ∀ a ∈ r.attestations, ∀ s, r.state a.data.target.epoch = .ok s →
      ∀ (i : Nat) (v w : Validator), st.beacon.validators[i]? = some v → s.beacon.validators[i]? = some w →
        w.activeAt a.data.target.epoch → w.effectiveBalance = v.effectiveBalance)
    (hacc : ∃ g, input.intoReader (onMachine X word capacity) r.spec = .ok g) {ε : Type} :
    (guestEntry (onMachine X word capacity) r.spec cfg input : Res ε Bytes) = .ok (Abi.encodeJournal pre post slot) := by
  obtain ⟨hq, h'⟩ := preflight_machine X order ho hcap word capacity hroom hk ht hc hf h
  exact C61_same_journal (onMachine X word capacity) order ho hroom ht.machine (by rw [hq]; exact hc.machine) h' hbal hacc

omit ho hcap

/-- Mainnet: with fewer than `2^21` validators, of indices below `2^32 - 1`, both the 64-bit host and the 32-bit guest are
large enough. -/
theorem C62_mainnet_fits (spec : ChainSpec) (h1 : spec.epochsPerHistoricalVector = 65536) (h2 : spec.slotsPerEpoch = 32)
    (h3 : spec.maxCommitteesPerSlot = 64) (l : List (Nat × ValidatorInfo)) (hl : l.length < 2 ^ 21)
    (hi : ∀ x ∈ l, x.1 < 2 ^ 32 - 1) : FitsWord (2 ^ 64) spec l ∧ FitsWord (2 ^ 32) spec l := by
  constructor
  · refine ⟨by rw [h1]; norm_num, by rw [h2]; norm_num, ?_, by rw [h2, h3]; decide, by rw [h2, h3]; norm_num; omega⟩
    intro x hx
    have := hi x hx
    norm_num at this ⊢
    omega
  · refine ⟨by rw [h1]; norm_num, by rw [h2]; norm_num, ?_, by rw [h2, h3]; decide, by rw [h2, h3]; norm_num; omega⟩
    intro x hx
    have := hi x hx
    norm_num at this ⊢
    omega

/-! ## Concrete cases -/

theorem exExt_keepsLength : KeepsLength exExt := by
  intro l rounds seed out h
  cases h
  rfl

/-- The committees of the example fit into 7 bits. -/
theorem ex_fits {l : List (Nat × ValidatorInfo)} (hl : l.length ≤ 10) (hi : ∀ x ∈ l, x.1 < 20) (spec : ChainSpec)
    (hs : spec = exSpec) : FitsWord exExt.usizeMod spec l ∧ FitsWord 128 spec l := by
  subst hs
  have e : max 1 exSpec.maxCommitteesPerSlot * exSpec.slotsPerEpoch = 8 := by decide
  have e' : 128 ≤ exExt.usizeMod := by decide
  constructor
  · refine ⟨by decide, by decide, ?_, by decide, by rw [e]; omega⟩
    intro x hx
    have := hi x hx
    omega
  · refine ⟨by decide, by decide, ?_, by decide, by rw [e]; omega⟩
    intro x hx
    have := hi x hx
    omega

/-- C62: the example on a machine with 7-bit words. -/
example : verify (onMachine exExt 128 126) Config.default exReader = .ok (⟨exC7, exC6⟩, 24) := by
  rw [C62_word_size exExt 128 126 Config.default exReader exExt_keepsLength, exReader_verifies]
  intro atts _ a _ l hl
  cases hl
  exact ex_fits (by decide) (by decide) _ rfl

set_option maxRecDepth 100000 in
/-- C62: that the word is large enough cannot be left out. With 4-bit words the same votes fail. -/
theorem C62_small_word_fails : ∃ (X : Ext) (cfg : Config) (R : Reader) (word : Nat) (result : ConsensusState × Nat),
    verify X cfg R = .ok result ∧ verify (onMachine X word X.stackCapacity) cfg R = .err (.committeeCache .unableToShuffle) :=
  ⟨exExt, Config.default, exReader, 16, _, exReader_verifies, by decide +kernel⟩

/-- C62 and C61 for the concrete host: a guest with 7-bit words and room for 126 stack nodes commits to the host's result. -/
example : ∃ input, preflight exExt id Config.default fxHost gxC3 =
      .ok (input, fxHost.consensusState, ⟨exC7, gxC6⟩, 24) ∧
    ∀ journal, (guestEntry (onMachine exExt 128 126) fxHost.spec Config.default input : Res Unit Bytes) = .ok journal →
      journal = Abi.encodeJournal fxHost.consensusState ⟨exC7, gxC6⟩ 24 := by
  obtain ⟨input, hp, -⟩ := fx_same_journal
  refine ⟨input, hp, fun journal hj => ?_⟩
  refine C62_same_journal_or_abort exExt id (fun l => List.Perm.refl l) (by decide) 128 126 (by decide) exExt_keepsLength
    fx_trusted ?_ ?_ hp journal hj
  · rw [show (⟨exC7, gxC6⟩ : ConsensusState).finalized.root = gxC6.root from rfl, fx_queries]
    exact fx_consistent
  · intro a ha l hl
    have h6 : fxHost.activeValidators 6 = .ok (exActive.set 8 (8, { exVal 8 with exitEpoch := 9 })) := by decide +kernel
    have h7 : fxHost.activeValidators 7 = .ok (exActive.set 8 (8, { exVal 8 with exitEpoch := 9 })) := by decide +kernel
    have : ∀ a ∈ fxHost.attestations, a.data.target.epoch = 6 ∨ a.data.target.epoch = 7 := by decide +kernel
    rcases this a ha with h | h
    · rw [h, h6] at hl
      cases hl
      exact ex_fits (by decide) (by decide) _ rfl
    · rw [h, h7] at hl
      cases hl
      exact ex_fits (by decide) (by decide) _ rfl

end Signal
