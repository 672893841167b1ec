import Verif.Proofs.Program

/-! A concrete chain on which `build-input` makes two rounds. -/

namespace Signal
open Spec Wire Program

theorem trustedCheckpoint_of {X : Ext} {spec : ChainSpec} {w : World} {e : Nat} {st : HostState} {hdr : Header}
    (h1 : stateAtEpochBoundary (hostStateOps X) spec.slotsPerEpoch w.provider e = .ok st)
    (h2 : w.boundaryBlock st.latestBlockHeader.slot = .ok (some hdr)) (h3 : hdr.stateRoot = st.beacon.tree.root X) :
    trustedCheckpoint X spec w e = .ok ⟨e, hdr.tree.root X⟩ := by
  unfold trustedCheckpoint
  rw [h1]
  simp only [Res.mapErr, Res.ok_bind, h2, okOr, h3, decide_true]
  rfl

theorem prepare_of {W : WireExt} {X : Ext} {order : List Nat → List Nat} {spec : ChainSpec} {cfg : Config} {bound : Nat} {w : World}
    {e : Nat} {trusted : Checkpoint} {state next : ConsensusState} {links : List Link} {atts : List Attestation}
    {input : GuestInput} {pre post : ConsensusState} {slot : Nat}
    (h1 : trustedCheckpoint X spec w e = .ok trusted)
    (h2 : hostSearch spec.slotsPerEpoch w.find w.walk w.getBlock trusted bound = some (.ok (state, next, links, atts)))
    (h3 : preflight X order cfg (w.reader spec state atts) trusted = .ok (input, pre, post, slot)) :
    prepare W X order spec cfg bound w e = some (.ok ⟨encodeInput W input, pre, post, slot⟩) := by
  unfold prepare
  rw [h1]
  dsimp only
  rw [h2]
  dsimp only
  rw [h3]
  rfl

def fpHdr9 : Header := ⟨36, 7, exRoot32 51, exRoot32 52, exRoot32 53⟩
def fpC9 : Checkpoint := ⟨9, fpHdr9.tree.root exExt⟩
def fpC10 : Checkpoint := ⟨10, exRoot32 100⟩

/-- The votes for epochs 9 and 10. -/
def fpVotes : List Attestation :=
  [exVote 36 exC7 fpC9 [0, 1], exVote 37 exC7 fpC9 [2, 3, 4], exVote 38 exC7 fpC9 [5, 6], exVote 39 exC7 fpC9 [7, 8, 9],
   exVote 40 fpC9 fpC10 [0, 1], exVote 41 fpC9 fpC10 [2, 3, 4], exVote 42 fpC9 fpC10 [5, 6], exVote 43 fpC9 fpC10 [7, 8, 9]]

/-- The node: epoch 3 is final at the start of epoch 5, epoch 6 at the start of epoch 8 and epoch 9 at the start of epoch 11. -/
def fpAsk : StateAnswers := fun slot =>
  if slot < 16 then .err .node
  else if slot < 20 then .ok ⟨gxC3, ⟨2, exRoot32 20⟩⟩
  else if slot < 28 then .ok ⟨exC4, gxC3⟩
  else if slot < 32 then .ok ⟨gxC6, gxC3⟩
  else if slot < 40 then .ok ⟨exC7, gxC6⟩
  else if slot < 44 then .ok ⟨fpC9, gxC6⟩
  else if slot < 48 then .ok ⟨fpC10, fpC9⟩
  else .err .node

def fpBlocks (slot : Nat) : Res HostError (Option Block) :=
  .ok (if slot = 25 then some (.electra ((gxVotes.take 4).map some))
    else if slot = 29 then some (.electra ((gxVotes.drop 4).map some))
    else if slot = 41 then some (.electra (fpVotes.map some))
    else none)

/-- What is read in the first round. -/
def fpWorld1 : World where
  provider := fxProvider
  genesisRoot := .ok (exRoot32 77)
  boundaryBlock slot := .ok (if slot = 12 then some gxHdr else none)
  find := fpAsk
  walk := fpAsk
  getBlock := fpBlocks
  headers root := .ok (if root = gxHdr6.tree.root exExt then some gxHdr6 else none)
  decompress pk := some (pk ++ List.replicate 48 0)

/-- The state of epoch 6 in the second round. -/
def fpState6 : HostState := { fxState 12 gxVs with latestBlockHeader := ⟨24, 6, exRoot32 41, zeroRoot, exRoot32 43⟩ }

def fpProvider (slot : Nat) : Res ProviderError HostState :=
  if slot = 24 then .ok fpState6
  else if slot = 36 then .ok (fxState 36 gxVs)
  else if slot = 40 then .ok (fxState 40 gxVs)
  else .err (.notFound slot)

/-- What is read in the second round. -/
def fpWorld2 : World where
  provider := fpProvider
  genesisRoot := .ok (exRoot32 77)
  boundaryBlock slot := .ok (if slot = 24 then some gxHdr6 else none)
  find := fpAsk
  walk := fpAsk
  getBlock := fpBlocks
  headers root := .ok (if root = fpHdr9.tree.root exExt then some fpHdr9 else none)
  decompress pk := some (pk ++ List.replicate 48 0)

set_option maxRecDepth 100000 in
theorem fp_search1 : hostSearch exSpec.slotsPerEpoch fpAsk fpAsk fpBlocks gxC3 9 =
    some (.ok (⟨exC4, gxC3⟩, ⟨exC7, gxC6⟩, [⟨exC4, gxC6⟩, ⟨gxC6, exC7⟩], gxVotes)) := by decide +kernel

set_option maxRecDepth 100000 in
theorem fp_search2 : hostSearch exSpec.slotsPerEpoch fpAsk fpAsk fpBlocks gxC6 9 =
    some (.ok (⟨exC7, gxC6⟩, ⟨fpC10, fpC9⟩, [⟨exC7, fpC9⟩, ⟨fpC9, fpC10⟩], fpVotes)) := by decide +kernel

theorem fp_reader1 : fpWorld1.reader exSpec ⟨exC4, gxC3⟩ gxVotes = fxHost := rfl

theorem fp_checkpoint1 : trustedCheckpoint exExt exSpec fpWorld1 3 = .ok gxC3 :=
  trustedCheckpoint_of (st := fxState 12 gxVs) (hdr := gxHdr) rfl rfl
    (by rw [fxState_beacon, gxState_root]; rfl)

/-! The serialization of these votes. -/

def fpAll : List Attestation := gxVotes ++ fpVotes

/-- Serialization for the examples: an attestation is written as its number among the votes. -/
def fpWire : WireExt := { exWire with
  encodeAttestation := fun a => [UInt8.ofNat (fpAll.idxOf a)]
  decodeAttestation := fun b => match b with
    | [i] => fpAll[i.toNat]?
    | _ => none }

theorem fpAll_table {a : Attestation} (ha : a ∈ fpAll) :
    fpAll[(UInt8.ofNat (fpAll.idxOf a)).toNat]? = some a ∧ WfCheckpoint a.data.source ∧ WfCheckpoint a.data.target := by
  have hl : fpAll.length = 17 := by decide
  have hx := List.idxOf_lt_length_iff.2 ha
  refine ⟨?_, ?_⟩
  · have : (UInt8.ofNat (fpAll.idxOf a)).toNat = fpAll.idxOf a := by
      simp only [UInt8.toNat_ofNat']
      omega
    rw [this]
    exact (List.getElem?_eq_getElem hx).trans (by rw [List.getElem_idxOf])
  · rcases List.mem_append.1 ha with ha | ha
    · obtain ⟨i, hi, rfl⟩ := List.getElem_of_mem ha
      exact (gxVotes_table i hi _ (List.getElem?_eq_getElem hi)).2
    · have h7 : WfCheckpoint exC7 := ⟨by decide, by decide⟩
      have h9 : WfCheckpoint fpC9 := ⟨by decide, exExt.sha256_length _⟩
      have h10 : WfCheckpoint fpC10 := ⟨by decide, by decide⟩
      have : ∀ a ∈ fpVotes, (a.data.source = exC7 ∨ a.data.source = fpC9) ∧ (a.data.target = fpC9 ∨ a.data.target = fpC10) := by
        decide +kernel
      obtain ⟨h1, h2⟩ := this a ha
      exact ⟨by rcases h1 with h | h <;> rw [h] <;> assumption, by rcases h2 with h | h <;> rw [h] <;> assumption⟩

theorem fpWire_attestation {b : Bytes} {a : Attestation} (h : fpWire.decodeAttestation b = some a) : b.length = 1 ∧ a ∈ fpAll := by
  match b, h with
  | [i], h =>
    have h' : fpAll[i.toNat]? = some a := h
    exact ⟨rfl, List.mem_of_getElem? h'⟩

theorem fpWire_laws : WireLaws fpWire where
  bits := exWire_laws.bits
  bits_fit := exWire_laws.bits_fit
  bits_more := exWire_laws.bits_more
  bits_larger := exWire_laws.bits_larger
  attestation := by
    intro b a h
    obtain ⟨h1, h2⟩ := fpWire_attestation h
    exact ⟨(fpAll_table h2).1, by rw [h1]; exact Nat.le_refl 1⟩
  checkpoints := fun b a h => (fpAll_table (fpWire_attestation h).2).2

theorem fpWire_bits (l : List Bool) : (fpWire.encodeBits l).length ≤ l.length + 64 := exWire_bits l

/-- The first round prepares the input of the concrete host. -/
theorem fp_prepared1 : ∃ input, preflight exExt id Config.default fxHost gxC3 = .ok (input, ⟨exC4, gxC3⟩, ⟨exC7, gxC6⟩, 24) ∧
    prepare fpWire exExt id exSpec Config.default 9 fpWorld1 3 =
      some (.ok ⟨encodeInput fpWire input, ⟨exC4, gxC3⟩, ⟨exC7, gxC6⟩, 24⟩) := by
  obtain ⟨input, hp, -⟩ := fx_same_journal
  have hp : preflight exExt id Config.default fxHost gxC3 = .ok (input, ⟨exC4, gxC3⟩, ⟨exC7, gxC6⟩, 24) := hp
  exact ⟨input, hp, prepare_of fp_checkpoint1 fp_search1 hp⟩

def fpHost2 : HostReader := fpWorld2.reader exSpec ⟨exC7, gxC6⟩ fpVotes

theorem fp_beacon6 : fpState6.beacon = gxState := fxState_beacon

theorem fp_filled : filledHeader (hostStateOps exExt) fpState6 = gxHdr6 := by
  unfold filledHeader hostStateOps
  dsimp only
  rw [fp_beacon6, gxState_root]
  rfl

theorem fp_trusted : TrustedState exExt fpHost2 gxC6 fpState6 where
  found := by
    have h1 : stateAtEpochBoundary (hostStateOps exExt) fpHost2.spec.slotsPerEpoch fpHost2.provider gxC6.epoch = .ok fpState6 := rfl
    unfold stateAtCheckpoint
    rw [h1, Res.ok_bind]
    have h2 : ({ (hostStateOps exExt).latestBlockHeader fpState6 with
        stateRoot := (hostStateOps exExt).hashTreeRoot fpState6 } : Header) = gxHdr6 := fp_filled
    dsimp only at h2 ⊢
    rw [h2]
    simp [gxC6, ensure]
  start := rfl
  wf := by rw [fp_beacon6]; exact gxState_wf
  header_wf := by rw [fp_filled]; exact gxHdr6_wf
  fork := by decide
  slots_per_epoch := by decide
  finalized_past := by decide
  justified := by decide
  small := by decide
  far := by decide
  keys := by
    intro v hv
    refine ⟨v.pubkey ++ List.replicate 48 0, rfl, ?_⟩
    have : ∀ v ∈ gxVs, exExt.pkSerialize (v.pubkey ++ List.replicate 48 0) = v.pubkey := by decide +kernel
    exact this v hv

theorem fp_registry : registryOf exSpec gxState ⟨exC7, gxC6⟩ = gxVs := by decide +kernel

theorem fp_state_cases {e : Nat} {s : HostState} (h : fpHost2.state e = .ok s) :
    (e = 6 ∧ s = fpState6) ∨ (e = 9 ∧ s = fxState 36 gxVs) ∨ (e = 10 ∧ s = fxState 40 gxVs) := by
  have h : fpProvider (satMul e 4) = .ok s := Res.mapErr_eq_ok.1 h
  unfold fpProvider at h
  have hs : ∀ n, n < 100 → satMul e 4 = n → e * 4 = n := by
    intro n hn hm
    unfold satMul at hm
    have : (2 : Nat) ^ 64 = 18446744073709551616 := by norm_num
    omega
  split at h
  · rename_i h12
    cases h
    exact Or.inl ⟨by have := hs 24 (by omega) h12; omega, rfl⟩
  · split at h
    · rename_i h24
      cases h
      exact Or.inr (Or.inl ⟨by have := hs 36 (by omega) h24; omega, rfl⟩)
    · split at h
      · rename_i h28
        cases h
        exact Or.inr (Or.inr ⟨by have := hs 40 (by omega) h28; omega, rfl⟩)
      · simp at h

theorem fpHdr9_wf : fpHdr9.WF := ⟨by decide, by decide, by decide, by decide⟩

theorem fp_consistent (queries : List Query) : Consistent exExt fpHost2 gxC6 fpState6 queries where
  states := by
    intro e s _ hs
    have hreg : registryOf fpHost2.spec fpState6.beacon fpHost2.consensusState = gxVs := fp_registry
    rw [hreg]
    apply continues_of_check
    rcases fp_state_cases hs with ⟨rfl, rfl⟩ | ⟨rfl, rfl⟩ | ⟨rfl, rfl⟩ <;> decide +kernel
  headers := by
    intro root h hh
    have hh : (if root = fpHdr9.tree.root exExt then some fpHdr9 else none) = some h := Res.ok.inj hh
    split at hh
    · rename_i hr
      cases hh
      exact ⟨fpHdr9_wf, hr.symm⟩
    · simp at hh
  genesis := rfl
  forks := by
    intro e s hs
    rcases fp_state_cases hs with ⟨rfl, rfl⟩ | ⟨rfl, rfl⟩ | ⟨rfl, rfl⟩ <;> rfl

set_option maxRecDepth 100000 in
theorem fp_verifies : verify exExt Config.default fpHost2.toReader = .ok (⟨fpC10, fpC9⟩, 36) := by decide +kernel

theorem fp_active : ∃ a, fpHost2.activeValidators gxC6.epoch = .ok a := by
  have h : fpHost2.activeValidators gxC6.epoch = .ok exActive := by decide +kernel
  exact ⟨_, h⟩

theorem fp_checkpoint2 : trustedCheckpoint exExt exSpec fpWorld2 6 = .ok gxC6 :=
  trustedCheckpoint_of (st := fpState6) (hdr := gxHdr6) rfl rfl
    (by rw [fp_beacon6, gxState_root]; rfl)

/-- The second round. -/
theorem fp_prepared2 : ∃ input, prepare fpWire exExt id exSpec Config.default 9 fpWorld2 6 =
      some (.ok ⟨encodeInput fpWire input, ⟨exC7, gxC6⟩, ⟨fpC10, fpC9⟩, 36⟩) := by
  have hcap : 126 ≤ exExt.stackCapacity := by decide
  have ho : ∀ l : List Nat, (id l).Perm l := fun l => List.Perm.refl l
  obtain ⟨input, hp⟩ := C61_preflight_succeeds exExt id ho hcap fp_trusted fp_verifies (fp_consistent _) fp_active
  have hp : preflight exExt id Config.default fpHost2 gxC6 = .ok (input, ⟨exC7, gxC6⟩, ⟨fpC10, fpC9⟩, 36) := hp
  exact ⟨input, prepare_of fp_checkpoint2 fp_search2 hp⟩

/-! Both worlds are quiet. -/

/-- A world in which only one epoch can be proved. -/
theorem quietWorld_of {w : World} {e0 : Nat} {r0 : HostReader} {t0 : Checkpoint} {st0 : HostState}
    (only : ∀ e r t, ReaderFor exExt exSpec 9 w e r t → e = e0 ∧ r = r0 ∧ t = t0)
    (hs : r0.spec = exSpec) (hprov : r0.provider = w.provider)
    (ht : TrustedState exExt r0 t0 st0)
    (hc : ∀ post slot, verify exExt Config.default r0.toReader = .ok (post, slot) →
      Consistent exExt r0 t0 st0 (verifyQueries exExt exSpec r0.attestations post.finalized.root))
    (hcom : ∀ a ∈ r0.attestations, ∃ l, r0.activeValidators a.data.target.epoch = .ok l ∧ l.length ≤ 10 ∧ ∀ x ∈ l, x.1 < 20)
    (hwf : WfHost fpWire r0) (hlen : st0.beacon.validators.length ≤ 20) (hvotes : r0.attestations.length ≤ 20)
    (hbal : ∀ a ∈ r0.attestations, ∀ s, r0.state a.data.target.epoch = .ok s → ∀ (i : Nat) (v w : Validator),
      st0.beacon.validators[i]? = some v → s.beacon.validators[i]? = some w → w.effectiveBalance = v.effectiveBalance)
    (hacc : ∃ input x g, preflight exExt id Config.default r0 t0 = .ok (input, x) ∧ input.intoReader exExt exSpec = .ok g) (e : Nat) :
    QuietWorld fpWire exExt id exSpec Config.default 9 w e := by
  have hword : exExt.usizeMod = 2 ^ 32 := rfl
  have hst : ∀ {st}, stateAtCheckpoint exExt (hostStateOps exExt) exSpec.slotsPerEpoch w.provider t0 = .ok st → st = st0 := by
    intro st h
    have := ht.found
    rw [hs, hprov, h] at this
    exact Res.ok.inj this
  refine ⟨⟨?_, ?_, ?_, ?_, ?_⟩, ?_, ?_, ?_, ?_⟩
  · intro r t st h hf
    obtain ⟨-, rfl, rfl⟩ := only _ _ _ h
    rw [hst hf]
    exact ht
  · intro r t st post slot h hf hv
    obtain ⟨-, rfl, rfl⟩ := only _ _ _ h
    rw [hst hf]
    exact hc post slot hv
  · intro r t h a ha l hl
    obtain ⟨-, rfl, rfl⟩ := only _ _ _ h
    obtain ⟨l', h1, h2, h3⟩ := hcom a ha
    rw [h1] at hl
    cases hl
    have := (ex_fits h2 h3 exSpec rfl).1
    exact ⟨this, hword ▸ this⟩
  · intro r t h
    obtain ⟨-, rfl, rfl⟩ := only _ _ _ h
    exact hwf
  · intro r t st h hf
    obtain ⟨-, rfl, rfl⟩ := only _ _ _ h
    rw [hst hf, hword]
    have h1 : (2 : Nat) ^ 32 = 4294967296 := by norm_num
    refine ⟨by omega, by omega, fun a _ => ?_⟩
    exact (by norm_num : 1 < 2 ^ 32)
  · intro r t st h hf
    obtain ⟨-, rfl, rfl⟩ := only _ _ _ h
    rw [hst hf]
    exact hlen.trans (by norm_num)
  · intro r t h
    obtain ⟨-, rfl, rfl⟩ := only _ _ _ h
    refine ⟨1, fun a _ => Nat.le_refl 1, ?_⟩
    have h1 : (2 : Nat) ^ 31 = 2147483648 := by norm_num
    omega
  · intro r t st h hf a ha s hs' i v v' hv hv' _
    obtain ⟨-, rfl, rfl⟩ := only _ _ _ h
    rw [hst hf] at hv
    exact hbal a ha s hs' i v v' hv hv'
  · intro r t input pre post slot h hp
    obtain ⟨-, rfl, rfl⟩ := only _ _ _ h
    obtain ⟨input', x, g, h1, h2⟩ := hacc
    rw [hp] at h1
    cases h1
    exact ⟨g, h2⟩

/-- Only an epoch for which there is a state and a boundary block has a trusted checkpoint. -/
theorem trustedCheckpoint_parts {X : Ext} {spec : ChainSpec} {w : World} {e : Nat} {t : Checkpoint}
    (h : trustedCheckpoint X spec w e = .ok t) : ∃ st b,
      stateAtEpochBoundary (hostStateOps X) spec.slotsPerEpoch w.provider e = .ok st ∧
      w.boundaryBlock st.latestBlockHeader.slot = .ok (some b) := by
  unfold trustedCheckpoint at h
  simp only [Res.bind_eq_ok, Res.mapErr_eq_ok] at h
  obtain ⟨st, h1, b, h2, b', h3, -⟩ := h
  cases b with
  | none => simp [okOr] at h3
  | some b => exact ⟨st, b, h1, h2⟩

theorem stateAtEpochBoundary_some {ops : StateOps HostState} {spe : Nat} {ask : Nat → Res ProviderError HostState} {e : Nat}
    {st : HostState} (h : stateAtEpochBoundary ops spe ask e = .ok st) : ∃ s, ask (satMul e spe) = .ok s := by
  unfold stateAtEpochBoundary stateAtEpoch at h
  obtain ⟨s, h1, -⟩ := Res.bind_eq_ok.1 h
  exact ⟨s, h1⟩

theorem fp_only1 (e : Nat) (r : HostReader) (t : Checkpoint) (h : ReaderFor exExt exSpec 9 fpWorld1 e r t) :
    e = 3 ∧ r = fxHost ∧ t = gxC3 := by
  obtain ⟨h1, state, next, links, atts, h2, rfl⟩ := h
  obtain ⟨st, b, h3, h4⟩ := trustedCheckpoint_parts h1
  obtain ⟨s, h5⟩ := stateAtEpochBoundary_some h3
  have h5 : fxHost.state e = .ok s := Res.mapErr_eq_ok.2 h5
  rcases fx_state_cases h5 with ⟨rfl, -⟩ | ⟨rfl, -⟩ | ⟨rfl, -⟩
  · rw [fp_checkpoint1] at h1
    cases h1
    have := h2.symm.trans fp_search1
    simp only [Option.some.injEq, Res.ok.injEq, Prod.mk.injEq] at this
    obtain ⟨rfl, -, -, rfl⟩ := this
    exact ⟨rfl, rfl, rfl⟩
  · have : st = fxState 24 fxVs := (Res.ok.inj (Eq.trans rfl h3 : Res.ok (fxState 24 fxVs) = Res.ok st)).symm
    subst this
    exact absurd (Res.ok.inj (Eq.trans rfl h4 : Res.ok none = Res.ok (some b))) (by simp)
  · have : st = fxState 28 fxVs := (Res.ok.inj (Eq.trans rfl h3 : Res.ok (fxState 28 fxVs) = Res.ok st)).symm
    subst this
    exact absurd (Res.ok.inj (Eq.trans rfl h4 : Res.ok none = Res.ok (some b))) (by simp)

theorem fp_only2 (e : Nat) (r : HostReader) (t : Checkpoint) (h : ReaderFor exExt exSpec 9 fpWorld2 e r t) :
    e = 6 ∧ r = fpHost2 ∧ t = gxC6 := by
  obtain ⟨h1, state, next, links, atts, h2, rfl⟩ := h
  obtain ⟨st, b, h3, h4⟩ := trustedCheckpoint_parts h1
  obtain ⟨s, h5⟩ := stateAtEpochBoundary_some h3
  have h5 : fpHost2.state e = .ok s := Res.mapErr_eq_ok.2 h5
  rcases fp_state_cases h5 with ⟨rfl, -⟩ | ⟨rfl, -⟩ | ⟨rfl, -⟩
  · rw [fp_checkpoint2] at h1
    cases h1
    have := h2.symm.trans fp_search2
    simp only [Option.some.injEq, Res.ok.injEq, Prod.mk.injEq] at this
    obtain ⟨rfl, -, -, rfl⟩ := this
    exact ⟨rfl, rfl, rfl⟩
  · have : st = fxState 36 gxVs := (Res.ok.inj (Eq.trans rfl h3 : Res.ok (fxState 36 gxVs) = Res.ok st)).symm
    subst this
    exact absurd (Res.ok.inj (Eq.trans rfl h4 : Res.ok none = Res.ok (some b))) (by simp)
  · have : st = fxState 40 gxVs := (Res.ok.inj (Eq.trans rfl h3 : Res.ok (fxState 40 gxVs) = Res.ok st)).symm
    subst this
    exact absurd (Res.ok.inj (Eq.trans rfl h4 : Res.ok none = Res.ok (some b))) (by simp)

theorem fp_quiet1 (e : Nat) : QuietWorld fpWire exExt id exSpec Config.default 9 fpWorld1 e := by
  refine quietWorld_of fp_only1 rfl rfl fx_trusted ?_ ?_ ?_ ?_ ?_ ?_ ?_ e
  · intro post slot h
    rw [fx_verifies] at h
    cases h
    have e : verifyQueries exExt exSpec fxHost.attestations gxC6.root = fxQueries := fx_queries
    rw [e]
    exact fx_consistent
  · have h6 : fxHost.activeValidators 6 = .ok (exActive.set 8 (8, { exVal 8 with exitEpoch := 9 })) := by decide +kernel
    have h7 : fxHost.activeValidators 7 = .ok (exActive.set 8 (8, { exVal 8 with exitEpoch := 9 })) := by decide +kernel
    have h : ∀ a ∈ fxHost.attestations, a.data.target.epoch = 6 ∨ a.data.target.epoch = 7 := by decide +kernel
    intro a ha
    refine ⟨exActive.set 8 (8, { exVal 8 with exitEpoch := 9 }), ?_, by decide, by decide⟩
    rcases h a ha with h | h
    · rw [h, h6]
    · rw [h, h7]
  · exact ⟨fx_wf.mixes, fx_wf.exits, fx_wf.keys, fx_wf.state,
      fun a ha => (fpAll_table (List.mem_append_left _ ha)).1⟩
  · rw [fxState_beacon]
    decide
  · decide
  · exact fun a _ s hs i v w hvi hwi => fx_balances s hs i v w hvi hwi
  · obtain ⟨input, hp, hj⟩ := fx_same_journal
    obtain ⟨reader, _, _, hr, _⟩ := guestEntry_eq_ok hj
    exact ⟨input, _, reader, hp, hr⟩

theorem fp_provided {slot : Nat} {s : HostState} (h : fpProvider slot = .ok s) :
    s = fpState6 ∨ s = fxState 36 gxVs ∨ s = fxState 40 gxVs := by
  unfold fpProvider at h
  split at h
  · cases h; exact .inl rfl
  · split at h
    · cases h; exact .inr (.inl rfl)
    · split at h
      · cases h; exact .inr (.inr rfl)
      · cases h

theorem fp_validators {s : HostState} (h : s = fpState6 ∨ s = fxState 36 gxVs ∨ s = fxState 40 gxVs) : s.beacon.validators = gxVs := by
  rcases h with rfl | rfl | rfl <;> rfl

theorem fp_quiet2 (e : Nat) : QuietWorld fpWire exExt id exSpec Config.default 9 fpWorld2 e := by
  refine quietWorld_of fp_only2 rfl rfl fp_trusted ?_ ?_ ?_ ?_ ?_ ?_ ?_ e
  · intro post slot _
    exact fp_consistent _
  · have h6 : fpHost2.activeValidators 9 = .ok exActive := by decide +kernel
    have h7 : fpHost2.activeValidators 10 = .ok exActive := by decide +kernel
    have h : ∀ a ∈ fpHost2.attestations, a.data.target.epoch = 9 ∨ a.data.target.epoch = 10 := by decide +kernel
    intro a ha
    refine ⟨exActive, ?_, by decide, by decide⟩
    rcases h a ha with h | h
    · rw [h, h6]
    · rw [h, h7]
  · have hx : ∀ v ∈ gxVs, v.exitEpoch < 2 ^ 64 := by decide +kernel
    have hk : ∀ v ∈ gxVs, (v.pubkey ++ List.replicate 48 0).length = 96 := by decide +kernel
    refine ⟨?_, ?_, ?_, ⟨⟨by decide, by decide⟩, ⟨by decide, exExt.sha256_length _⟩⟩,
      fun a ha => (fpAll_table (List.mem_append_right _ ha)).1⟩
    · intro slot s hs x hx
      have : x = exRoot32 1 := by
        rcases fp_provided hs with rfl | rfl | rfl <;> exact List.eq_of_mem_replicate hx
      rw [this]
      decide
    · intro slot s hs
      rw [fp_validators (fp_provided hs)]
      exact hx
    · intro slot s hs v hv k hk'
      rw [fp_validators (fp_provided hs)] at hv
      have hk' : some (v.pubkey ++ List.replicate 48 0) = some k := hk'
      cases hk'
      exact ⟨hk v hv, rfl⟩
  · rw [fp_beacon6]
    decide
  · decide
  · intro a _ s hs i v w hvi hwi
    have h : s.beacon.validators = gxVs := by
      rcases fp_state_cases hs with ⟨-, rfl⟩ | ⟨-, rfl⟩ | ⟨-, rfl⟩ <;> rfl
    rw [fp_beacon6] at hvi
    have hvi : gxVs[i]? = some v := hvi
    rw [h, hvi] at hwi
    cases hwi
    rfl
  · have hreg : registryOf fpHost2.spec fpState6.beacon fpHost2.consensusState = gxVs := fp_registry
    have hpres : present fpHost2.decompress gxVs gxC6.epoch = exActive := by decide +kernel
    have htot : totalWeight ((present fpHost2.decompress (registryOf fpHost2.spec fpState6.beacon
        fpHost2.consensusState) gxC6.epoch).filter (fun x => x.2.isActiveAt gxC6.epoch)) = 320 := by
      rw [hreg, hpres]; decide +kernel
    obtain ⟨input, hp, hj⟩ := C61_quiet_period (ε := Unit) exExt id (fun l => List.Perm.refl l) (by decide) fp_trusted fp_verifies
      (fp_consistent _) fp_active (by decide) (by decide) 320 htot.symm (by decide) (by decide) (by
        intro a _ s hs i v w hvi hwi
        have h : s.beacon.validators = gxVs := by
          rcases fp_state_cases hs with ⟨-, rfl⟩ | ⟨-, rfl⟩ | ⟨-, rfl⟩ <;> rfl
        rw [fp_beacon6] at hvi
        have hvi : gxVs[i]? = some v := hvi
        rw [h, hvi] at hwi
        cases hwi
        exact ⟨rfl, fun _ => rfl⟩)
    obtain ⟨reader, _, _, hr, _⟩ := guestEntry_eq_ok hj
    exact ⟨input, _, reader, hp, hr⟩

/-- The node's view in both worlds. -/
theorem fpAsk_cases {slot : Nat} {s : ConsensusState} (h : fpAsk slot = .ok s) :
    s.currentJustified.epoch ≤ 10 ∧ (s.finalized.epoch + 2) * 4 ≤ slot := by
  unfold fpAsk at h
  have h3 : gxC3.epoch = 3 := rfl
  have h4 : exC4.epoch = 4 := rfl
  have h6 : gxC6.epoch = 6 := rfl
  have h7 : exC7.epoch = 7 := rfl
  have h9 : fpC9.epoch = 9 := rfl
  have h10 : fpC10.epoch = 10 := rfl
  repeat' split at h
  all_goals first
    | (have := Res.ok.inj h; subst this; dsimp only; omega)
    | cases h

theorem fp_steady {w : World} (h1 : w.find = fpAsk) (h2 : w.walk = fpAsk) : SteadyView exSpec w where
  same := h1.trans h2.symm
  small := by
    intro slot s h
    rw [h2] at h
    exact lt_of_le_of_lt (fpAsk_cases h).1 (by norm_num)
  past := by
    intro e s _ h
    unfold ChainAt at h
    rw [h2] at h
    have := (fpAsk_cases h).2
    have : min (e * exSpec.slotsPerEpoch) (2 ^ 64 - 1) ≤ e * 4 := Nat.min_le_left _ _
    omega

end Signal
