import Verif.Props.Agree

/-!
# C106: one trusted block, one view of its state
-/

namespace Signal
open Spec

/-- Two records that agree in everything but the form in which the key is held. -/
structure SameValidator (X : Ext) (a b : ValidatorInfo) : Prop where
  pubkey : X.pkSerialize a.pubkey = X.pkSerialize b.pubkey
  effectiveBalance : a.effectiveBalance = b.effectiveBalance
  slashed : a.slashed = b.slashed
  activationEligibilityEpoch : a.activationEligibilityEpoch = b.activationEligibilityEpoch
  activationEpoch : a.activationEpoch = b.activationEpoch
  exitEpoch : a.exitEpoch = b.exitEpoch

/-- Two sets of validators agree on whoever is in both; who is missing from one of them has exited by the epoch. -/
def SameRegistry (X : Ext) (epoch : Nat) (m m' : OMap ValidatorInfo) : Prop := ∀ i,
  (∀ a b, m.get? i = some a → m'.get? i = some b → SameValidator X a b) ∧
  (∀ a, m.get? i = some a → m'.get? i = none → a.exitEpoch ≤ epoch) ∧
  ∀ b, m.get? i = none → m'.get? i = some b → b.exitEpoch ≤ epoch

theorem hasCompressedChunks_same {X : Ext} {a b c d : Bytes} (ha : hasCompressedChunks X a c d = true) (hb : hasCompressedChunks X b c d = true) :
    X.pkSerialize a = X.pkSerialize b := by
  have h1 := X.pkSerialize_length a
  have h2 := X.pkSerialize_length b
  simp only [hasCompressedChunks, Bool.and_eq_true, decide_eq_true_eq] at ha hb
  rw [← List.take_append_drop 32 (X.pkSerialize a), ← List.take_append_drop 32 (X.pkSerialize b), ha.1.1, hb.1.1]
  have e1 : (X.pkSerialize a).drop 32 = ((X.pkSerialize a).drop 32).take 16 := (List.take_of_length_le (by simp; omega)).symm
  have e2 : (X.pkSerialize b).drop 32 = ((X.pkSerialize b).drop 32).take 16 := (List.take_of_length_le (by simp; omega)).symm
  rw [e1, e2, ha.1.2, hb.1.2]

/-- **C106** for the registry: two proofs accepted against the same root, with whatever lists of keys, yield the same validators, up to those that have exited by the
trusted epoch and may be left out. Missing: proofs of 64 or more levels, for which it is false (`C106_forged`, `C32_forged_registry`), and collisions. -/
theorem C106_registry_partial (X : Ext) (p q : Multiproof) (root : Root) (keys keys' : List Bytes) (epoch : Nat) (m m' : OMap ValidatorInfo)
    (hp : p.verify X root = .ok ()) (hq : q.verify X root = .ok ())
    (he : extractValidators X p keys epoch = .ok m) (he' : extractValidators X q keys' epoch = .ok m')
    (hc : NoCollisionBetween X p q) (hwp : NoWrap p) (hwq : NoWrap q) : SameRegistry X epoch m m' := by
  have ag : ∀ {g v w}, (g, v) ∈ p.values → (g, w) ∈ q.values → v = w := fun h1 h2 =>
    C105_agree_partial X p q root hp hq hc hwp hwq _ _ _ (values_subset h1) (values_subset h2)
  obtain ⟨n, node, -, a2, a3, a4, a5⟩ := extractLoop_reads X _ _ _ _ _ _ _ he
  obtain ⟨n', node', -, b2, b3, b4, b5⟩ := extractLoop_reads X _ _ _ _ _ _ _ he'
  have hn : n' = n := by rw [b3, a3, ag a2 b2]
  subst hn
  intro i
  by_cases hi : i < n'
  · rcases a5 i (by omega) hi with ⟨c1, c, c2, c3⟩ | ⟨a, c1, c2⟩ <;> rcases b5 i (by omega) hi with ⟨d1, d, d2, d3⟩ | ⟨b, d1, d2⟩
    · have c1' : m.get? i = none := c1
      have d1' : m'.get? i = none := d1
      simp [c1', d1']
    · have c1' : m.get? i = none := c1
      simp only [c1', d1, reduceCtorEq, false_implies, implies_true, Option.some.injEq, forall_eq', true_and, forall_const]
      obtain ⟨_, _, _, _, _, _, ex, _, _, _, _, _, _, m6, _, _, _, _, _, f5⟩ := d2
      rw [f5, ← ag c2 m6]
      exact c3
    · have d1' : m'.get? i = none := d1
      simp only [c1, d1', reduceCtorEq, false_implies, implies_true, Option.some.injEq, forall_eq', true_and, forall_const, and_true]
      obtain ⟨_, _, _, _, _, _, ex, _, _, _, _, _, _, m6, _, _, _, _, _, f5⟩ := c2
      rw [f5, ag m6 d2]
      exact d3
    · simp only [c1, d1, reduceCtorEq, false_implies, implies_true, Option.some.injEq, and_true]
      rintro _ _ rfl rfl
      obtain ⟨k0, k1, eb, sl, ae, ac, ex, m0, m1, m2, m3, m4, m5, m6, f0, f1, f2, f3, f4, f5⟩ := c2
      obtain ⟨k0', k1', eb', sl', ae', ac', ex', n0, n1, n2, n3, n4, n5, n6, g0, g1, g2, g3, g4, g5⟩ := d2
      obtain rfl := ag m0 n0
      obtain rfl := ag m1 n1
      obtain rfl := ag m2 n2
      obtain rfl := ag m3 n3
      obtain rfl := ag m4 n4
      obtain rfl := ag m5 n5
      obtain rfl := ag m6 n6
      rw [f2] at g2
      exact ⟨hasCompressedChunks_same f0 g0, by rw [f1, g1], Res.ok.inj g2, by rw [f3, g3], by rw [f4, g4], by rw [f5, g5]⟩
  · have c1 : m.get? i = none := a4 i (Or.inr (by omega))
    have d1 : m'.get? i = none := b4 i (Or.inr (by omega))
    simp [c1, d1]

theorem SameValidator.update {X : Ext} {spec : ChainSpec} {f c act : Nat} {a b : ValidatorInfo} (h : SameValidator X a b) :
    SameValidator X (updateValidator spec f c act a) (updateValidator spec f c act b) := by
  obtain ⟨pa, ea, sa, la, aa, xa⟩ := a
  obtain ⟨pb, eb, sb, lb, ab, xb⟩ := b
  obtain ⟨h1, h2, h3, h4, h5, h6⟩ := h
  dsimp only at h1 h2 h3 h4 h5 h6
  subst h2 h3 h4 h5 h6
  simp only [updateValidator, ValidatorInfo.isEligibleForActivationQueue, ValidatorInfo.isEligibleForActivation]
  by_cases c1 : (decide (la = spec.farFutureEpoch) && decide (spec.minActivationBalance ≤ ea)) = true
  · simp only [c1, if_true]
    split <;> exact ⟨h1, rfl, rfl, rfl, rfl, rfl⟩
  · simp only [c1, if_false, Bool.false_eq_true]
    split <;> exact ⟨h1, rfl, rfl, rfl, rfl, rfl⟩

theorem update_exit {spec : ChainSpec} {f c act : Nat} {a : ValidatorInfo} : (updateValidator spec f c act a).exitEpoch = a.exitEpoch := by
  simp only [updateValidator]
  split <;> split <;> rfl

theorem SameRegistry.loop {ε : Type} {X : Ext} {spec : ChainSpec} {sf tr ju t : Nat} (n : Nat) : ∀ {e : Nat} {m m' o o' : OMap ValidatorInfo},
    SameRegistry X t m m' → (registryLoop spec sf tr ju n e m : Res ε _) = .ok o → (registryLoop spec sf tr ju n e m' : Res ε _) = .ok o' →
    SameRegistry X t o o' := by
  induction n with
  | zero =>
    intro e m m' o o' h h1 h2
    cases h1
    cases h2
    exact h
  | succ n ih =>
    intro e m m' o o' h h1 h2
    simp only [registryLoop, processRegistryUpdates, Res.bind_eq_ok, Res.pure_eq, Res.ok.injEq] at h1 h2
    obtain ⟨x, ⟨act, ha, rfl⟩, h1⟩ := h1
    obtain ⟨y, ⟨act', ha', rfl⟩, h2⟩ := h2
    rw [ha] at ha'
    cases ha'
    refine ih ?_ h1 h2
    intro i
    simp only [OMap.get?_map (fun _ v => updateValidator spec (if e < ju then sf else tr) e act v), Option.map_eq_some_iff, Option.map_eq_none_iff]
    obtain ⟨a1, a2, a3⟩ := h i
    refine ⟨?_, ?_, ?_⟩
    · rintro _ _ ⟨a, ha, rfl⟩ ⟨b, hb, rfl⟩
      exact (a1 a b ha hb).update
    · rintro _ ⟨a, ha, rfl⟩ hb
      rw [update_exit]
      exact a2 a ha hb
    · rintro _ ha ⟨b, hb, rfl⟩
      rw [update_exit]
      exact a3 b ha hb

/-- **C106.** Two accepted inputs for the same trusted state see the same chain and the same validators, whatever proofs, keys, votes and patches they contain. No block,
state or registry behind the trusted root is assumed. Missing: as above, for the proofs of the two inputs. -/
theorem C106_view_partial (X : Ext) {spec : ChainSpec} {input input' : GuestInput} {r r' : GuestReader}
    (hr : input.intoReader X spec = .ok r) (hr' : input'.intoReader X spec = .ok r') (htrust : input'.consensusState = input.consensusState)
    (hc : NoCollisionBetween X input.beaconBlock input'.beaconBlock ∧ NoCollisionBetween X input.beaconState input'.beaconState ∧
      NoCollisionBetween X input.activeValidators input'.activeValidators)
    (hw : ∀ p ∈ [input.beaconBlock, input.beaconState, input.activeValidators, input'.beaconBlock, input'.beaconState, input'.activeValidators], NoWrap p) :
    r'.genesisValidatorsRoot = r.genesisValidatorsRoot ∧ SameRegistry X input.consensusState.finalized.epoch r.validators r'.validators := by
  unfold GuestInput.intoReader at hr hr'
  simp only [Res.bind_eq_ok, Res.mapErr_eq_ok, Res.pure_eq, Res.ok.injEq] at hr hr'
  obtain ⟨_, h1, sr, h2, _, h3, st, h4, _, h5, vs, h6, se, h7, _, h8, vs1, h9, _, h10, bs, h11, rfl⟩ := hr
  obtain ⟨_, i1, sr', i2, _, i3, st', i4, _, i5, vs', i6, se', i7, _, i8, vs1', i9, _, i10, bs', i11, rfl⟩ := hr'
  rw [htrust] at i1 i6 i9
  have e1 : sr' = sr := by
    refine (C105_agree_partial X _ _ _ h1 i1 hc.1 (hw _ (by simp)) (hw _ (by simp)) stateRootGindex _ _ (values_subset ?_) (values_subset ?_)).symm
    · rw [extractBeaconBlock_eq_ok.1 h2]; simp
    · rw [extractBeaconBlock_eq_ok.1 i2]; simp
  subst e1
  have e2 : st' = st := by
    have ag := C105_agree_partial X _ _ _ h3 i3 hc.2.1 (hw _ (by simp)) (hw _ (by simp))
    obtain ⟨c1, c2, c3, c4, c5, c6, c7, c8, c9, e, rfl⟩ := extractBeaconState_eq_ok.1 h4
    obtain ⟨d1, d2, d3, d4, d5, d6, d7, d8, d9, f, rfl⟩ := extractBeaconState_eq_ok.1 i4
    have ag' : ∀ {g v w}, (g, v) ∈ input.beaconState.values → (g, w) ∈ input'.beaconState.values → v = w := fun a b =>
      ag _ _ _ (values_subset a) (values_subset b)
    rw [e, f] at ag'
    rw [ag' (g := genesisValidatorsRootGindex) (v := c1) (w := d1) (by simp) (by simp), ag' (g := slotGindex) (v := c2) (w := d2) (by simp) (by simp),
      ag' (g := forkPreviousVersionGindex) (v := c3) (w := d3) (by simp) (by simp), ag' (g := forkCurrentVersionGindex) (v := c4) (w := d4) (by simp) (by simp),
      ag' (g := forkEpochGindex) (v := c5) (w := d5) (by simp) (by simp), ag' (g := validatorsGindex) (v := c6) (w := d6) (by simp) (by simp),
      ag' (g := finalizedCheckpointEpochGindex) (v := c7) (w := d7) (by simp) (by simp),
      ag' (g := earliestExitEpochGindex) (v := c8) (w := d8) (by simp) (by simp),
      ag' (g := earliestConsolidationEpochGindex) (v := c9) (w := d9) (by simp) (by simp)]
  subst e2
  rw [h7] at i7
  cases i7
  exact ⟨rfl, SameRegistry.loop _ (C106_registry_partial X _ _ _ _ _ _ _ _ h5 i5 h6 i6 hc.2.2 (hw _ (by simp)) (hw _ (by simp))) h9 i9⟩

/-- A validator as the registry holds it: with the encoded key. -/
def encoded (X : Ext) (e : Nat × ValidatorInfo) : Nat × ValidatorInfo := (e.1, { e.2 with pubkey := X.pkSerialize e.2.pubkey })

theorem SameValidator.encoded {X : Ext} {a b : ValidatorInfo} (h : SameValidator X a b) (i : Nat) : encoded X (i, a) = encoded X (i, b) := by
  obtain ⟨h1, h2, h3, h4, h5, h6⟩ := h
  simp [Signal.encoded, h1, h2, h3, h4, h5, h6]

theorem map_eq_of_mem_iff {V : Type} {m m' : OMap V} (hs : m.Sorted) (hs' : m'.Sorted) (h : ∀ x, x ∈ m ↔ x ∈ m') : m = m' := by
  have nd : ∀ {m : OMap V}, m.Sorted → List.Nodup m := fun hs => hs.imp (fun h e => by subst e; omega)
  have hp : List.Perm m m' := (List.perm_ext_iff_of_nodup (nd hs) (nd hs')).2 h
  refine hp.eq_of_pairwise (le := fun (a b : Nat × V) => a.1 < b.1) ?_ hs hs'
  intro a b _ _ h1 h2
  omega

theorem sorted_encoded {X : Ext} {m : OMap ValidatorInfo} (hs : m.Sorted) : OMap.Sorted (m.map (encoded X)) := by
  unfold OMap.Sorted at hs ⊢
  rw [List.pairwise_map]
  exact hs

theorem isActiveValidator_same {X : Ext} {p : StatePatch} {i e : Nat} {a b : ValidatorInfo} (h : SameValidator X a b) :
    p.isActiveValidator i a e = p.isActiveValidator i b e := by
  simp only [StatePatch.isActiveValidator, ValidatorInfo.isActiveAt, h.activationEpoch, h.exitEpoch]

theorem active_subset {X : Ext} {t e : Nat} {m m' : OMap ValidatorInfo} {p : StatePatch} (hs : m.Sorted) (h : SameRegistry X t m m') (he : t ≤ e) :
    ∀ x ∈ (m.filter (fun y => p.isActiveValidator y.1 y.2 e)).map (encoded X), x ∈ (m'.filter (fun y => p.isActiveValidator y.1 y.2 e)).map (encoded X) := by
  intro x hx
  simp only [List.mem_map, List.mem_filter] at hx ⊢
  obtain ⟨⟨i, a⟩, ⟨hm, ha⟩, rfl⟩ := hx
  have hg := OMap.mem_get? hs hm
  cases hb : m'.get? i with
  | none =>
    have h1 := (h i).2.1 a hg hb
    have h2 : a.isActiveAt e = true := by
      unfold StatePatch.isActiveValidator at ha
      split at ha
      · exact (Bool.and_eq_true _ _ ▸ ha).2
      · exact ha
    simp only [ValidatorInfo.isActiveAt, Bool.and_eq_true, decide_eq_true_eq] at h2
    omega
  | some b =>
    have hab := (h i).1 a b hg hb
    refine ⟨(i, b), ⟨OMap.get?_eq_some_mem hb, ?_⟩, (hab.encoded i).symm⟩
    rw [← isActiveValidator_same hab]
    exact ha

/-- **C106** for the active validators: at every epoch from the trusted one on for which the two inputs have the same patch, the same validators are active, in the same order
and with the same balances. Missing: as above. -/
theorem C106_active_partial (X : Ext) {spec : ChainSpec} {input input' : GuestInput} {r r' : GuestReader}
    (hr : input.intoReader X spec = .ok r) (hr' : input'.intoReader X spec = .ok r') (htrust : input'.consensusState = input.consensusState)
    (hc : NoCollisionBetween X input.beaconBlock input'.beaconBlock ∧ NoCollisionBetween X input.beaconState input'.beaconState ∧
      NoCollisionBetween X input.activeValidators input'.activeValidators)
    (hw : ∀ p ∈ [input.beaconBlock, input.beaconState, input.activeValidators, input'.beaconBlock, input'.beaconState, input'.activeValidators], NoWrap p)
    (epoch : Nat) (he : input.consensusState.finalized.epoch ≤ epoch) (hp : input'.patches.get? epoch = input.patches.get? epoch) :
    ∃ m m', r.toReader.activeValidators epoch = .ok m ∧ r'.toReader.activeValidators epoch = .ok m' ∧ m'.map (encoded X) = m.map (encoded X) := by
  obtain ⟨-, h⟩ := C106_view_partial X hr hr' htrust hc hw
  have hs := intoReader_sorted hr
  have hs' := intoReader_sorted hr'
  have hpat : ∀ {input : GuestInput} {r : GuestReader}, input.intoReader X spec = .ok r → r.patches = input.patches := by
    intro input r hr
    unfold GuestInput.intoReader at hr
    simp only [Res.bind_eq_ok, Res.pure_eq, Res.ok.injEq] at hr
    obtain ⟨_, _, _, _, _, _, _, _, _, _, _, _, _, _, _, _, _, _, _, _, bs, hbs, rfl⟩ := hr
    rfl
  refine ⟨_, _, rfl, rfl, ?_⟩
  have hpe : r'.patchAt epoch = r.patchAt epoch := by
    unfold GuestReader.patchAt
    rw [hpat hr, hpat hr', hp]
  unfold GuestReader.activeValidators
  rw [hpe]
  have h' : SameRegistry X input.consensusState.finalized.epoch r'.validators r.validators := by
    intro i
    obtain ⟨a1, a2, a3⟩ := h i
    refine ⟨fun a b ha hb => ?_, fun a ha hb => a3 a hb ha, fun b ha hb => a2 b hb ha⟩
    have := a1 b a hb ha
    exact ⟨this.pubkey.symm, this.effectiveBalance.symm, this.slashed.symm, this.activationEligibilityEpoch.symm, this.activationEpoch.symm, this.exitEpoch.symm⟩
  refine map_eq_of_mem_iff (sorted_encoded (OMap.sorted_filter hs' _)) (sorted_encoded (OMap.sorted_filter hs _)) ?_
  exact fun x => ⟨active_subset hs' h' he x, active_subset hs h he x⟩

/-- **C106** is false without the bound on the levels, whatever the hash function is: for any two state roots there is a block for which two proofs are accepted, and the
guest goes on with the first state root after the one and with the second after the other. -/
theorem C106_forged (X : Ext) (v w : Root) (hv : v.length = 32) (hw : w.length = 32) :
    ∃ (block : Tree) (p q : Multiproof), p.verify X (block.root X) = .ok () ∧ q.verify X (block.root X) = .ok () ∧
      extractBeaconBlock p = .ok v ∧ extractBeaconBlock q = .ok w := by
  obtain ⟨c, hc, h⟩ := C33_forged_state_root X v hv
  obtain ⟨d, hd, i⟩ := C33_forged_state_root X w hw
  obtain ⟨p, p1, p2⟩ := h (.node (.leaf c) (.leaf d)) ⟨hc, hd⟩ ⟨2, .leaf c, by simp [Tree.nodeAt], rfl⟩
  obtain ⟨q, q1, q2⟩ := i (.node (.leaf c) (.leaf d)) ⟨hc, hd⟩ ⟨3, .leaf d, by simp [Tree.nodeAt], rfl⟩
  exact ⟨_, p, q, p1, q1, p2, q2⟩

/-! ## An example -/

set_option maxRecDepth 100000

/-- All eleven validators are shown, also the one that has exited. -/
def gxWideWanted : List Nat := (List.range 11).flatMap gxFields ++ [3]

def gxWideActive : OMap ValidatorInfo := exActive ++ [(10, ⟨[200], 32, false, 0, 0, 2⟩)]

theorem gxWide_values : ((gxRegP.leafIndices 1).zip gxRegP.leaves).filter (fun x => decide (x.1 ∈ gxWideWanted)) =
    (List.range 10).flatMap (fun i => (gxFields i).zip
      [exExt.pkSerialize (exKey i) |>.take 32, (exExt.pkSerialize (exKey i)).drop 32 ++ List.replicate 16 0,
        u64Chunk 32, boolChunk (decide (i = 9)), u64Chunk 0, u64Chunk 0, u64Chunk u64Max]) ++
    (gxFields 10).zip [exExt.pkSerialize [200] |>.take 32, (exExt.pkSerialize [200]).drop 32 ++ List.replicate 16 0,
        u64Chunk 32, boolChunk false, u64Chunk 0, u64Chunk 0, u64Chunk 2] ++ [(3, u64Chunk 11)] := by
  decide +kernel

theorem gxWide_extract : extractValidators exExt (proofOf gxRegP gxWideWanted) (gxKeys ++ [[200]]) 3 = .ok gxWideActive := by
  unfold extractValidators
  rw [proofOf_values gxRegP_chunked gxRegP_depth, gxWide_values]
  decide +kernel

def gxWide : GuestInput := { gxFork with
  activeValidators := proofOf gxRegP gxWideWanted
  publicKeys := gxKeys ++ [[200]] }

theorem gxWide_reader : gxWide.intoReader exExt exSpec = .ok { gxForkReader with validators := gxWideActive } := by
  have h1 : (registryLoop exSpec 1 3 4 2 3 gxWideActive : Res GuestReaderError _) = .ok gxWideActive := by decide +kernel
  have h2 : validateStatePatches exExt exSpec gxPatches gxC3 gxStateInfo gxWideActive = .ok () := by decide +kernel
  unfold GuestInput.intoReader
  simp only [Res.bind_eq_ok, Res.mapErr_eq_ok, ensure_eq_ok, decide_eq_true_eq, slotEpoch_eq_ok_iff, Res.pure_eq, Res.ok.injEq]
  exact ⟨(), proofOf_verify exExt gxHdr_chunked [11], gxStateP.root exExt, gxHdr_extract, (),
    proofOf_verify exExt gxStateP_chunked gxStateWanted, gxStateInfo, gxState_extract, (),
    proofOf_verify exExt gxRegP_chunked gxWideWanted, gxWideActive, gxWide_extract, 3, ⟨by decide, by decide⟩, (),
    by decide, gxWideActive, h1, (), h2, _, gxFork_slots, rfl⟩

theorem gx_between {P : Tree} (h : P.Chunked) (w w' : List Nat) (hP : ∀ x ∈ P.hashed exExt, x ∈ gxStrings) :
    NoCollisionBetween exExt (proofOf P w) (proofOf P w') := by
  intro Q hQ
  rw [C25_tree_unique _ _ _ hQ (proofOf_encodes h _)]
  exact proofOf_noCollision h _ gxStrings_noCollision hP hP

/-- The hypotheses are met by two inputs with different registry proofs, keys, votes and slot proofs; validator 10 is in one of the maps only. -/
example : gxInput.intoReader exExt exSpec = .ok gxReader ∧ gxWide.intoReader exExt exSpec = .ok { gxForkReader with validators := gxWideActive } ∧
    gxWide.consensusState = gxInput.consensusState ∧ gxWideActive ≠ gxReader.validators ∧
    gxInput.consensusState.finalized.epoch ≤ 7 ∧ gxWide.patches.get? 7 = gxInput.patches.get? 7 ∧
    (NoCollisionBetween exExt gxInput.beaconBlock gxWide.beaconBlock ∧ NoCollisionBetween exExt gxInput.beaconState gxWide.beaconState ∧
      NoCollisionBetween exExt gxInput.activeValidators gxWide.activeValidators) ∧
    ∀ p ∈ [gxInput.beaconBlock, gxInput.beaconState, gxInput.activeValidators, gxWide.beaconBlock, gxWide.beaconState, gxWide.activeValidators], NoWrap p := by
  refine ⟨gxInput_reader, gxWide_reader, rfl, by decide +kernel, by decide, rfl, ⟨?_, ?_, ?_⟩, ?_⟩
  · exact gx_between gxHdr_chunked _ _ (fun x hx => gx_mem_left (Or.inr (Or.inr (Or.inr (Or.inl hx)))))
  · exact gx_between gxStateP_chunked _ _ (fun x hx => gx_mem_left (Or.inr (Or.inr (Or.inl hx))))
  · exact gx_between gxRegP_chunked _ _ (fun x hx => gx_mem_left (Or.inl hx))
  · simp only [List.forall_mem_cons, List.not_mem_nil, false_implies, implies_true, and_true]
    exact ⟨proofOf_noWrap gxHdr_chunked gxHdr_depth _, proofOf_noWrap gxStateP_chunked gxStateP_depth _, proofOf_noWrap gxRegP_chunked gxRegP_depth _,
      proofOf_noWrap gxHdr_chunked gxHdr_depth _, proofOf_noWrap gxStateP_chunked gxStateP_depth _, proofOf_noWrap gxRegP_chunked gxRegP_depth _⟩

end Signal
