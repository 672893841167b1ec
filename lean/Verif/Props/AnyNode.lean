import Verif.Spec.AnyNode
import Verif.Props.Program

/-!
# C66, C67 for a node that may answer anything

What the guest commits to is determined by the consensus state, the votes and the slot proof of the input, which the host writes as it has
read them. So no assumption is needed that the answers of the node belong together.
-/

namespace Signal
open Spec Wire Program

/-- The state `verify` returns depends on nothing but the starting state and the votes. -/
theorem verify_post_unique {X X' : Ext} {cfg cfg' : Config} {R R' : Reader} (hs : R'.consensusState = R.consensusState)
    (ha : R'.attestations = R.attestations) {r r' : ConsensusState × Nat} (h : verify X cfg R = .ok r)
    (h' : verify X' cfg' R' = .ok r') : r'.1 = r.1 := by
  obtain ⟨post, slot⟩ := r
  obtain ⟨post', slot'⟩ := r'
  obtain ⟨pre, atts, h1, h2, h3, _, h5⟩ := verify_ok h
  obtain ⟨pre', atts', h1', h2', h3', _, h5'⟩ := verify_ok h'
  rw [hs, h1] at h1'; cases h1'
  rw [ha, h2] at h2'; cases h2'
  have hdet : ∀ {s ls s₁ s₂}, Run s ls s₁ → Run s ls s₂ → s₁ = s₂ := by
    intro s ls s₁ s₂ r1 r2
    induction r1 with
    | nil => cases r2; rfl
    | cons a _ ih =>
      cases r2 with
      | cons b r2 => rw [a.det b] at ih; exact ih r2
  exact hdet (verifyLoop_run h3') (verifyLoop_run h3)

/-- The keys of an input are decompressed keys of validators the provider has given. -/
theorem collectKeys_mem {dec : Bytes → Option Bytes} {t : Nat} {P : Bytes → Prop} : ∀ (l : List (Validator × Nat))
    (active : List (Nat × ValidatorInfo)) (keys : List Bytes), collectKeys dec t l active = .ok keys →
    (∀ x ∈ l, ∀ k, dec x.1.pubkey = some k → P k) → (∀ x ∈ active, P x.2.pubkey) →
    keys.length ≤ l.length ∧ ∀ k ∈ keys, P k := by
  intro l
  induction l with
  | nil => intro active keys h _ _; cases h; simp
  | cons x l ih =>
    obtain ⟨v, i⟩ := x
    intro active keys h h1 h2
    have h1' : ∀ x ∈ l, ∀ k, dec x.1.pubkey = some k → P k := fun x hx => h1 x (List.mem_cons_of_mem _ hx)
    have hkey : ∀ k, expect (ε := PreflightError) (dec v.pubkey) = .ok k → P k := by
      intro k hk
      refine h1 (v, i) List.mem_cons_self k ?_
      cases hd : dec v.pubkey with
      | none => rw [hd] at hk; cases hk
      | some k' => rw [hd] at hk; cases hk; rfl
    unfold collectKeys at h
    split at h
    · obtain ⟨g1, g2⟩ := ih active keys h h1' h2
      exact ⟨by simp only [List.length_cons]; omega, g2⟩
    · split at h
      · rename_i next info rest
        split at h
        · obtain ⟨ks, h3, h4⟩ := Res.bind_eq_ok.1 h
          cases h4
          obtain ⟨g1, g2⟩ := ih rest ks h3 h1' (fun x hx => h2 x (List.mem_cons_of_mem _ hx))
          refine ⟨by simp only [List.length_cons]; omega, fun k hk => ?_⟩
          rcases List.mem_cons.1 hk with rfl | hk
          · exact h2 _ List.mem_cons_self
          · exact g2 k hk
        · obtain ⟨k0, h3, h⟩ := Res.bind_eq_ok.1 h
          obtain ⟨ks, h4, h5⟩ := Res.bind_eq_ok.1 h
          cases h5
          obtain ⟨g1, g2⟩ := ih _ ks h4 h1' h2
          refine ⟨by simp only [List.length_cons]; omega, fun k hk => ?_⟩
          rcases List.mem_cons.1 hk with rfl | hk
          · exact hkey _ h3
          · exact g2 k hk
      · obtain ⟨k0, h3, h⟩ := Res.bind_eq_ok.1 h
        obtain ⟨ks, h4, h5⟩ := Res.bind_eq_ok.1 h
        cases h5
        obtain ⟨g1, g2⟩ := ih _ ks h4 h1' (by simp)
        refine ⟨by simp only [List.length_cons]; omega, fun k hk => ?_⟩
        rcases List.mem_cons.1 hk with rfl | hk
        · exact hkey _ h3
        · exact g2 k hk

section anyNode
variable (W : WireExt) (hW : WireLaws W) (X : Ext) (order : List Nat → List Nat) (ho : ∀ l, (order l).Perm l)
  (hcap : 126 ≤ X.stackCapacity)
variable {r : HostReader} {trusted : Checkpoint} {st : HostState} {input : GuestInput}

include ho hcap

/-- The slot proof that `to_input` has made and checked is one of the header the node gave for the root. -/
theorem slotProof_typed {root : Root} {p : Multiproof} (hh : ∀ root h, r.headers root = .ok (some h) → h.WF)
    (h : slotProof X order r root = .ok p) : SlotProofOf X r root p := by
  unfold slotProof at h
  simp only [Res.bind_eq_ok, Res.mapErr_eq_ok, Res.pure_eq, Res.ok.injEq] at h
  obtain ⟨o, h1, hd, h2, p', h3, ⟨⟩, h4, rfl⟩ := h
  cases o with
  | none => cases h2
  | some hd' =>
    cases h2
    have hw := hh root hd h1
    obtain ⟨q, k1, k2, k3, k4⟩ := build_slot X hd hw order ho hcap
    rw [h3] at k1
    cases k1
    have hsize := build_size X (Spec.Header.tree_chunked hw) (by decide) k4 order ho h3
    rw [slot_ancestors] at hsize
    exact ⟨h4, ⟨hd, h1, k3, hw.slot⟩, hsize⟩

include hW in
/-- The input that the host makes of typed answers is serialized without loss, and its slot proof is that of the finalized block. -/
theorem toInput_typed {log : PreflightLog} {root : Root}
    (hst : stateAtCheckpoint X (hostStateOps X) r.spec.slotsPerEpoch r.provider trusted = .ok st)
    (hwf : WfHost W r) (hs : st.beacon.WF) (hs' : (filledHeader (hostStateOps X) st).WF)
    (hh : ∀ root h, r.headers root = .ok (some h) → h.WF)
    (hword : 288 * st.beacon.validators.length + 1400 ≤ X.usizeMod) (hcount : r.attestations.length < X.usizeMod)
    (hatt : ∀ a ∈ r.attestations, (W.encodeAttestation a).length < X.usizeMod)
    (hlog : preflightRun trusted.epoch r .empty (verifyQueries X r.spec r.attestations root) = .ok log)
    (h : toInput X order r trusted log = .ok input) :
    InputFits W X.usizeMod input ∧ input.consensusState = r.consensusState ∧ input.attestations = r.attestations ∧
      ∀ p ∈ input.blockSlotProofs, ∃ root, SlotProofOf X r root p := by
  have hrec := preflightRun_recorded hlog
  obtain ⟨m1, m2, p1, p2, p3⟩ := patches_ok (vs := st.beacon.validators) hrec
  obtain ⟨pb, b1, -, -, b4⟩ := build_block X _ hs' order ho hcap
  have b5 := build_size X (Spec.Header.tree_chunked hs') (by decide) b4 order ho b1
  rw [block_ancestors] at b5
  obtain ⟨ps, s1, -, -, s4⟩ := build_state X _ hs order ho hcap
  have s5 := build_size X (Spec.BeaconState.tree_chunked hs) (by decide) s4 order ho s1
  rw [state_ancestors] at s5
  obtain ⟨pr, r1, -, -, r4⟩ := build_registry X _ hs.validators trusted.epoch order ho hcap
  have r5 := build_size X (registryTree_chunked hs.validators) (OSet.sorted_extend List.Pairwise.nil _) r4 order ho r1
  have r6 := registry_ancestors (t := trusted.epoch) hs.validators.limit
  unfold registryRequest at r6
  have hb1 : build X order [11] ({ st.latestBlockHeader with stateRoot := st.beacon.tree.root X } : Header).tree = .ok pb := b1
  unfold toInput at h
  simp only [hst, hb1, s1, r1, p1, p2, Res.mapErr, Res.ok_bind] at h
  obtain ⟨⟨⟩, -, h⟩ := Res.bind_eq_ok.1 h
  obtain ⟨⟨⟩, -, h⟩ := Res.bind_eq_ok.1 h
  obtain ⟨a, ha, h⟩ := Res.bind_eq_ok.1 h
  obtain ⟨keys, hk, h⟩ := Res.bind_eq_ok.1 h
  obtain ⟨⟨⟩, -, h⟩ := Res.bind_eq_ok.1 h
  obtain ⟨sp, hsp, h⟩ := Res.bind_eq_ok.1 h
  have ha : r.activeValidators trusted.epoch = .ok a := by
    rw [← Res.mapErr_eq_ok (f := PreflightError.host)]; exact ha
  cases h
  have hslots := mapRes_ok_forall hsp
  have hslot : ∀ p ∈ sp, ∃ root, SlotProofOf X r root p := by
    intro p hp
    obtain ⟨root, -, h⟩ := forall₂_mem_right hslots hp
    exact ⟨root, slotProof_typed X order ho hcap hh h⟩
  have hone : sp.length ≤ 1 := by
    rw [← hslots.length_eq]
    have : ∀ x ∈ log.blockReads, x = root := by
      intro x hx
      rcases mem_verifyQueries.1 ((hrec.blocks x).1 hx) with ⟨a, ha, h | h⟩ | h
      · cases h
      · cases h
      · cases h; rfl
    exact List.Subperm.length_le (List.subperm_of_subset hrec.blocks_nodup (l₂ := [root])
      (fun x hx => by rw [this x hx]; exact List.mem_singleton.2 rfl))
  obtain ⟨ts, hts⟩ : ∃ slot, r.provider slot = .ok st := by
    obtain ⟨-, slot, h, -⟩ := C57_root_matches X _ _ _ _ _ hst
    exact ⟨slot, h⟩
  obtain ⟨c1, c2⟩ := collectKeys_mem (P := fun k => k.length = 96 ∧ W.keyValid k = true) _ _ _ hk
    (fun x hx k hd => by
      obtain ⟨v, i⟩ := x
      exact hwf.keys _ st hts v (List.fst_mem_of_mem_zipIdx hx) k hd)
    (fun x hx => by
      obtain ⟨i, info⟩ := x
      obtain ⟨s, hs⟩ := activeValidators_state ha
      obtain ⟨w, key, h1, -, h3, rfl⟩ := (mem_activeValidators hs ha).1 hx
      obtain ⟨sl, hsl⟩ := state_provided hs
      exact hwf.keys _ s hsl w (List.mem_of_getElem? h1) key h3)
  rw [List.length_zipIdx] at c1
  obtain ⟨q1, q2⟩ := patches_parts X p3 rfl
  refine ⟨?_, rfl, rfl, hslot⟩
  exact {
    beaconBlock := proofSize_fits b5 (by omega) (by omega)
    beaconState := proofSize_fits s5 (by omega) (by omega)
    activeValidators := proofSize_fits r5 (by omega) (by omega)
    keysCount := by dsimp only; omega
    keys := c2
    patchesSorted := p3.sorted
    patchesCount := lt_of_le_of_lt (patches_count X p3 rfl) hcount
    patches := by
      intro x hx
      obtain ⟨a, ha, he⟩ := q1 x hx
      obtain ⟨k1, k2, k3, k4, k5, k6⟩ := q2 x hx
      refine ⟨?_, k3, by omega, ?_, k4, by omega, ?_⟩
      · rw [he]
        exact (hW.checkpoints _ _ (hwf.attestations a ha)).2.1
      · intro y hy
        obtain ⟨h1, s, h2, h3⟩ := k5 y hy
        exact ⟨h1, hwf.mixes _ s (state_provided h2).choose_spec _ h3⟩
      · intro y hy
        obtain ⟨h1, s, h2, v, h3, h4⟩ := k6 y hy
        exact ⟨by omega, by rw [h4]; exact hwf.exits _ s (state_provided h2).choose_spec v h3⟩
    state := hwf.state
    attestationsCount := hcount
    attestations := fun a ha => ⟨hatt a ha, hwf.attestations a ha⟩
    slotProofsCount := lt_of_le_of_lt hone (by omega)
    slotProofs := by
      intro p hp
      obtain ⟨root, h3⟩ := hslot p hp
      exact proofSize_fits h3.size (by omega) (by omega) }

omit ho hcap in
/-- The slots a guest, on any machine, reads from such proofs are those of the headers. -/
theorem blockSlotLoop_typed (word capacity : Nat) : ∀ (ps : List Multiproof) (m out : List (Root × Nat)),
    (∀ p ∈ ps, ∃ root, SlotProofOf X r root p) → (∀ x ∈ m, ∃ hd, r.headers x.1 = .ok (some hd) ∧ x.2 = hd.slot) →
    blockSlotLoop (onMachine X word capacity) ps m = .ok out →
    ∀ x ∈ out, ∃ hd, r.headers x.1 = .ok (some hd) ∧ x.2 = hd.slot := by
  intro ps
  induction ps with
  | nil => intro m out _ hm h; cases h; exact hm
  | cons p ps ih =>
    intro m out hp hm h
    unfold blockSlotLoop at h
    simp only [Res.bind_eq_ok, Res.mapErr_eq_ok] at h
    obtain ⟨root', h1, ⟨chunk, rest⟩, h2, h⟩ := h
    refine ih _ out (fun q hq => hp q (List.mem_cons_of_mem _ hq)) ?_ h
    obtain ⟨root, hs⟩ := hp p List.mem_cons_self
    obtain ⟨hd, e1, e2, e3⟩ := hs.value
    rw [nextAssertGindex_eq_ok, e2] at h2
    cases h2
    obtain ⟨-, l, t, k1, rfl⟩ := (C25_root_ok_iff _ p root').1 h1
    obtain ⟨-, l', t', k2, k3⟩ := (C25_verify_ok_iff X p root).1 hs.verifies
    have := C25_tree_unique p _ _ k1 k2
    rw [this, root_machine, ← k3]
    intro x hx
    rcases List.mem_cons.1 hx with rfl | hx
    · exact ⟨hd, e1, u64FromChunk_u64Chunk _ e3⟩
    · exact hm x hx

variable (word capacity : Nat) (spec : ChainSpec) (cfg : Config) (bound : Nat)

omit ho hcap in
/-- A guest that accepts the input commits to what the host has announced. -/
theorem guest_announced {post : ConsensusState} {slot : Nat} (hv : verify X cfg r.toReader = .ok (post, slot))
    (hc : input.consensusState = r.consensusState) (ha : input.attestations = r.attestations)
    (hp : ∀ p ∈ input.blockSlotProofs, ∃ root, SlotProofOf X r root p) {g : GuestReader} {post' : ConsensusState} {slot' : Nat}
    (hg : input.intoReader (onMachine X word capacity) spec = .ok g)
    (hv' : verify (onMachine X word capacity) cfg g.toReader = .ok (post', slot')) : post' = post ∧ slot' = slot := by
  obtain ⟨_, _, _, -, -, -, -, -, -, -, -, -, -, hb, -, -, -, g1, g2⟩ := intoReader_eq_ok hg
  have hpost : post' = post := verify_post_unique (R := r.toReader) (R' := g.toReader)
    (by show Res.ok g.consensusState = Res.ok r.consensusState; rw [g1, hc])
    (by show Res.ok g.attestations = Res.ok r.attestations; rw [g2, ha]) hv hv'
  subst hpost
  refine ⟨rfl, ?_⟩
  obtain ⟨_, _, -, -, -, -, s1⟩ := verify_ok hv
  obtain ⟨_, _, -, -, -, -, s2⟩ := verify_ok hv'
  have s1 : (r.slotForBlock post'.finalized.root).mapErr (fun _ => ReaderError.other) = .ok slot := s1
  have s2 : okOr ReaderError.other ((g.blockSlots.find? (fun e => decide (e.1 = post'.finalized.root))).map (·.2)) = .ok slot' := s2
  rw [Res.mapErr_eq_ok] at s1
  obtain ⟨hd, e1, e2⟩ := slotForBlock_header s1
  cases hf : g.blockSlots.find? (fun e => decide (e.1 = post'.finalized.root)) with
  | none => rw [hf] at s2; cases s2
  | some x =>
    rw [hf] at s2
    cases s2
    obtain ⟨hd', k1, k2⟩ := blockSlotLoop_typed X word capacity _ [] _ hp (by simp) hb x (List.mem_of_find?_eq_some hf)
    have hx : x.1 = post'.finalized.root := by simpa using List.find?_some hf
    rw [hx, e1] at k1
    cases k1
    exact k2.trans e2

include hW in
/-- The parts of `prepare_input` with typed answers. -/
theorem typed_parts {w : World} {epoch : Nat} {p : Prepared} (hw : TypedWorld W X spec cfg bound w epoch)
    (h : prepare W X order spec cfg bound w epoch = some (.ok p)) :
    ∃ (r : HostReader) (input : GuestInput), r.consensusState.finalized.epoch = epoch ∧ p.pre = r.consensusState ∧
      verify X cfg r.toReader = .ok (p.post, p.finalizedSlot) ∧ p.inputBytes = encodeInput W input ∧
      InputFits W X.usizeMod input ∧ input.consensusState = r.consensusState ∧ input.attestations = r.attestations ∧
      ∀ q ∈ input.blockSlotProofs, ∃ root, SlotProofOf X r root q := by
  obtain ⟨r, trusted, st, input, next, links, h1, he, rfl, -, hfin, h3, h4, h5, h6, hpre⟩ := prepare_ok h
  have hprov : r.provider = w.provider ∧ r.headers = w.headers := by
    obtain ⟨-, _, _, _, _, -, hr⟩ := h1
    exact ⟨by rw [hr]; rfl, by rw [hr]; rfl⟩
  have hparts := h5
  unfold preflight at hparts
  simp only [Res.bind_eq_ok, Res.mapErr_eq_ok, Res.pure_eq, Res.ok.injEq] at hparts
  obtain ⟨⟨post', slot'⟩, k1, log, k2, input', k3, k4⟩ := hparts
  have k4 : input' = input := congrArg Prod.fst k4
  subst k4
  obtain ⟨s1, s2, s3⟩ := hw.size r trusted st _ _ h1 h3 h4
  obtain ⟨w1, w2⟩ := hw.state r trusted st h1 h3
  obtain ⟨t1, t2, t3, t4⟩ := toInput_typed W hW X order ho hcap (by rw [hprov.1]; exact h3) (hw.types r trusted h1) w1 w2
    (by rw [hprov.2]; exact hw.headers) s1 s2 s3 k2 k3
  exact ⟨r, input', by rw [hfin, he], hpre, h4, h6, t1, t2, t3, t4⟩

variable (hlo : 32 < X.usizeMod) (hhi : X.usizeMod ≤ 2 ^ 64) (hle : word ≤ X.usizeMod)

include hW hlo hhi

include hle in
/-- **C66.** At whatever point `build-input` is interrupted, and whatever the node has answered: if it has touched the files of an epoch
and the guest program accepts the input file, then it commits to the transition the host has checked, from a state that finalizes this
epoch, and what the journal file holds is the beginning of the journal. -/
theorem C66_crash_safe {ε : Type} (continuous : Bool) (epoch : Nat) (passes : List Pass)
    (hw : ∀ pass ∈ passes, ∀ e, TypedWorld W X spec cfg bound pass.world e) (fs fs' : Files) (k n e : Nat)
    (hfs : fs' = applyOps fs (interrupted (buildLoop W X order spec cfg bound continuous epoch passes).1 k n)) :
    (fs' (.input e) = fs (.input e) ∧ fs' (.journal e) = fs (.journal e)) ∨
    ∃ pre post slot, pre.finalized.epoch = e ∧ ValidState pre ∧ ValidState post ∧ e < post.finalized.epoch ∧
      ∀ stdin journal, fs' (.input e) = some stdin →
        (guestMain W (onMachine X word capacity) spec cfg stdin : Res ε Bytes) = .ok journal →
        journal = Abi.encodeJournal pre post slot ∧ ∃ m, fs' (.journal e) = some (journal.take m) := by
  rcases C66_interrupted W X order spec cfg bound continuous epoch passes fs fs' k n e hfs with h | ⟨pass, h1, p, h2, h3⟩
  · exact .inl h
  refine .inr ?_
  obtain ⟨r, input, g1, g2, hv, g6, hfits, hc, ha, hsl⟩ := typed_parts W hW X order ho hcap spec cfg bound (hw pass h1 e) h2
  obtain ⟨pre, k1, k2, k3, k4, -⟩ := C10_strictly_advances X cfg r.toReader _ _ hv
  cases k1
  refine ⟨p.pre, p.post, p.finalizedSlot, by rw [g2, g1], by rw [g2]; exact k2, k3, by rw [← g1]; exact k4, ?_⟩
  intro stdin journal hs hj
  have hcommit : ∀ m, stdin = (Frame.encodeInputStdin p.inputBytes).take m →
      journal = Abi.encodeJournal p.pre p.post p.finalizedSlot := by
    rintro m rfl
    rw [g6] at hj
    have he := guestMain_take W hW X spec word capacity hlo hhi hle hfits m journal hj
    obtain ⟨g, post', slot', q1, q2, rfl⟩ := guestEntry_eq_ok he
    obtain ⟨rfl, rfl⟩ := guest_announced X word capacity spec cfg hv hc ha hsl q1 q2
    rw [g2, hc]
  rcases h3 with ⟨h3, h4⟩ | ⟨m, h3, h4⟩ | ⟨m, h3, h4⟩
  · rw [h3] at hs
    cases hs
    cases hj
  · rw [h3] at hs
    cases hs
    exact ⟨hcommit m rfl, 0, by rw [h4]; rfl⟩
  · rw [h3] at hs
    cases hs
    have := hcommit (Frame.encodeInputStdin p.inputBytes).length (by rw [List.take_length])
    exact ⟨this, m, by rw [h4, this]⟩

/-- **C67.** Whatever the node answers, the log never reports that the check has given another state than the preflight. -/
theorem C67_no_mismatch (Xg : Ext) (r0vm : Bool) (initial : ConsensusState) (ws : List World)
    (hw : ∀ w ∈ ws, ∀ e, TypedWorld W X spec cfg bound w e) (line : LogLine)
    (h : line ∈ (syncLoop W X Xg order spec cfg bound r0vm initial ws).1) (expected got : ConsensusState) :
    line.message ≠ .mismatch expected got := by
  intro hm
  obtain ⟨i, hi⟩ := List.mem_iff_getElem?.1 h
  obtain ⟨w, p, hwi, hl⟩ := (C67_lines W X Xg order spec cfg bound r0vm initial ws).2.2 i line hi
  obtain ⟨-, hne, hr⟩ := (hl.mismatch _ _).1 hm
  refine hne ?_
  clear hne
  obtain ⟨r, input, -, -, hv, g6, hfits, hc, ha, hsl⟩ :=
    typed_parts W hW X order ho hcap spec cfg bound (hw w (List.mem_of_getElem? hwi) _) hl.prepared
  have hnative : runVerify W X Xg spec cfg p.pre p.inputBytes false = .ok got := by
    cases r0vm with
    | false => exact hr
    | true =>
      unfold runVerify at hr ⊢
      simp only [Res.bind_eq_ok, if_true, Prod.exists, Res.pure_eq, Res.ok.injEq] at hr
      obtain ⟨i, h1, g, h2, post, slot, h3, -, -, -, -, -, -, -, -, -, rfl⟩ := hr
      simp only [h1, h2, h3, Res.ok_bind, Bool.false_eq_true, if_false, Res.pure_eq]
  obtain ⟨i, g, slot, h1, h2, h3⟩ := (C64_native W X Xg spec cfg p.pre got p.inputBytes).1 hnative
  have h4 := C63_round_trip W hW X.usizeMod hlo hhi input hfits []
  rw [List.append_nil, ← g6, h1] at h4
  cases h4
  exact (guest_announced X X.usizeMod X.stackCapacity spec cfg hv hc ha hsl h2 h3).1

end anyNode

/-- Answers that belong together are typed. -/
theorem honest_typed {W : WireExt} {X : Ext} {word : Nat} {spec : ChainSpec} {cfg : Config} {bound : Nat} {w : World} {epoch : Nat}
    (h : HonestWorld W X word spec cfg bound w epoch) (hh : ∀ root h, w.headers root = .ok (some h) → h.WF) :
    TypedWorld W X spec cfg bound w epoch where
  types := h.types
  state := fun r t st h1 h2 => ⟨(h.trusted r t st h1 h2).wf, (h.trusted r t st h1 h2).header_wf⟩
  headers := hh
  size := fun r t st _ _ h1 h2 _ => h.size r t st h1 h2

theorem fp_typed1 (e : Nat) : TypedWorld fpWire exExt exSpec Config.default 9 fpWorld1 e := by
  refine honest_typed (fp_quiet1 e).toHonestWorld ?_
  intro root h hr
  have hr : (Res.ok (if root = gxHdr6.tree.root exExt then some gxHdr6 else none) : Res HostError _) = .ok (some h) := hr
  split at hr
  · cases hr; exact gxHdr6_wf
  · cases hr

theorem fp_typed2 (e : Nat) : TypedWorld fpWire exExt exSpec Config.default 9 fpWorld2 e := by
  refine honest_typed (fp_quiet2 e).toHonestWorld ?_
  intro root h hr
  have hr : (Res.ok (if root = fpHdr9.tree.root exExt then some fpHdr9 else none) : Res HostError _) = .ok (some h) := hr
  split at hr
  · cases hr; exact ⟨by decide, by decide, by decide, by decide⟩
  · cases hr

theorem fp_typed : ∀ pass ∈ fpPasses, ∀ e, TypedWorld fpWire exExt exSpec Config.default 9 pass.world e := by
  intro pass hp
  simp only [fpPasses, List.mem_cons, List.not_mem_nil, or_false] at hp
  rcases hp with rfl | rfl | rfl
  · exact fp_typed1
  · exact fp_typed1
  · exact fp_typed2

/-- C66: the process killed while it writes the second input file. -/
example (n : Nat) : ∃ fs' : Files, fs' = applyOps (fun _ => none)
      (interrupted (buildLoop fpWire exExt id exSpec Config.default 9 true 3 fpPasses).1 6 n) ∧
    fs' (.journal 6) = some [] ∧ ∃ pre post slot, pre.finalized.epoch = 6 ∧ ValidState pre ∧ ValidState post ∧ 6 < post.finalized.epoch ∧
      ∀ stdin journal, fs' (.input 6) = some stdin →
        (guestMain fpWire (onMachine exExt (2 ^ 32) 126) exSpec Config.default stdin : Res Unit Bytes) = .ok journal →
        journal = Abi.encodeJournal pre post slot ∧ ∃ m, fs' (.journal 6) = some (journal.take m) := by
  obtain ⟨input1, input2, hb⟩ := fp_build
  have hword : exExt.usizeMod = 2 ^ 32 := rfl
  have h6 : applyOps (fun _ => none) (interrupted (buildLoop fpWire exExt id exSpec Config.default 9 true 3 fpPasses).1 6 n)
      (.journal 6) = some [] := by rw [hb]; exact (two_rounds (by decide) _ _ _ n).2.2
  refine ⟨_, rfl, h6, ?_⟩
  rcases C66_crash_safe (ε := Unit) fpWire fpWire_laws exExt id (fun l => List.Perm.refl l) (by decide) (2 ^ 32) 126
    exSpec Config.default 9 (by rw [hword]; norm_num) (by rw [hword]; norm_num) (by rw [hword])
    true 3 fpPasses fp_typed (fun _ => none) _ 6 n 6 rfl with h | h
  · exact absurd (h.2.symm.trans h6) (by simp)
  · exact h

/-- C67: two passes with the virtual machine; the example in `Props.Program` shows that there are two lines. -/
example (line : LogLine)
    (h : line ∈ (syncLoop fpWire exExt (onMachine exExt (2 ^ 32) 126) id exSpec Config.default 9 true ⟨exC4, gxC3⟩
      [fpWorld1, fpWorld2]).1) (a b : ConsensusState) : line.message ≠ .mismatch a b := by
  have hword : exExt.usizeMod = 2 ^ 32 := rfl
  refine C67_no_mismatch fpWire fpWire_laws exExt id (fun l => List.Perm.refl l) (by decide) exSpec Config.default 9
    (by rw [hword]; norm_num) (by rw [hword]; norm_num) _ true _ _ ?_ line h a b
  intro w hw
  simp only [List.mem_cons, List.not_mem_nil, or_false] at hw
  rcases hw with rfl | rfl
  · exact fp_typed1
  · exact fp_typed2

end Signal
