import Verif.Spec.Raw
import Verif.Props.AnyNode
import Verif.Props.BuildNode
import Verif.Props.StateTree
import Verif.Props.AttestationSsz
import Mathlib.Data.List.Nodup

/-!
# C94: whatever bytes the data directory holds and the node sends

C66 and C67 are about answers that are values of their types. Here the answers come out of bytes: files of the data directory and replies of the
node, any of them at any time.
-/

namespace Signal
open Spec Wire Program Client StateSsz Raw

/-! ## What a request for a state gives -/

theorem dir_lookup_mem {d : Dir} {name : List Char} {e : Entry} (h : d.lookup name = some e) : (name, e) ∈ d := by
  induction d with
  | nil => cases h
  | cons p d ih =>
    obtain ⟨n, x⟩ := p
    simp only [List.lookup_cons] at h
    split at h
    · rename_i hn
      cases h
      rw [show name = n by simpa using hn]
      exact List.mem_cons_self
    · exact List.mem_cons_of_mem _ (ih h)

theorem apiAnswer_some {D : Decoders State} {node : Request → Reply} {slot : Nat} {s : State} :
    apiAnswer D node slot = some s ↔ getBeaconState D node (.slot slot) = .ok s := by
  unfold apiAnswer
  cases getBeaconState D node (.slot slot) <;> simp

theorem saveState_ok {X : Ext} {order : List Variant} {d dir : Dir} {s : State} {w : WriteEnd} :
    saveState (stateOps X order) d s w = (.ok (), dir) ↔
      d.lookup (stateFile s.slot) = none ∧ w = .complete ∧ dir = d ++ [(stateFile s.slot, .file ((encodeState s).getD []))] := by
  have e1 : (stateOps X order).slot s = s.slot := rfl
  have e2 : (stateOps X order).serialize s = (encodeState s).getD [] := rfl
  unfold saveState
  rw [e1, e2]
  dsimp only
  cases hl : d.lookup (stateFile s.slot) with
  | some e => simp
  | none =>
    cases w with
    | complete => simp [eq_comm]
    | failed n => simp
    | killed n => simp

/-- **C94.** What a request for the state of a slot gives: the state that the file of the slot is the SSZ form of; or, if there is no such file, the state
that the node sends, provided that it can be written, that there is no file yet for its own slot and that the write succeeds, in which case it is in the
directory afterwards. -/
theorem C94_answers (X : Ext) (order : List Variant) (horder : ∀ f, f ∈ order) (D : Decoders State) (a : Asked)
    (hfiles : ∀ name content, (name, Entry.file content) ∈ a.dir → content.length < 2 ^ 32) (slot : Nat) (s : State) (dir : Dir) :
    stateAtSlot X order D a slot = (.ok s, dir) ↔
      (dir = a.dir ∧ ∃ content, a.dir.lookup (stateFile slot) = some (.file content) ∧ encodeState s = some content) ∨
      (a.dir.lookup (stateFile slot) = none ∧ getBeaconState D a.node (.slot slot) = .ok s ∧ a.write = .complete ∧
        a.dir.lookup (stateFile s.slot) = none ∧ ∃ content, encodeState s = some content ∧ dir = a.dir ++ [(stateFile s.slot, .file content)]) := by
  unfold stateAtSlot fileStateAtSlot
  cases hl : a.dir.lookup (stateFile slot) with
  | some e =>
    cases e with
    | directory => simp
    | file content =>
      have hshort := hfiles _ _ (dir_lookup_mem hl)
      have hd : decodeState order content = some s ↔ encodeState s = some content := by
        rw [decodeState_iff]
        exact ⟨fun h => (variant_iff _ hshort).1 h.2, fun h => ⟨horder _, (variant_iff _ hshort).2 h⟩⟩
      have hop : (stateOps X order).deserialize content = decodeState order content := rfl
      dsimp only
      rw [hop]
      have hr : (∃ c, some (Entry.file content) = some (.file c) ∧ encodeState s = some c) ↔ decodeState order content = some s := by
        rw [hd]
        constructor
        · rintro ⟨c, hc, h⟩
          cases hc
          exact h
        · exact fun h => ⟨_, rfl, h⟩
      rw [hr]
      clear hr hd hop
      cases hx : decodeState order content with
      | none => simp
      | some t => simp [eq_comm, and_comm]
  | none =>
    dsimp only
    have h1 := @apiAnswer_some D a.node slot
    cases ha : apiAnswer D a.node slot with
    | none =>
      have h2 : getBeaconState D a.node (.slot slot) ≠ .ok s := fun h => by
        rw [h1.2 h] at ha
        cases ha
      simp [h2]
    | some t =>
      have h2 : getBeaconState D a.node (.slot slot) = .ok t := h1.1 ha
      cases he : StateSsz.encodeState t with
      | none =>
        simp only [he]
        constructor
        · intro h; cases h
        · rintro (⟨_, _, h, _⟩ | ⟨_, h3, _, _, c, h4, _⟩)
          · cases h
          · rw [h2] at h3
            cases h3
            rw [he] at h4
            cases h4
      | some c =>
        simp only [he]
        have hs := @saveState_ok X order a.dir dir t a.write
        rw [he] at hs
        cases hr : saveState (stateOps X order) a.dir t a.write with
        | mk r d =>
          rw [hr] at hs
          constructor
          · intro h
            cases r with
            | err e => cases h
            | panic => cases h
            | ok u =>
              cases h
              obtain ⟨q1, q2, q3⟩ := hs.1 rfl
              exact .inr ⟨trivial, h2, q2, q1, c, he, q3⟩
          · rintro (⟨_, _, h, _⟩ | ⟨_, h3, h4, h5, c', h6, h7⟩)
            · cases h
            · rw [h2] at h3
              cases h3
              rw [he] at h6
              cases h6
              have := hs.2 ⟨h5, h4, h7⟩
              cases this
              rfl

/-- **C94.** These are the states that the programs work with: what they read for a slot is read of the file of this slot, or of the state that the node
sends for it. -/
theorem C94_provider (X : Ext) (order : List Variant) (horder : ∀ f, f ∈ order) (D : Decoders State) (n : RawPass)
    (hfiles : ∀ slot name content, (name, Entry.file content) ∈ (n.asked slot).dir → content.length < 2 ^ 32) (slot : Nat) (st : HostState) :
    (n.pass X order D).world.provider slot = .ok st ↔ ∃ s : State, st = s.host ∧
      ((∃ content, (n.asked slot).dir.lookup (stateFile slot) = some (.file content) ∧ StateSsz.encodeState s = some content) ∨
       ((n.asked slot).dir.lookup (stateFile slot) = none ∧ getBeaconState D (n.asked slot).node (.slot slot) = .ok s ∧
        (n.asked slot).write = .complete ∧ (n.asked slot).dir.lookup (stateFile s.slot) = none ∧ ∃ content, StateSsz.encodeState s = some content)) := by
  have e : (n.pass X order D).world.provider slot = ((stateAtSlot X order D (n.asked slot) slot).1 >>= fun s => .ok s.host) := rfl
  have ha := C94_answers X order horder D (n.asked slot) (hfiles slot) slot
  rw [e]
  simp only [Res.bind_eq_ok, Res.ok.injEq]
  constructor
  · rintro ⟨s, h1, rfl⟩
    refine ⟨s, rfl, ?_⟩
    rcases (ha s (stateAtSlot X order D (n.asked slot) slot).2).1 (by rw [← h1]) with ⟨-, h⟩ | ⟨h2, h3, h4, h5, c, h6, -⟩
    · exact .inl h
    · exact .inr ⟨h2, h3, h4, h5, c, h6⟩
  · rintro ⟨s, rfl, h⟩
    refine ⟨s, ?_, rfl⟩
    rcases h with h | ⟨h2, h3, h4, h5, c, h6⟩
    · rw [(ha s _).2 (.inl ⟨rfl, h⟩)]
    · rw [(ha s _).2 (.inr ⟨h2, h3, h4, h5, c, h6, rfl⟩)]

/-- Every state that is given can be written. -/
theorem state_encoded {X : Ext} {order : List Variant} {D : Decoders State} {n : RawPass}
    (hfiles : ∀ slot name content, (name, Entry.file content) ∈ (n.asked slot).dir → content.length < 2 ^ 32) {slot : Nat} {s : State}
    (h : n.state X order D slot = .ok s) : ∃ b, encodeState s = some b := by
  unfold RawPass.state stateAtSlot at h
  cases hf : fileStateAtSlot (stateOps X order) (n.asked slot).dir slot with
  | ok t =>
    rw [hf] at h
    cases h
    exact file_encoded X (hfiles slot) hf
  | panic => rw [hf] at h; cases h
  | err e =>
    rw [hf] at h
    cases e with
    | notFound k =>
      dsimp only at h
      split at h
      · cases h
      · rename_i t ht
        split at h
        · cases h
        · rename_i c hc
          dsimp only at h
          simp only [Res.bind_eq_ok, Res.ok.injEq] at h
          obtain ⟨_, _, rfl⟩ := h
          exact ⟨c, hc⟩
    | _ => cases h

/-! ## The answers are values of their types -/

theorem host_values {s : State} {b : Bytes} (h : encodeState s = some b) :
    RegistryWF s.host.beacon.validators ∧ ∀ x ∈ s.host.randaoMixes, x.length = 32 := by
  obtain ⟨_, _, _, _, _, d1, d2, _⟩ := field_at h (i := 11) (name := "validators") (t := .list (2 ^ 40) validatorTyp) (by cases s.variant <;> rfl)
  obtain ⟨_, _, _, _, _, e1, e2, _⟩ := field_at h (i := 13) (name := "randao_mixes") (t := .vector 65536 b32) (by cases s.variant <;> rfl)
  constructor
  · simp only [State.host, d1]
    exact (tree_registry d2).2
  · simp only [State.host, e1]
    obtain ⟨l, rfl, _, hl⟩ := vector_of_encode e2
    intro x hx
    obtain ⟨v, hv, rfl⟩ := List.mem_map.1 hx
    obtain ⟨c, hc⟩ := hl v hv
    exact (root_of_encode hc).2

theorem ssz_electra (W : WireExt) (sigValid : Bytes → Bool) {e : AttestationElectra} (he : WfElectra e) (hs : sigValid e.signature = true) :
    (Ssz.wire W sigValid).decodeAttestation ((Ssz.wire W sigValid).encodeAttestation (.electra e)) = some (.electra e) ∧
      ((Ssz.wire W sigValid).encodeAttestation (.electra e)).length ≤ 16622 := by
  have h1 : WfAttestation sigValid (.electra e) := ⟨he, hs⟩
  have h2 := C75_round_trip sigValid (.electra e) h1
  have h3 := (C75_size e he).2
  simp only [Ssz.wire]
  exact ⟨h2, h3⟩

theorem boundary_host (X : Ext) (order : List Variant) {spe : Nat} {f : Nat → Res ProviderError State} {c : Checkpoint} {st : HostState}
    (h : stateAtCheckpoint X (hostStateOps X) spe (hostStates f) c = .ok st) :
    ∃ s, stateAtEpochBoundary (stateOps X order) spe f c.epoch = .ok s ∧ st = s.host ∧ ∃ slot, f slot = .ok s := by
  simp only [checkpoint_eq, Res.bind_eq_ok] at h
  obtain ⟨t, h1, _, _, h2⟩ := h
  cases h2
  simp only [stateAtEpochBoundary, stateAtEpoch, hostStates] at h1 ⊢
  cases hx : f (satMul c.epoch spe) with
  | err e => rw [hx] at h1; cases h1
  | panic => rw [hx] at h1; cases h1
  | ok s =>
    rw [hx] at h1
    simp only [Res.ok_bind] at h1 ⊢
    have e1 : ((hostStateOps X).latestBlockHeader s.host).slot = ((stateOps X order).latestBlockHeader s).slot := rfl
    have e2 : (hostStateOps X).slot s.host = (stateOps X order).slot s := rfl
    rw [e1, e2] at h1
    split at h1
    · rename_i hc
      rw [if_pos hc]
      cases h1
      exact ⟨s, rfl, rfl, _, hx⟩
    · rename_i hc
      rw [if_neg hc]
      simp only [Res.bind_eq_ok] at h1
      obtain ⟨s', h3, h4⟩ := h1
      cases h4
      exact ⟨s', h3, rfl, _, h3⟩

/-- Votes sorted by their links are no more than there were. -/
theorem votesFor_length : ∀ (links : List Link) (all : List Attestation), links.Nodup →
    (links.flatMap (fun l => votesFor l all)).length ≤ all.length := by
  intro links
  induction links with
  | nil => intro all _; simp
  | cons l links ih =>
    intro all hnd
    obtain ⟨hl, hnd⟩ := List.nodup_cons.1 hnd
    have h1 := ih (all.filter (fun a => !decide (linkOf a = l))) hnd
    have h2 : links.flatMap (fun k => votesFor k (all.filter (fun a => !decide (linkOf a = l)))) = links.flatMap (fun k => votesFor k all) := by
      refine List.flatMap_congr fun k hk => ?_
      unfold votesFor
      rw [List.filter_filter]
      refine List.filter_congr fun a _ => ?_
      by_cases hak : linkOf a = k
      · have : linkOf a ≠ l := fun e => hl (by rw [← e, hak]; exact hk)
        rw [decide_eq_true hak, decide_eq_false this]
        rfl
      · rw [decide_eq_false hak]
        rfl
    rw [h2] at h1
    have h3 : all.length = (all.filter (fun a => decide (linkOf a = l))).length + (all.filter (fun a => !decide (linkOf a = l))).length := by
      clear ih h1 h2
      induction all with
      | nil => rfl
      | cons a all ih =>
        simp only [List.filter_cons, List.length_cons]
        by_cases h : linkOf a = l <;> simp [h, ih] <;> omega
    simp only [List.flatMap_cons, List.length_append]
    unfold votesFor at h1 ⊢
    omega

section typed
variable (W : WireExt) (sigValid : Bytes → Bool) (X : Ext) (order : List Variant) (D : Decoders State) (spec : ChainSpec) (cfg : Config)
  (bound : Nat)
variable {sigValid D}

/-- The links that the host has found, and the votes for them, in blocks that the node has sent. -/
theorem votes_of_blocks (hD : TypedDecoders sigValid D) (n : RawPass) {trusted : Checkpoint} {state next : ConsensusState} {links : List Link}
    {atts : List Attestation}
    (hs : hostSearch spec.slotsPerEpoch (n.pass X order D).world.find (n.pass X order D).world.walk (n.pass X order D).world.getBlock trusted bound =
      some (.ok (state, next, links, atts))) :
    WfState state ∧ links.Nodup ∧ (∀ l ∈ links, state.finalized.epoch < l.target.epoch) ∧ (∀ a ∈ atts, ∃ e, a = .electra e ∧ WfElectra e ∧ sigValid e.signature = true) ∧
      ∃ lo ∈ links, ∃ hi ∈ links, atts.length ≤ ((hi.target.epoch + 1 - lo.target.epoch) * spec.slotsPerEpoch + 1) * 128 := by
  have hwalk : ∀ slot t, (n.pass X order D).world.walk slot = .ok t → ValidState t ∧ WfState t := by
    intro slot t ht
    obtain ⟨h1, previous, _, body, _, _, h2⟩ := ((C71_consensus_state (hostDecoders D) n.replies.walk _).1 _).1 (asHost_ok.1 ht)
    exact ⟨h1, hD.finality body previous _ _ h2⟩
  obtain ⟨epoch, -, h2, h3, h4⟩ := hostSearch_ok hs
  obtain ⟨h5, h6, -, ⟨before, l, t, h7, -⟩, -⟩ := C43_links_replay _ _ _ _ _ _ _ (fun slot t ht => (hwalk slot t ht).2.1.1) h2
  have hrun := applyLinks_run h6
  have hne : links ≠ [] := by rw [h7]; simp
  obtain ⟨hvalid, hwf⟩ := hwalk _ _ h5
  obtain ⟨lo, hi, blocks, first, last, hlo, hhi, hbetween, hfirst, hlast, -, hblocks, hatts⟩ := C44_collects_partial _ _ links atts hne hrun.nodup h4
  have hblock : ∀ votes, some (Block.electra votes) ∈ blocks → votes.length ≤ 128 ∧
      ∀ a, some a ∈ votes → ∃ e, a = .electra e ∧ WfElectra e ∧ sigValid e.signature = true := by
    intro votes hv
    have hm : Res.ok (some (Block.electra votes)) ∈ blocks.map (Res.ok (ε := HostError)) := List.mem_map.2 ⟨_, hv, rfl⟩
    rw [← hblocks] at hm
    obtain ⟨slot, -, hg⟩ := List.mem_map.1 hm
    have hg : asHost (getBlock (hostDecoders D) n.replies.blocks (.slot slot)) >>= (fun b => pure (b.map Prod.snd)) =
      .ok (some (Block.electra votes)) := hg
    simp only [Res.bind_eq_ok, asHost_ok, Res.pure_eq, Res.ok.injEq] at hg
    obtain ⟨x, hx, hxb⟩ := hg
    cases x with
    | none => cases hxb
    | some x =>
      obtain ⟨header, b⟩ := x
      cases hxb
      obtain ⟨_, body, _, _, hbody⟩ := ((C71_block (hostDecoders D) n.replies.blocks _).1 _).1 hx
      exact hD.block body header votes hbody
  have hall : ∀ a ∈ blockAttestations blocks, ∃ e, a = .electra e ∧ WfElectra e ∧ sigValid e.signature = true := by
    intro a ha
    obtain ⟨b, hb, hab⟩ := List.mem_flatMap.1 ha
    cases b with
    | none => cases hab
    | some b =>
      cases b with
      | other => cases hab
      | electra votes =>
        obtain ⟨x, hx, rfl⟩ := List.mem_filterMap.1 hab
        exact (hblock votes hb).2 _ hx
  have hlen : (blockAttestations blocks).length ≤ blocks.length * 128 := by
    unfold blockAttestations
    clear hblocks hall hatts
    induction blocks with
    | nil => simp
    | cons b blocks ih =>
      have h1 := ih (fun votes hv => hblock votes (List.mem_cons_of_mem _ hv))
      simp only [List.flatMap_cons, List.length_append, List.length_cons]
      cases b with
      | none => simp only [List.length_nil]; omega
      | some b =>
        cases b with
        | other => simp only [List.length_nil]; omega
        | electra votes =>
          have h2 := (List.length_filterMap_le id votes).trans (hblock votes List.mem_cons_self).1
          simp only
          omega
  have hcount : blocks.length = last + 1 - first := by
    have := congrArg List.length hblocks
    simpa using this.symm
  refine ⟨hwf, hrun.nodup, ?_, ?_, lo, hlo, hi, hhi, ?_⟩
  · intro l hl
    have h1 := hrun.sources l hl
    have h2 : state.finalized.epoch ≤ state.currentJustified.epoch := by
      rcases hvalid with h | h
      · omega
      · rw [h]
    omega
  · intro a ha
    rw [hatts] at ha
    obtain ⟨l, -, hal⟩ := List.mem_flatMap.1 ha
    exact hall a (List.mem_filter.1 hal).1
  · have h1 := votesFor_length links (blockAttestations blocks) hrun.nodup
    rw [← hatts] at h1
    have h2 := (hbetween hi hhi).1
    have h3 : last + 1 - first ≤ (hi.target.epoch + 1 - lo.target.epoch) * spec.slotsPerEpoch + 1 := by
      rw [Nat.sub_mul, hfirst, hlast]
      omega
    rw [← hcount] at h3
    have h4 := Nat.mul_le_mul_right 128 h3
    omega

/-- **C94.** Whatever bytes the directory holds and the node sends, and whether or not they belong together: what the program reads are values of
their types. -/
theorem C94_typed (hD : TypedDecoders sigValid D) (n : RawPass) (hn : SoundPass (Ssz.wire W sigValid) n)
    (hrecent : RecentPass X order D spec.slotsPerEpoch n) (hmod : X.usizeMod = 2 ^ 64)
    (hcfg : (cfg.epochLookaheadLimit * spec.slotsPerEpoch + 1) * 128 < 2 ^ 64) (epoch : Nat) :
    TypedWorld (Ssz.wire W sigValid) X spec cfg bound (n.pass X order D).world epoch where
  types := by
    rintro r trusted ⟨-, state, next, links, atts, hs, rfl⟩
    obtain ⟨h1, h2, h3, h4, -⟩ := votes_of_blocks X order spec bound hD n hs
    have hprov : ∀ slot st, (n.pass X order D).world.provider slot = .ok st → ∃ (s : State) (b : Bytes), st = s.host ∧ StateSsz.encodeState s = some b := by
      intro slot st hst
      have hst : (n.state X order D slot >>= fun s => .ok s.host) = .ok st := hst
      simp only [Res.bind_eq_ok] at hst
      obtain ⟨s, h5, h6⟩ := hst
      cases h6
      obtain ⟨b, hb⟩ := state_encoded hn.files h5
      exact ⟨s, b, rfl, hb⟩
    refine ⟨?_, ?_, ?_, h1, ?_⟩
    · intro slot st hst
      obtain ⟨s, b, rfl, hb⟩ := hprov slot st hst
      exact (host_values hb).2
    · intro slot st hst v hv
      obtain ⟨s, b, rfl, hb⟩ := hprov slot st hst
      exact ((host_values hb).1.wf v hv).exitEpoch
    · intro slot st hst v hv k hk
      exact hn.keys _ _ hk
    · intro a ha
      obtain ⟨e, rfl, he, hsig⟩ := h4 a ha
      exact (ssz_electra W sigValid he hsig).1
  state := by
    intro r trusted st _ hst
    obtain ⟨s, h1, rfl, slot, h2⟩ := boundary_host X order (f := n.state X order D) hst
    obtain ⟨b, hb⟩ := state_encoded hn.files h2
    obtain ⟨w1, w2, -⟩ := C93_view X hb (hrecent _ _ h1) order
    exact ⟨w1, w2⟩
  headers := by
    intro root h hh
    obtain ⟨root', _, body, _, _, hb⟩ := ((C71_header (hostDecoders D) n.replies.headers _).1 _).1 (asHost_ok.1 hh)
    exact hD.header body root' h hb
  size := by
    rintro r trusted st post slot ⟨-, state, next, links, atts, hs, rfl⟩ hst hv
    obtain ⟨h1, h2, h3, h4, lo, hlo, hi, hhi, h5⟩ := votes_of_blocks X order spec bound hD n hs
    obtain ⟨s, -, rfl, sl, hsl⟩ := boundary_host X order (f := n.state X order D) hst
    obtain ⟨b, hb⟩ := state_encoded hn.files hsl
    have h6 := (host_values hb).1.limit
    refine ⟨by rw [hmod]; omega, ?_, ?_⟩
    · show atts.length < _
      have hwalk : ∀ slot t, (n.pass X order D).world.walk slot = .ok t → t.currentJustified.epoch < 2 ^ 64 := by
        intro slot t ht
        obtain ⟨_, previous, _, body, _, _, h2⟩ := ((C71_consensus_state (hostDecoders D) n.replies.walk _).1 _).1 (asHost_ok.1 ht)
        exact (hD.finality body previous _ _ h2).1.1
      obtain ⟨-, -, hblocks, -⟩ := C58_reaches_next X cfg _ _ _ _ _ _ _ _ _ _ _ _ _ hwalk hs rfl rfl hv
      obtain ⟨a, ha, hal⟩ := hblocks.nonempty hi hhi
      have h7 := (C18_window_and_forks X cfg _ _ _ hv _ rfl _ rfl a ha).1
      have h8 : hi.target.epoch = a.data.target.epoch := by rw [← hal]; rfl
      have h7 : a.data.target.epoch ≤ state.finalized.epoch + cfg.epochLookaheadLimit := h7
      have h9 := h3 lo hlo
      have h10 : hi.target.epoch + 1 - lo.target.epoch ≤ cfg.epochLookaheadLimit := by omega
      have h11 := Nat.mul_le_mul_right spec.slotsPerEpoch h10
      rw [hmod]
      omega
    · intro a ha
      obtain ⟨e, rfl, he, hsig⟩ := h4 a ha
      rw [hmod]
      exact lt_of_le_of_lt (ssz_electra W sigValid he hsig).2 (by norm_num)

end typed

section programs
variable (W : WireExt) (sigValid : Bytes → Bool) (hW : WireLaws (Ssz.wire W sigValid)) (X : Ext) (hmod : X.usizeMod = 2 ^ 64)
  (pick : List Nat → List Nat) (hpick : ∀ l, (pick l).Perm l) (hcap : 126 ≤ X.stackCapacity)
  (order : List Variant) (D : Decoders State) (hD : TypedDecoders sigValid D) (spec : ChainSpec) (cfg : Config) (bound : Nat)
  (hcfg : (cfg.epochLookaheadLimit * spec.slotsPerEpoch + 1) * 128 < 2 ^ 64)

include hW hmod hpick hcap hD hcfg

/-- **C94.** At whatever point `build-input` is interrupted, and whatever bytes it has found in the data directory and received from the node: if it has
touched the files of an epoch and the guest program accepts the input file, then it commits to the transition that the host has checked, from a state
that finalizes this epoch, and what the journal file holds is the beginning of the journal. -/
theorem C94_files {ε : Type} (word capacity : Nat) (hword : word ≤ 2 ^ 64) (continuous : Bool) (epoch : Nat) (passes : List RawPass)
    (hn : ∀ n ∈ passes, SoundPass (Ssz.wire W sigValid) n ∧ RecentPass X order D spec.slotsPerEpoch n) (fs fs' : Files) (k m e : Nat)
    (hfs : fs' = applyOps fs (interrupted (buildLoop (Ssz.wire W sigValid) X pick spec cfg bound continuous epoch
      (passes.map (RawPass.pass X order D))).1 k m)) :
    (fs' (.input e) = fs (.input e) ∧ fs' (.journal e) = fs (.journal e)) ∨
    ∃ pre post slot, pre.finalized.epoch = e ∧ ValidState pre ∧ ValidState post ∧ e < post.finalized.epoch ∧
      ∀ stdin journal, fs' (.input e) = some stdin →
        (guestMain (Ssz.wire W sigValid) (onMachine X word capacity) spec cfg stdin : Res ε Bytes) = .ok journal →
        journal = Abi.encodeJournal pre post slot ∧ ∃ i, fs' (.journal e) = some (journal.take i) := by
  refine C66_crash_safe (Ssz.wire W sigValid) hW X pick hpick hcap word capacity spec cfg bound (by rw [hmod]; norm_num) (by rw [hmod])
    (by rw [hmod]; exact hword) continuous epoch _ ?_ fs fs' k m e hfs
  intro pass hp
  obtain ⟨n, h1, rfl⟩ := List.mem_map.1 hp
  exact fun e => C94_typed W X order spec cfg bound hD n (hn n h1).1 (hn n h1).2 hmod hcfg e

/-- **C94.** Whatever bytes `sync` finds in the data directory and receives from the node, its log never reports that the check has given another state
than the preflight. -/
theorem C94_log (Xg : Ext) (r0vm : Bool) (initial : ConsensusState) (passes : List RawPass)
    (hn : ∀ n ∈ passes, SoundPass (Ssz.wire W sigValid) n ∧ RecentPass X order D spec.slotsPerEpoch n) (line : LogLine)
    (h : line ∈ (syncLoop (Ssz.wire W sigValid) X Xg pick spec cfg bound r0vm initial
      (passes.map (fun n => (n.pass X order D).world))).1) (expected got : ConsensusState) :
    line.message ≠ .mismatch expected got := by
  refine C67_no_mismatch (Ssz.wire W sigValid) hW X pick hpick hcap spec cfg bound (by rw [hmod]; norm_num) (by rw [hmod]) Xg r0vm initial _ ?_
    line h expected got
  intro w hw
  obtain ⟨n, h1, rfl⟩ := List.mem_map.1 hw
  exact fun e => C94_typed W X order spec cfg bound hD n (hn n h1).1 (hn n h1).2 hmod hcfg e

end programs

/-! ## A case -/

/-- Decoders that read the same block, header, checkpoints and state out of everything. -/
def rxDecoders (s : State) : Decoders State where
  header _ := some (gxHdr6.tree.root exExt, gxHdr6)
  block _ := some (gxHdr6, .electra (gxVotes.map some))
  version _ := some 0
  stateAs v _ := if v = 0 then some s else none
  finality _ := some (gxC3, exC4, gxC3)

/-- The file of slot 0 is there; everything else comes from the node. -/
def rxPass (b : Bytes) : RawPass where
  head _ := .response 200 []
  replies := ⟨fun _ => .response 200 [], fun _ => .response 200 [], fun _ => .response 200 [], fun _ => .response 200 [], fun _ => .response 200 []⟩
  asked slot := if slot = 0 then ⟨[(stateFile 0, .file b)], fun _ => .noResponse, .failed 3⟩ else ⟨[], fun _ => .response 200 [], .complete⟩
  genesisRoot := .ok (List.replicate 32 0)
  decompress _ := none

theorem rx_typed (s : State) : TypedDecoders (fun _ => true) (rxDecoders s) where
  header body root h hh := by
    cases hh
    exact gxHdr6_wf
  block body h votes hh := by
    cases hh
    refine ⟨by decide +kernel, fun a ha => ?_⟩
    obtain ⟨a', ha', h⟩ := List.mem_map.1 ha
    cases h
    obtain ⟨e, h1, h2⟩ := gxVotes_wf a ha'
    exact ⟨e, h1, h2, rfl⟩
  finality body p j f hh := by
    cases hh
    exact ⟨⟨by decide, by decide⟩, ⟨by decide, by decide⟩⟩

theorem rx_states (X : Ext) {s s' : State} {b b' : Bytes} (hb : StateSsz.encodeState s = some b) (hb' : StateSsz.encodeState s' = some b')
    (hv : s.variant = .electra) (slot : Nat) :
    (rxPass b).state X [.electra, .fulu] (rxDecoders s') slot = .ok (if slot = 0 then s else s') := by
  by_cases h : slot = 0
  · subst h
    have hr : (stateOps X [.electra, .fulu]).deserialize b = some s := C92_roundtrip (by rw [hv]; exact List.mem_cons_self ..) hb
    have hf : fileStateAtSlot (stateOps X [.electra, .fulu]) [(stateFile 0, .file b)] 0 = .ok s := by
      simp only [fileStateAtSlot, List.lookup_cons, beq_self_eq_true, hr]
    simp only [RawPass.state, rxPass, stateAtSlot, if_true, hf]
  · have ha : apiAnswer (rxDecoders s') (fun _ => .response 200 []) slot = some s' := rfl
    have hf : fileStateAtSlot (stateOps X [.electra, .fulu]) [] slot = .err (.notFound slot) := rfl
    have hsv : saveState (stateOps X [.electra, .fulu]) [] s' .complete =
        (.ok (), [] ++ [(stateFile s'.slot, .file ((StateSsz.encodeState s').getD []))]) :=
      saveState_ok.2 ⟨rfl, rfl, rfl⟩
    simp only [RawPass.state, rxPass, stateAtSlot, if_neg h, hf, ha, hb', hsv, Res.ok_bind]

theorem rx_meets (X : Ext) {s s' : State} {b b' : Bytes} (hb : StateSsz.encodeState s = some b) (hb' : StateSsz.encodeState s' = some b')
    (hv : s.variant = .electra) (hv' : s'.variant = .electra) (spe : Nat) :
    SoundPass (Ssz.wire fpWire fun _ => true) (rxPass b) ∧ RecentPass X [.electra, .fulu] (rxDecoders s') spe (rxPass b) := by
  have hs := rx_states X hb hb' hv
  refine ⟨⟨?_, fun _ _ h => by cases h⟩, ?_⟩
  · intro slot name content h
    simp only [rxPass] at h
    split at h
    · simp only [List.mem_singleton, Prod.mk.injEq, Entry.file.injEq] at h
      rw [h.2]
      exact encode_short hb
    · cases h
  · intro epoch t h
    simp only [stateAtEpochBoundary, stateAtEpoch, Res.bind_eq_ok, hs] at h
    obtain ⟨u, h4, h5⟩ := h
    left
    split at h5
    · cases h5
      cases h4
      split <;> assumption
    · cases h5
      split <;> assumption

/-- The assumptions are met by a directory with one file and a node that sends the other states, and what the program reads then are values of their
types. -/
example (X : Ext) (hmod : X.usizeMod = 2 ^ 64) (bound : Nat) (e : Nat) : ∃ b, StateSsz.encodeState (plainState 0 3) = some b ∧
    (rxPass b).state X [.electra, .fulu] (rxDecoders (plainState 5 1)) 0 = .ok (plainState 0 3) ∧
    (rxPass b).state X [.electra, .fulu] (rxDecoders (plainState 5 1)) 5 = .ok (plainState 5 1) ∧
    TypedWorld (Ssz.wire fpWire fun _ => true) X exSpec Config.default bound
      ((rxPass b).pass X [.electra, .fulu] (rxDecoders (plainState 5 1))).world e := by
  obtain ⟨b, hb, -⟩ := plain_encodes 0 (n := 3) (by decide)
  obtain ⟨b', hb', -⟩ := plain_encodes 5 (n := 1) (by decide)
  have hs := rx_states X (s := plainState 0 3) (s' := plainState 5 1) hb hb' rfl
  obtain ⟨h1, h2⟩ := rx_meets X (s := plainState 0 3) (s' := plainState 5 1) hb hb' rfl rfl exSpec.slotsPerEpoch
  exact ⟨b, hb, hs 0, hs 5, C94_typed fpWire X [.electra, .fulu] exSpec Config.default bound (rx_typed _) (rxPass b) h1 h2 hmod (by decide) e⟩

/-- C94: with these answers, `build-input` for the guest of 32 bits. -/
example (X : Ext) (hmod : X.usizeMod = 2 ^ 64) (hcap : 126 ≤ X.stackCapacity) (bound k m e : Nat) : ∃ b, StateSsz.encodeState (plainState 0 3) = some b ∧
    ∀ fs fs' : Files, fs' = applyOps fs (interrupted (buildLoop (Ssz.wire fpWire fun _ => true) X id exSpec Config.default bound true 3
      ([rxPass b, rxPass b].map (RawPass.pass X [.electra, .fulu] (rxDecoders (plainState 5 1))))).1 k m) →
    (fs' (.input e) = fs (.input e) ∧ fs' (.journal e) = fs (.journal e)) ∨
    ∃ pre post slot, pre.finalized.epoch = e ∧ ValidState pre ∧ ValidState post ∧ e < post.finalized.epoch ∧
      ∀ stdin journal, fs' (.input e) = some stdin →
        (guestMain (Ssz.wire fpWire fun _ => true) (onMachine X (2 ^ 32) 126) exSpec Config.default stdin : Res Unit Bytes) = .ok journal →
        journal = Abi.encodeJournal pre post slot ∧ ∃ i, fs' (.journal e) = some (journal.take i) := by
  obtain ⟨b, hb, -⟩ := plain_encodes 0 (n := 3) (by decide)
  obtain ⟨b', hb', -⟩ := plain_encodes 5 (n := 1) (by decide)
  have hmeets := rx_meets X (s := plainState 0 3) (s' := plainState 5 1) hb hb' rfl rfl exSpec.slotsPerEpoch
  refine ⟨b, hb, fun fs fs' hfs => ?_⟩
  refine C94_files fpWire (fun _ => true) (C75_wire_laws fpWire (fun _ => true) fpWire_laws.bits fpWire_laws.bits_fit fpWire_laws.bits_more
    fpWire_laws.bits_larger) X hmod id (fun l => List.Perm.refl l) hcap [.electra, .fulu] _ (rx_typed _) exSpec Config.default bound (by decide)
    (2 ^ 32) 126 (by norm_num) true 3 [rxPass b, rxPass b] ?_ fs fs' k m e hfs
  intro n hn
  simp only [List.mem_cons, List.not_mem_nil, or_false] at hn
  rcases hn with rfl | rfl <;> exact hmeets

end Signal
