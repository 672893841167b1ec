import Verif.Props.Client

/-!
# C84: `build-input` against a node, from the replies to the files
-/

namespace Signal
open Spec Program Client Wire

theorem head_ok {D : Decoders HostState} {n : NodePass} {e : Nat} : (n.pass D).head = .ok e ↔
    ∃ previous justified finalized, Said n.head (.finality .head) D.finality (previous, justified, finalized) ∧ finalized.epoch = e := by
  show asHost (finalizedEpochOfHead D n.head) = .ok e ↔ _
  rw [asHost_ok]
  unfold finalizedEpochOfHead
  simp only [Res.bind_eq_ok, Res.pure_eq, Res.ok.injEq, Prod.exists]
  constructor
  · rintro ⟨a, b, c, h, rfl⟩
    exact ⟨a, b, c, getJson_ok.1 h, rfl⟩
  · rintro ⟨a, b, c, h, rfl⟩
    exact ⟨a, b, c, getJson_ok.2 h, rfl⟩

theorem head_not_panic {D : Decoders HostState} {n : NodePass} : (n.pass D).head ≠ .panic := by
  show asHost (finalizedEpochOfHead D n.head) ≠ .panic
  unfold finalizedEpochOfHead asHost
  cases h : getJson D.finality (n.head (.finality .head)) with
  | panic => exact absurd h getJson_not_panic
  | err e => exact fun h => by cases h
  | ok x => exact fun h => by cases h

/-- What one pass has prepared. -/
theorem behind_prepared {W : WireExt} {X : Ext} {order : List Nat → List Nat} {spec : ChainSpec} {cfg : Config} {bound : Nat}
    {D : Decoders HostState}
    (hD : ∀ body previous justified finalized, D.finality body = some (previous, justified, finalized) → justified.epoch < 2 ^ 64)
    {n : NodePass} {epoch head : Nat} {p : Prepared} (hh : (n.pass D).head = .ok head) (hle : (epoch + 1) % 2 ^ 64 ≤ head)
    (hp : prepare W X order spec cfg bound (n.pass D).world epoch = some (.ok p)) : Behind X D n epoch p.pre p.post := by
  have hp' : prepare W X order spec cfg bound (Client.world D n.replies n.provider n.genesisRoot n.decompress) epoch = some (.ok p) := hp
  obtain ⟨input, links, lo, hi, first, last, lastState, -, -, -, -, -, -, -, -, -, -, previous, hpost⟩ :=
    C71_every_vote_partial W X order spec cfg bound D n.replies n.provider n.genesisRoot n.decompress epoch p hD hp'
  obtain ⟨rd, trusted, st, input', next, links', ⟨ht, -⟩, he, -, hs, hf, -, hv, -, -, hpre⟩ := prepare_ok hp
  obtain ⟨start, -, h6, -, -⟩ := hostSearch_ok hs
  obtain ⟨previous', hsaid⟩ : ∃ previous', Said n.replies.walk (.finality (.slot (startSlot spec.slotsPerEpoch start))) D.finality
      (previous', rd.consensusState.currentJustified, rd.consensusState.finalized) := by
    have hw : (n.pass D).world.walk (startSlot spec.slotsPerEpoch start) = .ok rd.consensusState := by
      unfold justificationsUntilNewFinality at h6
      cases h7 : (n.pass D).world.walk (startSlot spec.slotsPerEpoch start) with
      | panic => rw [h7] at h6; cases h6
      | err e => rw [h7] at h6; cases h6
      | ok s =>
        rw [h7] at h6
        dsimp only at h6
        obtain ⟨r, -, h8⟩ := Option.map_eq_some_iff.1 h6
        simp only [Res.bind_eq_ok, Res.pure_eq, Res.ok.injEq, Prod.mk.injEq, Prod.exists] at h8
        obtain ⟨_, _, -, rfl, -, -⟩ := h8
        rfl
    exact ((C71_consensus_state D n.replies.walk _).1 _).1 (asHost_ok.1 hw) |>.2
  obtain ⟨head', justified, finalized, h1, h2⟩ := head_ok.1 hh
  refine ⟨⟨head', justified, finalized, h1, h2 ▸ hle⟩, ⟨_, previous', by rw [hpre]; exact hsaid⟩, ⟨_, previous, hpost⟩, ?_, ?_⟩
  · have := prepare_advances hp
    rw [hpre, hf, he]
    exact ⟨rfl, this⟩
  · unfold trustedCheckpoint at ht
    simp only [Res.bind_eq_ok, Res.mapErr_eq_ok, okOr_eq_ok, Res.pure_eq, Res.ok.injEq] at ht
    obtain ⟨ts, -, o, hb, b, rfl, -, -, rfl⟩ := ht
    have hb' : asHost (getBlock D n.replies.boundary (.slot ts.latestBlockHeader.slot)) >>= (fun b => pure (b.map Prod.fst)) = .ok (some b) := hb
    simp only [Res.bind_eq_ok, asHost_ok, Res.pure_eq, Res.ok.injEq] at hb'
    obtain ⟨x, hx, hxb⟩ := hb'
    cases x with
    | none => cases hxb
    | some x =>
      obtain ⟨header, body⟩ := x
      cases hxb
      exact ⟨_, header, body, ((C71_block D n.replies.boundary _).1 _).1 hx, by rw [hpre, hf]⟩

/-- **C84.** At whatever point `build-input` is interrupted, and whatever the node has answered, the files of an epoch are as they were, or the
journal is (as far as it was written) about a step from one pair of checkpoints that the node itself has given to another, from a state that
finalizes the epoch with the block that the node has given, and the node has said that a later epoch is final. -/
theorem C84_reported (W : WireExt) (X : Ext) (order : List Nat → List Nat) (spec : ChainSpec) (cfg : Config) (bound : Nat) (continuous : Bool)
    (D : Decoders HostState)
    (hD : ∀ body previous justified finalized, D.finality body = some (previous, justified, finalized) → justified.epoch < 2 ^ 64)
    (epoch : Nat) (passes : List NodePass) (fs fs' : Files) (k n e : Nat)
    (hfs : fs' = applyOps fs (interrupted (buildLoop W X order spec cfg bound continuous epoch (passes.map (NodePass.pass D))).1 k n)) :
    (fs' (.input e) = fs (.input e) ∧ fs' (.journal e) = fs (.journal e)) ∨
    ∃ pass ∈ passes, ∃ p, Behind X D pass e p.pre p.post ∧ Written p (fs (.journal e)) (fs' (.input e)) (fs' (.journal e)) := by
  subst hfs
  obtain ⟨R, h1, h2, -⟩ := C66_rounds W X order spec cfg bound continuous epoch (passes.map (NodePass.pass D))
  rw [h2]
  rcases rounds_interrupted R h1.later fs k n e with h | ⟨x, h3, rfl, h4⟩
  · exact .inl h
  · obtain ⟨np, hnp, hx⟩ := List.mem_map.1 (h1.passes.subset (List.mem_map_of_mem h3))
    obtain ⟨head, hh, hle⟩ := h1.ready x h3
    have hp := h1.prepared x h3
    rw [← hx] at hh hp
    exact .inr ⟨np, hnp, x.2.2, behind_prepared hD hh hle hp, h4⟩

/-- **C84.** `build-input` waits for the node to say that a later epoch is final: as long as it says something else, nothing is written and the
loop goes on. -/
theorem C84_waits (W : WireExt) (X : Ext) (order : List Nat → List Nat) (spec : ChainSpec) (cfg : Config) (bound : Nat) (continuous : Bool)
    (D : Decoders HostState) (epoch : Nat) (hsmall : epoch + 1 < 2 ^ 64) (waiting passes : List NodePass)
    (hwait : ∀ n ∈ waiting, ∃ previous justified finalized, Said n.head (.finality .head) D.finality (previous, justified, finalized) ∧
      finalized.epoch ≤ epoch) :
    buildLoop W X order spec cfg bound continuous epoch ((waiting ++ passes).map (NodePass.pass D)) =
      buildLoop W X order spec cfg bound continuous epoch (passes.map (NodePass.pass D)) := by
  have hwrap : (epoch + 1) % U64 = epoch + 1 := Nat.mod_eq_of_lt (by simpa using hsmall)
  induction waiting with
  | nil => rfl
  | cons n waiting ih =>
    obtain ⟨a, b, c, h1, h2⟩ := hwait n (List.mem_cons_self ..)
    have hh : (n.pass D).head = .ok c.epoch := head_ok.2 ⟨a, b, c, h1, rfl⟩
    rw [List.cons_append, List.map_cons]
    conv_lhs => unfold buildLoop
    rw [hh]
    dsimp only
    rw [if_pos (by rw [hwrap]; omega)]
    exact ih (fun q hq => hwait q (List.mem_cons_of_mem _ hq))

/-- **C84.** If the node does not say what is final at the head (no connection, an error, content that cannot be read), `build-input` ends with a
failure: the files are those of the passes before, and no further pass changes them. -/
theorem C84_no_answer (W : WireExt) (X : Ext) (order : List Nat → List Nat) (spec : ChainSpec) (cfg : Config) (bound : Nat) (continuous : Bool)
    (D : Decoders HostState) (epoch : Nat) (before after : List NodePass) (n : NodePass)
    (hno : ∀ x, ¬ Said n.head (.finality .head) D.finality x) :
    buildLoop W X order spec cfg bound continuous epoch ((before ++ n :: after).map (NodePass.pass D)) =
        buildLoop W X order spec cfg bound continuous epoch (before.map (NodePass.pass D)) ∨
      buildLoop W X order spec cfg bound continuous epoch ((before ++ n :: after).map (NodePass.pass D)) =
        ((buildLoop W X order spec cfg bound continuous epoch (before.map (NodePass.pass D))).1, .failed) := by
  have hh : ∃ e, (n.pass D).head = .err e := by
    cases h : (n.pass D).head with
    | panic => exact absurd h head_not_panic
    | err e => exact ⟨e, rfl⟩
    | ok e =>
      obtain ⟨a, b, c, h1, -⟩ := head_ok.1 h
      exact absurd h1 (hno _)
  obtain ⟨err, hh⟩ := hh
  induction before generalizing epoch with
  | nil =>
    right
    rw [List.nil_append, List.map_cons, List.map_nil]
    unfold buildLoop
    rw [hh]
  | cons q before ih =>
    rw [List.cons_append, List.map_cons, List.map_cons]
    simp only [buildLoop]
    cases (q.pass D).head with
    | panic => exact .inl rfl
    | err e => exact .inl rfl
    | ok head =>
      dsimp only
      split
      · exact ih epoch
      · cases prepare W X order spec cfg bound (q.pass D).world epoch with
        | none => exact .inl rfl
        | some r =>
          cases r with
          | panic => exact .inl rfl
          | err e => exact .inl rfl
          | ok p =>
            dsimp only
            cases continuous with
            | false => exact .inl rfl
            | true =>
              simp only [if_true]
              rcases ih p.post.finalized.epoch with h | h
              · exact .inl (by rw [h])
              · exact .inr (by rw [h])


/-! ## A concrete case -/

/-- The node of the example while its head has the given reply. -/
def bnPass (reply : Reply) : NodePass :=
  ⟨fun _ => reply, cxReplies, fxProvider, .ok (exRoot32 77), fun pk => some (pk ++ List.replicate 48 0)⟩

/-- First epoch 3 is final at the head, then epoch 6, then the node is gone. -/
def bnPasses : List NodePass := [bnPass (.response 200 [1]), bnPass (.response 200 [3]), bnPass .noResponse]

/-- The files for epoch 3 are written in the second pass, and the third ends the program. -/
example : ∃ p, buildLoop fpWire exExt id exSpec Config.default 9 true 3 (bnPasses.map (NodePass.pass cxDecoders)) = (roundOps 3 p, .failed) ∧
    p.post = ⟨exC7, gxC6⟩ ∧ Behind exExt cxDecoders (bnPass (.response 200 [3])) 3 p.pre p.post := by
  obtain ⟨input, -, hp⟩ := fp_prepared1
  have hp' : prepare fpWire exExt id exSpec Config.default 9 ((bnPass (.response 200 [3])).pass cxDecoders).world 3 =
      some (.ok ⟨encodeInput fpWire input, ⟨exC4, gxC3⟩, ⟨exC7, gxC6⟩, 24⟩) := by
    show prepare fpWire exExt id exSpec Config.default 9
      (Client.world cxDecoders cxReplies fxProvider (.ok (exRoot32 77)) (fun pk => some (pk ++ List.replicate 48 0))) 3 = _
    rw [cx_world]
    exact hp
  refine ⟨_, ?_, rfl, behind_prepared cx_epochs (head := 6) rfl (by decide) hp'⟩
  have h1 := C84_waits fpWire exExt id exSpec Config.default 9 true cxDecoders 3 (by decide) [bnPass (.response 200 [1])]
    [bnPass (.response 200 [3]), bnPass .noResponse]
    (fun n hn => by rw [List.mem_singleton.1 hn]; exact ⟨gxC3, exC4, gxC3, ⟨200, [1], rfl, by decide, rfl⟩, by decide⟩)
  rw [show bnPasses = [bnPass (.response 200 [1])] ++ [bnPass (.response 200 [3]), bnPass .noResponse] from rfl, h1]
  simp only [List.map_cons, List.map_nil, buildLoop, show ((bnPass (.response 200 [3])).pass cxDecoders).head = .ok 6 from rfl,
    show ((bnPass .noResponse).pass cxDecoders).head = .err .node from rfl, hp']
  rw [if_neg (by decide), if_pos trivial, List.append_nil]

end Signal
