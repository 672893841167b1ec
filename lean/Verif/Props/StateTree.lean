import Verif.Proofs.StateHost
import Verif.Spec.Providers
import Verif.Proofs.StateDepth
import Verif.Props.Guest

/-!
# C93: the checkpoint names one stored state
-/

namespace Signal
open Spec StateSsz Gen

set_option maxRecDepth 100000

variable (X : Ext)

/-! ## Roots of states -/

/-- The root of a state of a fork stands for no other state of it. -/
theorem C93_binding_partial {s s' : State} {b b' : Bytes} (h : encodeState s = some b) (h' : encodeState s' = some b') (hv : s.variant = s'.variant)
    (hc : NoCollisionOn X ((stateTree s).hashed X ++ (stateTree s').hashed X)) (e : (stateTree s).root X = (stateTree s').root X) : s = s' := by
  obtain ⟨f, v⟩ := s
  obtain ⟨f', v'⟩ := s'
  dsimp only at hv
  subst hv
  have := val_inj X f.typ (variant_limited f) hc v v' b b' h h' (fun x hx => List.mem_append_left _ hx) (fun x hx => List.mem_append_right _ hx) e
  rw [this]

/-- The trees of Electra and of Fulu differ in their last field, which Electra does not have. -/
theorem lookahead_root {s s' : State} {b b' : Bytes} (h : encodeState s = some b) (h' : encodeState s' = some b') (hv : s.variant = .electra)
    (hv' : s'.variant = .fulu) {S : List Bytes} (hc : NoCollisionOn X S) (h1 : ∀ x ∈ (stateTree s).hashed X, x ∈ S) (h2 : ∀ x ∈ (stateTree s').hashed X, x ∈ S)
    (e : (stateTree s).root X = (stateTree s').root X) : ∃ x ∈ S, X.sha256 x = zeroRoot := by
  obtain ⟨f, v⟩ := s
  obtain ⟨f', v'⟩ := s'
  dsimp only at hv hv'
  subst hv
  subst hv'
  unfold encodeState Variant.typ at h h'
  obtain ⟨l, ps, rfl, hf⟩ := container_fields h
  obtain ⟨l', ps', rfl, hf'⟩ := container_fields h'
  have hd : depthFor (Variant.electra.fields.map Prod.snd).length = 6 := by decide +kernel
  have hd' : depthFor (Variant.fulu.fields.map Prod.snd).length = 6 := by decide +kernel
  have hl : (Variant.electra.fields.map Prod.snd).length = 37 := by decide +kernel
  simp only [stateTree, Variant.typ, valTree, hd, hd', container] at h1 h2 e
  have hch : ∀ (ts : List Typ) (vs : List Val) (i : Nat), ((fieldTrees ts vs).getD i (.leaf zeroRoot)).Chunked := by
    intro ts vs i
    rw [List.getD_eq_getElem?_getD]
    cases hi : (fieldTrees ts vs)[i]? with
    | none => simp [Tree.Chunked, zeroRoot]
    | some t => exact fieldTrees_chunked _ _ t (List.mem_of_getElem? hi)
  have hr := perfect_roots X hc (fun i => hch _ l i) (fun i => hch _ l' i) h1 h2 e 37 (by decide)
  obtain ⟨w, y, hw, hy⟩ := encodeFields_get hf' (i := 37) (t := .vector 64 u64) rfl
  have e1 : (fieldTrees (Variant.electra.fields.map Prod.snd) l).getD 37 (.leaf zeroRoot) = .leaf zeroRoot := by
    rw [List.getD_eq_getElem?_getD, fieldTrees_get (encodeFields_length hf), List.getElem?_eq_none (l := List.map Prod.snd _) (by exact Nat.le_of_eq hl)]
    rfl
  have e2 : (fieldTrees (Variant.fulu.fields.map Prod.snd) l').getD 37 (.leaf zeroRoot) = valTree (.vector 64 u64) w := by
    rw [List.getD_eq_getElem?_getD, fieldTrees_get (encodeFields_length hf'), hw]
    rfl
  have h3 := hashed_perfect X (d := 6) (f := fun i => (fieldTrees (Variant.fulu.fields.map Prod.snd) l').getD i (.leaf zeroRoot)) (i := 37) (by decide)
  rw [e1, e2] at hr
  rw [e2] at h3
  have hw' : ∃ a b, valTree (.vector 64 u64) w = .node a b := by
    cases w with
    | seq l =>
      simp only [valTree, seriesTree, show basicSize u64 = some 8 from rfl, chunksTree]
      rw [show depthFor ((64 * 8 + 31) / 32) = 4 by decide]
      exact ⟨_, _, rfl⟩
    | _ => simp [encode] at hy
  obtain ⟨a, c, hn⟩ := hw'
  rw [hn] at hr h3
  exact ⟨a.root X ++ c.root X, h2 _ (h3 _ (by simp [Tree.hashed])), hr.symm⟩

/-- Nor for one of the other fork, of the forks since Electra. -/
theorem C93_forks_partial {s s' : State} {b b' : Bytes} (h : encodeState s = some b) (h' : encodeState s' = some b') (hs : Recent s) (hs' : Recent s')
    (hc : NoCollisionOn X ((stateTree s).hashed X ++ (stateTree s').hashed X))
    (hz : ∀ x ∈ (stateTree s).hashed X ++ (stateTree s').hashed X, X.sha256 x ≠ zeroRoot)
    (e : (stateTree s).root X = (stateTree s').root X) : s = s' := by
  have l1 := fun x hx => List.mem_append_left (as := (stateTree s).hashed X) (bs := (stateTree s').hashed X) (a := x) hx
  have l2 := fun x hx => List.mem_append_right (as := (stateTree s).hashed X) (bs := (stateTree s').hashed X) (b := x) hx
  rcases hs with hs | hs <;> rcases hs' with hs' | hs'
  · exact C93_binding_partial X h h' (hs.trans hs'.symm) hc e
  · obtain ⟨x, hx, hx0⟩ := lookahead_root X h h' hs hs' hc l1 l2 e
    exact absurd hx0 (hz x hx)
  · obtain ⟨x, hx, hx0⟩ := lookahead_root X h' h hs' hs hc l2 l1 e.symm
    exact absurd hx0 (hz x hx)
  · exact C93_binding_partial X h h' (hs.trans hs'.symm) hc e

/-! ## Checkpoints -/

theorem latest_header {s : State} {b : Bytes} (h : encodeState s = some b) : s.host.latestBlockHeader.WF := by
  obtain ⟨_, _, _, _, _, i1, i2, _⟩ := field_at h (i := 4) (name := "latest_block_header") (t := headerTyp) (by cases s.variant <;> rfl)
  have := header_wf i2
  constructor
  · simp only [State.host, i1]; exact this.1
  · simp only [State.host, i1]; exact this.2.2.1
  · simp only [State.host, i1]; exact this.2.2.2.1
  · simp only [State.host, i1]; exact this.2.2.2.2

theorem filled_wf {order : List Variant} {s : State} {b : Bytes} (h : encodeState s = some b) : (filledHeader (stateOps X order) s).WF := by
  have hw := latest_header h
  exact ⟨hw.slot, hw.parentRoot, Tree.root_length X (valTree_chunked _ _), hw.bodyRoot⟩

theorem block_binds {h h' : Spec.Header} (hw : h.WF) (hw' : h'.WF) (hc : NoCollisionOn X (h.tree.hashed X ++ h'.tree.hashed X))
    (e : h.tree.root X = h'.tree.root X) : h.stateRoot = h'.stateRoot := by
  have ht := root_inj X h.tree h'.tree (by simp [Spec.Header.tree, container, perfect, sameShape]; exact trivial) (Spec.Header.tree_chunked hw)
    (Spec.Header.tree_chunked hw') hc e
  have := container_inj (i := 3) ht (by decide) rfl rfl
  exact Tree.leaf.inj this

/-- What is hashed for the block root of a state and for its own. -/
def blockHashed (order : List Variant) (s : State) : List Bytes :=
  (filledHeader (stateOps X order) s).tree.hashed X ++ (stateTree s).hashed X

/-- A checkpoint names one state: no two of them have its block root. -/
theorem C93_block_partial {order : List Variant} {s s' : State} {b b' : Bytes} (h : encodeState s = some b) (h' : encodeState s' = some b')
    (hv : s.variant = s'.variant ∨ Recent s ∧ Recent s' ∧ ∀ x ∈ blockHashed X order s ++ blockHashed X order s', X.sha256 x ≠ zeroRoot)
    (hc : NoCollisionOn X (blockHashed X order s ++ blockHashed X order s'))
    (e : (filledHeader (stateOps X order) s).tree.root X = (filledHeader (stateOps X order) s').tree.root X) : s = s' := by
  have sub : ∀ x ∈ (stateTree s).hashed X ++ (stateTree s').hashed X, x ∈ blockHashed X order s ++ blockHashed X order s' := by
    intro x hx
    simp only [blockHashed, List.mem_append] at hx ⊢
    tauto
  have sub' : ∀ x ∈ (filledHeader (stateOps X order) s).tree.hashed X ++ (filledHeader (stateOps X order) s').tree.hashed X,
      x ∈ blockHashed X order s ++ blockHashed X order s' := by
    intro x hx
    simp only [blockHashed, List.mem_append] at hx ⊢
    tauto
  have hr := block_binds X (filled_wf X h) (filled_wf X h') (fun x hx y hy => hc x (sub' x hx) y (sub' y hy)) e
  have hc' : NoCollisionOn X ((stateTree s).hashed X ++ (stateTree s').hashed X) := fun x hx y hy => hc x (sub x hx) y (sub y hy)
  rcases hv with hv | ⟨hs, hs', hz⟩
  · exact C93_binding_partial X h h' hv hc' hr
  · exact C93_forks_partial X h h' hs hs' hc' (fun x hx => hz x (sub x hx)) hr

theorem checkpoint_eq {σ : Type} (ops : StateOps σ) (spe : Nat) (f : Nat → Res ProviderError σ) (c : Checkpoint) :
    stateAtCheckpoint X ops spe f c = (stateAtEpochBoundary ops spe f c.epoch >>= fun s =>
      ensure (decide (c.root = (filledHeader ops s).tree.root X)) .invalidCheckpoint >>= fun _ => .ok s) := rfl

theorem checkpoint_ok {σ : Type} {ops : StateOps σ} {spe : Nat} {f : Nat → Res ProviderError σ} {c : Checkpoint} {s : σ}
    (h : stateAtCheckpoint X ops spe f c = .ok s) : c.root = (filledHeader ops s).tree.root X ∧ ∃ slot, f slot = .ok s := by
  simp only [stateAtCheckpoint, Res.bind_eq_ok, ensure_eq_ok, decide_eq_true_eq] at h
  obtain ⟨t, h1, _, h2, h3⟩ := h
  cases h3
  refine ⟨h2, ?_⟩
  simp only [stateAtEpochBoundary, stateAtEpoch, Res.bind_eq_ok] at h1
  obtain ⟨u, h4, h5⟩ := h1
  split at h5
  · cases h5; exact ⟨_, h4⟩
  · exact ⟨_, h5⟩

theorem file_encoded {order : List Variant} {dir : Dir} (hdir : ∀ name content, (name, Entry.file content) ∈ dir → content.length < 2 ^ 32) {slot : Nat}
    {s : State} (h : fileStateAtSlot (stateOps X order) dir slot = .ok s) : ∃ b, encodeState s = some b := by
  unfold fileStateAtSlot at h
  split at h <;> try cases h
  rename_i content hl
  split at h <;> cases h
  rename_i hd
  obtain ⟨_, hd⟩ := decodeState_iff.1 hd
  have hm : (stateFile slot, Entry.file content) ∈ dir := by
    clear hdir
    induction dir with
    | nil => cases hl
    | cons p dir ih =>
      obtain ⟨n, en⟩ := p
      simp only [List.lookup_cons] at hl
      split at hl
      · rename_i hn
        cases hl
        have : stateFile slot = n := by simpa using hn
        rw [this]
        exact List.mem_cons_self
      · exact List.mem_cons_of_mem _ (ih hl)
  exact ⟨content, (variant_iff _ (hdir _ _ hm)).1 hd⟩

/-- Whatever the directory holds, the state that is found for a checkpoint is the one that the checkpoint names. -/
theorem C93_checkpoint_partial {order : List Variant} {dir : Dir} (hdir : ∀ name content, (name, Entry.file content) ∈ dir → content.length < 2 ^ 32) {spe : Nat}
    {c : Checkpoint} {s s' : State} {b : Bytes} (hs : encodeState s = some b) (hroot : c.root = (filledHeader (stateOps X order) s).tree.root X)
    (h : stateAtCheckpoint X (stateOps X order) spe (fileStateAtSlot (stateOps X order) dir) c = .ok s')
    (hv : s.variant = s'.variant ∨ Recent s ∧ Recent s' ∧ ∀ x ∈ blockHashed X order s ++ blockHashed X order s', X.sha256 x ≠ zeroRoot)
    (hc : NoCollisionOn X (blockHashed X order s ++ blockHashed X order s')) : s' = s := by
  obtain ⟨h1, slot, h2⟩ := checkpoint_ok X h
  obtain ⟨b', hb'⟩ := file_encoded X hdir h2
  exact (C93_block_partial X hs hb' hv hc (hroot ▸ h1)).symm

/-! ## The assumptions can be met -/

/-- The tree of the last block of a state with the tree of the state in it. -/
def blockTree (s : State) : Tree :=
  container 3 [.leaf (u64Chunk s.host.latestBlockHeader.slot), .leaf (u64Chunk s.host.latestBlockHeader.proposerIndex),
    .leaf s.host.latestBlockHeader.parentRoot, stateTree s, .leaf s.host.latestBlockHeader.bodyRoot]

theorem blockTree_hashed (order : List Variant) (s : State) : ∀ x ∈ blockHashed X order s, x ∈ (blockTree s).hashed X := by
  intro x hx
  simp only [blockHashed, List.mem_append] at hx
  rcases hx with hx | hx
  · have e : (filledHeader (stateOps X order) s).tree = container 3 [.leaf (u64Chunk s.host.latestBlockHeader.slot),
        .leaf (u64Chunk s.host.latestBlockHeader.proposerIndex), .leaf s.host.latestBlockHeader.parentRoot, .leaf ((stateTree s).root X),
        .leaf s.host.latestBlockHeader.bodyRoot] := rfl
    rw [e] at hx
    unfold blockTree
    generalize stateTree s = T at hx ⊢
    simp [container, perfect, Tree.hashed, Tree.root] at hx ⊢
    tauto
  · have := hashed_perfect X (d := 3) (f := fun i => [Tree.leaf (u64Chunk s.host.latestBlockHeader.slot), .leaf (u64Chunk s.host.latestBlockHeader.proposerIndex),
      .leaf s.host.latestBlockHeader.parentRoot, stateTree s, .leaf s.host.latestBlockHeader.bodyRoot].getD i (.leaf zeroRoot)) (i := 3) (by decide) x hx
    exact this

/-- For any two states there is a hash function with which they meet what is assumed of it. -/
theorem hash_exists (order : List Variant) {s s' : State} {b b' : Bytes} (h : encodeState s = some b) (h' : encodeState s' = some b') :
    ∃ X : Ext, NoCollisionOn X (blockHashed X order s ++ blockHashed X order s') ∧
      ∀ x ∈ blockHashed X order s ++ blockHashed X order s', X.sha256 x ≠ zeroRoot := by
  have key : ∀ {s : State} {b : Bytes}, encodeState s = some b → (blockTree s).Chunked ∧ (blockTree s).depth ≤ 103 := by
    intro s b h
    have hw := latest_header h
    have hd := stateTree_depth s
    constructor
    · apply container_chunked
      intro t ht
      simp only [List.mem_cons, List.not_mem_nil, or_false] at ht
      rcases ht with rfl | rfl | rfl | rfl | rfl
      · exact u64Chunk_length _
      · exact u64Chunk_length _
      · exact hw.parentRoot
      · exact valTree_chunked _ _
      · exact hw.bodyRoot
    · apply container_depth 3 100
      intro t ht
      simp only [List.mem_cons, List.not_mem_nil, or_false] at ht
      rcases ht with rfl | rfl | rfl | rfl | rfl <;> first | exact hd | exact Nat.zero_le _
  have k := key h
  have k' := key h'
  have hc : (Tree.node (blockTree s) (blockTree s')).Chunked := ⟨k.1, k'.1⟩
  have hd : (Tree.node (blockTree s) (blockTree s')).depth < 200 := by
    simp only [Tree.depth]
    omega
  have sub : ∀ x ∈ blockHashed (freeExt (.node (blockTree s) (blockTree s'))) order s ++ blockHashed (freeExt (.node (blockTree s) (blockTree s'))) order s',
      x ∈ (Tree.node (blockTree s) (blockTree s')).hashed (freeExt (.node (blockTree s) (blockTree s'))) := by
    intro x hx
    simp only [List.mem_append] at hx
    simp only [Tree.hashed, List.mem_cons, List.mem_append]
    exact .inr (hx.imp (blockTree_hashed _ _ _ x) (blockTree_hashed _ _ _ x))
  refine ⟨freeExt (.node (blockTree s) (blockTree s')), fun x hx y hy => free_noCollision hc hd x (sub x hx) y (sub y hy), fun x hx e => ?_⟩
  exact free_noPreimage hc hd x (sub x hx) (e ▸ List.mem_cons_self)

/-! ## Damaged files -/

/-- A file that is read as another state of the same fork, for the same slot and the same last block, is refused for the checkpoint, although it is
accepted for the slot. -/
theorem C93_refused_partial {order : List Variant} {dir : Dir} {content b : Bytes} {s s' : State} (hcontent : content.length < 2 ^ 32) {spe epoch : Nat}
    (hs : encodeState s = some b) (hslot : satMul epoch spe = s.slot)
    (hfile : dir.lookup (stateFile s.slot) = some (.file content)) (hread : decodeState order content = some s') (hne : s' ≠ s)
    (hv : s'.variant = s.variant) (hslot' : s'.slot = s.slot) (hblock' : s'.host.latestBlockHeader.slot = s.slot)
    (hc : NoCollisionOn X (blockHashed X order s ++ blockHashed X order s')) :
    fileStateAtSlot (stateOps X order) dir s.slot = .ok s' ∧
    stateAtCheckpoint X (stateOps X order) spe (fileStateAtSlot (stateOps X order) dir)
      ⟨epoch, (filledHeader (stateOps X order) s).tree.root X⟩ = .err .invalidCheckpoint := by
  have h1 : fileStateAtSlot (stateOps X order) dir s.slot = .ok s' := by
    simp only [fileStateAtSlot, hfile]
    rw [show (stateOps X order).deserialize content = some s' from hread]
  refine ⟨h1, ?_⟩
  have hs' : encodeState s' = some content := (variant_iff _ hcontent).1 (decodeState_iff.1 hread).2
  have h2 : stateAtEpochBoundary (stateOps X order) spe (fileStateAtSlot (stateOps X order) dir) epoch = .ok s' := by
    simp only [stateAtEpochBoundary, stateAtEpoch, hslot, h1, Res.ok_bind]
    rw [if_pos]
    · rfl
    · exact hblock'.trans hslot'.symm
  have h3 : (filledHeader (stateOps X order) s).tree.root X ≠ (filledHeader (stateOps X order) s').tree.root X := fun e =>
    hne (C93_block_partial X hs hs' (.inl hv.symm) hc e).symm
  rw [checkpoint_eq]
  simp only [h2, Res.ok_bind]
  simp only [ensure, h3, decide_false]
  rfl

/-- A file that was cut off, and is read as a state that lacks some of the pending consolidations, is refused for the checkpoint. -/
theorem C93_cut_partial {order : List Variant} {dir : Dir} {b : Bytes} {s s' : State} (hs : Recent s) (horder : s.variant ∈ order) (h : encodeState s = some b)
    {spe epoch k : Nat} (hk : k < b.length) (hslot : satMul epoch spe = s.slot) (hblock : s.host.latestBlockHeader.slot = s.slot)
    (hfile : dir.lookup (stateFile s.slot) = some (.file (b.take k))) (hread : decodeState order (b.take k) = some s')
    (hc : NoCollisionOn X (blockHashed X order s ++ blockHashed X order s')) :
    fileStateAtSlot (stateOps X order) dir s.slot = .ok s' ∧
    stateAtCheckpoint X (stateOps X order) spe (fileStateAtSlot (stateOps X order) dir)
      ⟨epoch, (filledHeader (stateOps X order) s).tree.root X⟩ = .err .invalidCheckpoint := by
  have hb : b.length < 2 ^ 32 := encode_short h
  obtain ⟨j, hj, va, l, vc, hv1, hva, hjl, hvar, hv2⟩ := (C92_cut hs horder h (Nat.le_of_lt hk) s').1 hread
  have hfield : ∀ {i : Nat} {name : String} {t : Typ}, i < 36 → StateSsz.electraFields[i]? = some (name, t) → s'.field name = s.field name := by
    intro i name t hi hn
    have hn1 := (findIdx_of_nodup (names_nodup _) (recent_field hs hn)).1
    simp only [State.field, hvar, hn1, Option.bind_eq_bind, Option.bind_some, hv1, hv2]
    rw [List.getElem?_append_left (by omega), List.getElem?_append_left (by omega)]
  have e1 := hfield (i := 2) (name := "slot") (t := u64) (by decide) rfl
  have e2 := hfield (i := 4) (name := "latest_block_header") (t := headerTyp) (by decide) rfl
  refine C93_refused_partial X (by rw [List.length_take]; omega) h hslot hfile hread ?_ hvar (by simp only [State.slot, e1])
    (by rw [← hblock]; simp only [State.host, e2]) hc
  intro e
  subst e
  rw [hv1] at hv2
  have := congrArg List.length (Val.seq.inj (List.cons.inj (List.append_inj_right (Val.seq.inj hv2) rfl)).1)
  rw [List.length_take] at this
  omega

/-- A file whose first byte is zero where another one should be is refused for the checkpoint. -/
theorem C93_hole_partial {order : List Variant} {dir : Dir} {byte : UInt8} {rest : Bytes} {s : State} (horder : s.variant ∈ order)
    (h : encodeState s = some (byte :: rest)) (hbyte : byte ≠ 0) {spe epoch : Nat} (hslot : satMul epoch spe = s.slot)
    (hblock : s.host.latestBlockHeader.slot = s.slot) (hfile : dir.lookup (stateFile s.slot) = some (.file (0 :: rest))) :
    ∃ s', s' ≠ s ∧ fileStateAtSlot (stateOps X order) dir s.slot = .ok s' ∧ (NoCollisionOn X (blockHashed X order s ++ blockHashed X order s') →
      stateAtCheckpoint X (stateOps X order) spe (fileStateAtSlot (stateOps X order) dir)
        ⟨epoch, (filledHeader (stateOps X order) s).tree.root X⟩ = .err .invalidCheckpoint) := by
  have hb : (byte :: rest).length < 2 ^ 32 := encode_short h
  obtain ⟨s', hd, hne, hvar, hsl, hf⟩ := C92_hole horder h hbyte
  have hh : s'.host.latestBlockHeader.slot = s.slot := by
    rw [← hblock]
    simp only [State.host, hf "latest_block_header" (by decide)]
  refine ⟨s', hne, ?_, fun hc => (C93_refused_partial X (by simpa using hb) h hslot hfile hd hne hvar hsl hh hc).2⟩
  simp only [fileStateAtSlot, hfile]
  rw [show (stateOps X order).deserialize (0 :: rest) = some s' from hd]

/-! ## The host reads the states as the other properties have them -/

/-- What the host reads of a state since Electra has the types that the other properties ask for, and its tree is that of the state. -/
theorem C93_view {s : State} {b : Bytes} (h : encodeState s = some b) (hs : Recent s) (order : List Variant) :
    s.host.beacon.WF ∧ (filledHeader (hostStateOps X) s.host).WF ∧ s.host.beacon.tree = stateTree s ∧
      filledHeader (hostStateOps X) s.host = filledHeader (stateOps X order) s ∧ s.host.beacon.slot = s.slot := by
  have ht := host_tree h hs
  have he : filledHeader (hostStateOps X) s.host = filledHeader (stateOps X order) s := by
    simp only [filledHeader, hostStateOps, stateOps, ht]
  refine ⟨(host_wf h hs).1, he ▸ filled_wf X h, ht, he, ?_⟩
  simp only [State.host, State.slot, num]
  rfl

/-- The last block and the mixes are read from the fields of these names. -/
theorem C93_fields {s : State} {b : Bytes} (h : encodeState s = some b) : s.fieldTree "latest_block_header" = s.host.latestBlockHeader.tree ∧
    s.host.randaoMixes.length = 65536 ∧
    s.fieldTree "randao_mixes" = perfect 16 fun i => .leaf (s.host.randaoMixes[i]?.getD zeroRoot) := by
  obtain ⟨_, _, _, _, _, i1, i2, i3⟩ := field_at h (i := 4) (name := "latest_block_header") (t := headerTyp) (by cases s.variant <;> rfl)
  obtain ⟨_, _, _, _, _, j1, j2, j3⟩ := field_at h (i := 13) (name := "randao_mixes") (t := .vector 65536 b32) (by cases s.variant <;> rfl)
  have := tree_mixes j2
  refine ⟨?_, ?_, ?_⟩
  · rw [i3, tree_header i2]
    simp only [State.host, i1]
  · simp only [State.host, j1]
    exact this.1
  · rw [j3, this.2]
    simp only [State.host, j1]

/-- The states of a provider, as the host reads them. -/
def hostProvider (f : Nat → Res ProviderError State) (slot : Nat) : Res ProviderError HostState := f slot >>= fun s => .ok s.host

/-- A provider of states since Electra that can be written serves the host as the other properties have it: for a checkpoint it finds the same
state, or fails in the same way. -/
theorem C93_provider {f : Nat → Res ProviderError State} (hf : ∀ slot s, f slot = .ok s → Recent s ∧ (encodeState s).isSome) (order : List Variant)
    (spe : Nat) (c : Checkpoint) :
    stateAtCheckpoint X (hostStateOps X) spe (hostProvider f) c = (stateAtCheckpoint X (stateOps X order) spe f c >>= fun s => .ok s.host) ∧
    ∀ st, stateAtCheckpoint X (hostStateOps X) spe (hostProvider f) c = .ok st → st.beacon.WF ∧ (filledHeader (hostStateOps X) st).WF := by
  have hbound : stateAtEpochBoundary (hostStateOps X) spe (hostProvider f) c.epoch =
      (stateAtEpochBoundary (stateOps X order) spe f c.epoch >>= fun s => .ok s.host) := by
    simp only [stateAtEpochBoundary, stateAtEpoch, hostProvider]
    cases hx : f (satMul c.epoch spe) with
    | err e => rfl
    | panic => rfl
    | ok s =>
      simp only [Res.ok_bind]
      have e1 : ((hostStateOps X).latestBlockHeader s.host).slot = ((stateOps X order).latestBlockHeader s).slot := rfl
      have e2 : (hostStateOps X).slot s.host = (stateOps X order).slot s := rfl
      rw [e1, e2]
      split <;> rfl
  have hall : ∀ s, stateAtEpochBoundary (stateOps X order) spe f c.epoch = .ok s → Recent s ∧ ∃ b, encodeState s = some b := by
    intro s h1
    simp only [stateAtEpochBoundary, stateAtEpoch, Res.bind_eq_ok] at h1
    obtain ⟨u, h4, h5⟩ := h1
    split at h5
    · cases h5
      exact ⟨(hf _ _ h4).1, Option.isSome_iff_exists.1 (hf _ _ h4).2⟩
    · exact ⟨(hf _ _ h5).1, Option.isSome_iff_exists.1 (hf _ _ h5).2⟩
  have heq : stateAtCheckpoint X (hostStateOps X) spe (hostProvider f) c = (stateAtCheckpoint X (stateOps X order) spe f c >>= fun s => .ok s.host) := by
    simp only [checkpoint_eq, hbound]
    cases hx : stateAtEpochBoundary (stateOps X order) spe f c.epoch with
    | err e => rfl
    | panic => rfl
    | ok s =>
      obtain ⟨hs, b, hb⟩ := hall s hx
      obtain ⟨_, _, _, he, _⟩ := C93_view X hb hs order
      simp only [Res.ok_bind, he]
      cases ensure (decide (c.root = (filledHeader (stateOps X order) s).tree.root X)) ProviderError.invalidCheckpoint <;> rfl
  refine ⟨heq, fun st hst => ?_⟩
  rw [heq] at hst
  simp only [Res.bind_eq_ok] at hst
  obtain ⟨s, h1, h2⟩ := hst
  cases h2
  obtain ⟨_, slot, h3⟩ := checkpoint_ok X h1
  obtain ⟨b, hb⟩ := Option.isSome_iff_exists.1 (hf slot s h3).2
  obtain ⟨w1, w2, _⟩ := C93_view X hb (hf slot s h3).1 order
  exact ⟨w1, w2⟩

/-! ## A case -/

theorem plain_host (slot n : Nat) (hs : slot < 2 ^ 64) : (plainState slot n).slot = slot ∧ (plainState slot n).host.latestBlockHeader.slot = 0 := by
  constructor
  · rw [plainState, State.slot, field_front]
    dsimp only
    rw [ofLE_leBytes, Nat.mod_eq_of_lt (by simpa using hs)]
  · have : (plainState slot n).field "latest_block_header" = some (zero headerTyp) := rfl
    simp only [State.host, this]
    rfl

theorem plain_ne {s s' : State} {b b' : Bytes} (h : encodeState s = some b) (h' : encodeState s' = some b') (hl : b.length ≠ b'.length) : s' ≠ s := by
  rintro rfl
  exact hl (by rw [Option.some.inj (h.symm.trans h')])

/-- A directory with the state of slot 0, which has three pending consolidations: for some hash function, the state is found for its checkpoint. With the
file cut off by 16 bytes, another state is found for the slot, and none for the checkpoint. -/
example : ∃ (X : Ext) (b : Bytes) (s' : State), encodeState (plainState 0 3) = some b ∧
    stateAtCheckpoint X (stateOps X [.fulu, .electra]) 32 (fileStateAtSlot (stateOps X [.fulu, .electra]) [(stateFile 0, .file b)])
      ⟨0, (filledHeader (stateOps X [.fulu, .electra]) (plainState 0 3)).tree.root X⟩ = .ok (plainState 0 3) ∧
    fileStateAtSlot (stateOps X [.fulu, .electra]) [(stateFile 0, .file (b.take (b.length - 16)))] 0 = .ok s' ∧ s' ≠ plainState 0 3 ∧
    stateAtCheckpoint X (stateOps X [.fulu, .electra]) 32 (fileStateAtSlot (stateOps X [.fulu, .electra]) [(stateFile 0, .file (b.take (b.length - 16)))])
      ⟨0, (filledHeader (stateOps X [.fulu, .electra]) (plainState 0 3)).tree.root X⟩ = .err .invalidCheckpoint := by
  obtain ⟨b, hb, hlen⟩ := plain_encodes 0 (n := 3) (by decide)
  obtain ⟨b', hb', hlen'⟩ := plain_encodes 0 (n := 2) (by decide)
  obtain ⟨X, hX, _⟩ := hash_exists [.fulu, .electra] (s := plainState 0 3) (s' := plainState 0 2) hb hb'
  obtain ⟨p1, p2⟩ := plain_host 0 3 (by decide)
  have hread : decodeState [.fulu, .electra] (b.take (b.length - 16)) = some (plainState 0 2) := by
    refine (C92_cut (s := plainState 0 3) (.inl rfl) (by decide) hb (by omega) _).2 ⟨1, by omega, ?_⟩
    refine ⟨.bytes (List.replicate 8 0) :: .bytes (List.replicate 32 0) :: .bytes (leBytes 8 0) ::
      zeros (((Variant.electra.fields.map Prod.snd).take 36).drop 3), List.replicate 3 (zero consolidationTyp), [], rfl, by rfl, by decide, rfl, rfl⟩
  have hboth := C93_cut_partial X (dir := [(stateFile 0, .file (b.take (b.length - 16)))]) (s := plainState 0 3) (s' := plainState 0 2) (spe := 32) (epoch := 0)
    (k := b.length - 16) (.inl rfl) (by decide) hb (by omega) (by rw [p1]; rfl) (by rw [p2, p1]) (by rw [p1]; simp [List.lookup]) hread hX
  rw [p1] at hboth
  refine ⟨X, b, plainState 0 2, hb, ?_, hboth.1, ?_, hboth.2⟩
  · have h1 : fileStateAtSlot (stateOps X [.fulu, .electra]) [(stateFile 0, .file b)] 0 = .ok (plainState 0 3) := by
      have hr : (stateOps X [.fulu, .electra]).deserialize b = some (plainState 0 3) := C92_roundtrip (by decide) hb
      simp [fileStateAtSlot, List.lookup, hr]
    have h2 : stateAtEpochBoundary (stateOps X [.fulu, .electra]) 32 (fileStateAtSlot (stateOps X [.fulu, .electra]) [(stateFile 0, .file b)]) 0 =
        .ok (plainState 0 3) := by
      simp only [stateAtEpochBoundary, stateAtEpoch, show satMul 0 32 = 0 from rfl, h1, Res.ok_bind]
      rw [if_pos]
      · rfl
      · exact p2.trans p1.symm
    rw [checkpoint_eq]
    simp only [h2, Res.ok_bind, decide_true, ensure]
    rfl
  · intro e
    exact plain_ne (s := plainState 0 3) (s' := plainState 0 2) hb hb' (by omega) e

end Signal
