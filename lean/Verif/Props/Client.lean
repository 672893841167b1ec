import Verif.Proofs.Client
import Verif.Props.Program
import Verif.Props.Providers
import Mathlib.Tactic.IntervalCases

/-!
# C71: nothing is lost between the node and the input

Specification: `Verif/Spec/Client.lean`.
-/

namespace Signal
open Spec Wire Program Client

section answers
variable {σ : Type} (D : Decoders σ) (node : Request → Reply) (id : Id)

/-- **C71.** `get_block`: a block is returned exactly if the node has answered with it, "no block" exactly if the node has answered with
status 404. Everything else (no connection, another status, content that does not read as a block) is an error. -/
theorem C71_block :
    (∀ b, getBlock D node id = .ok (some b) ↔ Said node (.block id) D.block b) ∧
    (getBlock D node id = .ok none ↔ SaidNone node (.block id)) ∧ getBlock D node id ≠ .panic := by
  unfold getBlock
  refine ⟨fun b => ?_, ?_, ?_⟩
  · rw [foundOr_some, getJson_ok]; rfl
  · rw [foundOr_none, getJson_404]; rfl
  · rw [ne_eq, foundOr_panic]; exact getJson_not_panic

/-- **C71.** The same for `get_block_header`. -/
theorem C71_header :
    (∀ h, getBlockHeader D node id = .ok (some h) ↔ ∃ root, Said node (.header id) D.header (root, h)) ∧
    (getBlockHeader D node id = .ok none ↔ SaidNone node (.header id)) ∧ getBlockHeader D node id ≠ .panic := by
  have key : ∀ o, getBlockHeader D node id = .ok o ↔ ∃ x, foundOr (getJson D.header (node (.header id))) = .ok x ∧
      x.map Prod.snd = o := by
    intro o
    unfold getBlockHeader
    simp [Res.bind_eq_ok]
  refine ⟨fun h => ?_, ?_, ?_⟩
  · rw [key]
    constructor
    · rintro ⟨x, h1, h2⟩
      cases x with
      | none => cases h2
      | some x =>
        obtain ⟨root, h'⟩ := x
        cases h2
        exact ⟨root, getJson_ok.1 (foundOr_some.1 h1)⟩
    · rintro ⟨root, h1⟩
      exact ⟨some (root, h), foundOr_some.2 (getJson_ok.2 h1), rfl⟩
  · rw [key]
    constructor
    · rintro ⟨x, h1, h2⟩
      cases x with
      | none => exact getJson_404.1 (foundOr_none.1 h1)
      | some x => cases h2
    · intro h
      exact ⟨none, foundOr_none.2 (getJson_404.2 h), rfl⟩
  · unfold getBlockHeader
    cases h : foundOr (getJson D.header (node (.header id))) with
    | panic => exact absurd (foundOr_panic.1 h) getJson_not_panic
    | err e => simp
    | ok o => simp

theorem decodeState_some {body : Bytes} {v : Nat} {s : σ} : Client.decodeState D body = some (v, s) ↔
    v ≤ 6 ∧ D.stateAs v body = some s ∧ ∀ v', v < v' → v' ≤ 6 → D.stateAs v' body = none := by
  constructor
  · intro h
    unfold Client.decodeState at h
    simp only [List.findSome?_cons, List.findSome?_nil] at h
    cases h6 : D.stateAs 6 body with
    | some x => rw [h6] at h; cases h; exact ⟨by omega, h6, fun v' _ _ => by omega⟩
    | none =>
    cases h5 : D.stateAs 5 body with
    | some x =>
      simp only [h6, h5, Option.map_none, Option.map_some] at h; cases h
      exact ⟨by omega, h5, fun v' _ _ => by (have : v' = 6 := by omega); subst this; assumption⟩
    | none =>
    cases h4 : D.stateAs 4 body with
    | some x =>
      simp only [h6, h5, h4, Option.map_none, Option.map_some] at h; cases h
      exact ⟨by omega, h4, fun v' _ _ => by interval_cases v' <;> assumption⟩
    | none =>
    cases h3 : D.stateAs 3 body with
    | some x =>
      simp only [h6, h5, h4, h3, Option.map_none, Option.map_some] at h; cases h
      exact ⟨by omega, h3, fun v' _ _ => by interval_cases v' <;> assumption⟩
    | none =>
    cases h2 : D.stateAs 2 body with
    | some x =>
      simp only [h6, h5, h4, h3, h2, Option.map_none, Option.map_some] at h; cases h
      exact ⟨by omega, h2, fun v' _ _ => by interval_cases v' <;> assumption⟩
    | none =>
    cases h1 : D.stateAs 1 body with
    | some x =>
      simp only [h6, h5, h4, h3, h2, h1, Option.map_none, Option.map_some] at h; cases h
      exact ⟨by omega, h1, fun v' _ _ => by interval_cases v' <;> assumption⟩
    | none =>
    cases h0 : D.stateAs 0 body with
    | some x =>
      simp only [h6, h5, h4, h3, h2, h1, h0, Option.map_none, Option.map_some] at h; cases h
      exact ⟨by omega, h0, fun v' _ _ => by interval_cases v' <;> assumption⟩
    | none => simp only [h6, h5, h4, h3, h2, h1, h0, Option.map_none] at h; cases h
  · rintro ⟨hv, hs, hn⟩
    unfold Client.decodeState
    simp only [List.findSome?_cons, List.findSome?_nil]
    interval_cases v <;> simp (disch := omega) [hs, hn]

/-- **C71.** `get_beacon_state` returns a state exactly if the node has answered with it, the state reads as one of the version that the
node has declared, and it does not read as one of a newer version. -/
theorem C71_state (s : σ) : getBeaconState D node id = .ok s ↔
    ∃ status body v, node (.state id) = .response status body ∧ (status < 400 ∨ 600 ≤ status) ∧ D.version body = some v ∧ v ≤ 6 ∧
      D.stateAs v body = some s ∧ ∀ v', v < v' → v' ≤ 6 → D.stateAs v' body = none := by
  have hdec : ∀ body x, decodeVersioned D body = some x ↔ D.version body = some x.1 ∧ Client.decodeState D body = some x.2 := by
    intro body x
    obtain ⟨x1, x2, x3⟩ := x
    unfold decodeVersioned
    cases D.version body <;> cases Client.decodeState D body <;> simp
  unfold getBeaconState
  cases h : getJson (decodeVersioned D) (node (.state id)) with
  | panic => exact absurd h getJson_not_panic
  | err e =>
    simp only [reduceCtorEq, false_iff]
    rintro ⟨status, body, v, h1, h2, h3, h4⟩
    have := (getJson_ok (decode := decodeVersioned D) (a := (v, v, s))).2
      ⟨status, body, h1, h2, (hdec _ _).2 ⟨h3, (decodeState_some D).2 h4⟩⟩
    rw [h] at this
    cases this
  | ok x =>
    obtain ⟨version, v, s'⟩ := x
    obtain ⟨status, body, h1, h2, h3⟩ := getJson_ok.1 h
    obtain ⟨h3v, h4⟩ := (hdec _ _).1 h3
    simp only at h3v h4
    clear h3
    have h3 := h3v
    dsimp only
    have uniq : ∀ v'' s'', v'' ≤ 6 ∧ D.stateAs v'' body = some s'' ∧ (∀ v', v'' < v' → v' ≤ 6 → D.stateAs v' body = none) →
        v'' = v ∧ s'' = s' := by
      intro v'' s'' hh
      have := (decodeState_some D).2 hh
      rw [h4] at this
      cases this
      exact ⟨rfl, rfl⟩
    constructor
    · intro hh
      split at hh
      · cases hh
      · rename_i he
        simp only [ne_eq, Decidable.not_not] at he
        subst he
        cases hh
        exact ⟨status, body, version, h1, h2, h3, (decodeState_some D).1 h4⟩
    · rintro ⟨status', body', v'', k1, k2, k3, k4⟩
      rw [h1] at k1
      cases k1
      rw [h3] at k3
      cases k3
      obtain ⟨rfl, rfl⟩ := uniq _ _ k4
      simp

/-- **C71.** If what a node declares as version `v` holds, read as version `v`, the state of the chain for the slot, then the persistent
provider is only given states of the chain, whatever the content gives when it is read as another version. (With `C47_never_wrong`
it only answers with states of the chain then.) -/
theorem C71_honest_node (chain : Nat → σ)
    (h : ∀ slot status body v s, node (.state (.slot slot)) = .response status body → D.version body = some v →
      D.stateAs v body = some s → s = chain slot) : Honest chain (apiAnswer D node) := by
  intro slot s hs
  have : getBeaconState D node (.slot slot) = .ok s := by
    unfold apiAnswer at hs
    split at hs
    · cases hs; assumption
    · cases hs
  obtain ⟨status, body, v, h1, -, h2, -, h3, -⟩ := (C71_state D node _ s).1 this
  exact h _ _ _ _ _ h1 h2 h3

/-- **C71.** `get_consensus_state` returns the current justified and the finalized checkpoint of the node's answer; it aborts exactly if
these are no valid state. -/
theorem C71_consensus_state :
    (∀ s, getConsensusState D node id = .ok s ↔ ValidState s ∧
      ∃ previous, Said node (.finality id) D.finality (previous, s.currentJustified, s.finalized)) ∧
    (getConsensusState D node id = .panic ↔ ∃ previous justified finalized,
      Said node (.finality id) D.finality (previous, justified, finalized) ∧ ¬ ValidState ⟨justified, finalized⟩) := by
  unfold getConsensusState
  cases h : getJson D.finality (node (.finality id)) with
  | panic => exact absurd h getJson_not_panic
  | err e =>
    have hno : ∀ x, ¬ Said node (.finality id) D.finality x := by
      intro x hx
      rw [getJson_ok.2 hx] at h
      cases h
    simp [hno]
  | ok x =>
    obtain ⟨a, b, c⟩ := x
    have hyes : ∀ x, Said node (.finality id) D.finality x ↔ x = (a, b, c) := by
      intro x
      constructor
      · intro hx
        rw [getJson_ok.2 hx] at h
        cases h
        rfl
      · rintro rfl
        exact getJson_ok.1 h
    simp only [Res.ok_bind, ConsensusState.new, hyes, Prod.mk.injEq]
    refine ⟨fun s => ?_, ?_⟩
    · simp only [Res.bind_eq_ok, assert_eq_ok, isValid_iff, Res.pure_eq, Res.ok.injEq]
      constructor
      · rintro ⟨_, h1, rfl⟩
        exact ⟨h1, a, rfl, rfl, rfl⟩
      · rintro ⟨h1, _, rfl, rfl, rfl⟩
        exact ⟨(), h1, rfl⟩
    · have : (⟨b, c⟩ : ConsensusState).isValid = false ↔ ¬ ValidState ⟨b, c⟩ := by
        rw [← isValid_iff, Bool.not_eq_true]
      constructor
      · intro hp
        refine ⟨a, b, c, ⟨rfl, rfl, rfl⟩, this.1 ?_⟩
        cases hv : (⟨b, c⟩ : ConsensusState).isValid with
        | false => rfl
        | true => rw [hv] at hp; cases hp
      · rintro ⟨_, _, _, ⟨rfl, rfl, rfl⟩, hv⟩
        rw [this.2 hv]
        rfl

end answers

/-- **C71.** If an input was prepared, then for every slot from the first slot of the first target epoch to the first slot after the last
one, the node has answered with the block, all of whose votes could be read, or has said that there is none; the input holds exactly the
votes of these blocks for the links from the old to the new consensus state. Slot numbers end at `2 ^ 64 - 1`; epochs are read as 64-bit
numbers (`hD`). If at the start of an epoch only earlier epochs are justified, then all these slots are in the past of the last state that
the node has given, so no vote is missing because its block was not there yet. Missing: the slots read are more than those of the target
epochs, the only ones the property speaks of. -/
theorem C71_every_vote_partial (W : WireExt) (X : Ext) (order : List Nat → List Nat) (spec : ChainSpec) (cfg : Config) (bound : Nat)
    (D : Decoders HostState) (r : Replies) (provider : Nat → Res ProviderError HostState) (genesisRoot : Res ProviderError Root)
    (decompress : Bytes → Option Bytes) (epoch : Nat) (p : Prepared)
    (hD : ∀ body previous justified finalized, D.finality body = some (previous, justified, finalized) → justified.epoch < 2 ^ 64)
    (hp : prepare W X order spec cfg bound (Client.world D r provider genesisRoot decompress) epoch = some (.ok p)) :
    ∃ (input : GuestInput) (links : List Link) (lo hi : Link) (first last lastState : Nat),
      p.inputBytes = encodeInput W input ∧ Run p.pre links p.post ∧ lo ∈ links ∧ hi ∈ links ∧
      (∀ l ∈ links, lo.target.epoch ≤ l.target.epoch ∧ l.target.epoch ≤ hi.target.epoch) ∧
      first = min (lo.target.epoch * spec.slotsPerEpoch) (2 ^ 64 - 1) ∧
      last = min ((hi.target.epoch + 1) * spec.slotsPerEpoch) (2 ^ 64 - 1) ∧
      (∀ slot, first ≤ slot → slot ≤ last → SaidNone r.blocks (.block (.slot slot)) ∨
        ∃ (header : Header) (votes : List Attestation), Said r.blocks (.block (.slot slot)) D.block (header, .electra (votes.map some)) ∧
          ∀ a ∈ votes, linkOf a ∈ links → a ∈ input.attestations) ∧
      (∀ a ∈ input.attestations, linkOf a ∈ links ∧ ∃ (slot : Nat) (header : Header) (votes : List Attestation), first ≤ slot ∧ slot ≤ last ∧
        Said r.blocks (.block (.slot slot)) D.block (header, .electra (votes.map some)) ∧ a ∈ votes) ∧
      (PlausibleNode D spec.slotsPerEpoch r.walk → lastState < 2 ^ 64 → last ≤ lastState) ∧
      ∃ previous, Said r.walk (.finality (.slot (min lastState (2 ^ 64 - 1)))) D.finality
        (previous, p.post.currentJustified, p.post.finalized) := by
  obtain ⟨rd, trusted, st, input, next, links, -, -, -, hs, -, -, hv, hpf, hb, hpre⟩ := prepare_ok hp
  set w := Client.world D r provider genesisRoot decompress with hw
  have hwalk : ∀ slot t, w.walk slot = .ok t ↔ ValidState t ∧
      ∃ previous, Said r.walk (.finality (.slot slot)) D.finality (previous, t.currentJustified, t.finalized) := by
    intro slot t
    rw [← (C71_consensus_state D r.walk (.slot slot)).1 t]
    exact asHost_ok
  have hblk : ∀ slot o, w.getBlock slot = .ok o ↔ ∃ x, getBlock D r.blocks (.slot slot) = .ok x ∧ x.map Prod.snd = o := by
    intro slot o
    show ((asHost (getBlock D r.blocks (.slot slot))) >>= fun b => pure (b.map Prod.snd)) = .ok o ↔ _
    simp only [Res.bind_eq_ok, asHost_ok, Res.pure_eq, Res.ok.injEq]
  have hu : ∀ slot t, w.walk slot = .ok t → t.currentJustified.epoch < 2 ^ 64 := by
    intro slot t h
    obtain ⟨-, previous, status, body, -, -, ha⟩ := (hwalk _ _).1 h
    exact hD _ _ _ _ ha
  have hatt : input.attestations = rd.attestations := toInput_attestations hpf
  obtain ⟨h1, h2, h3, h4⟩ := C58_reaches_next X cfg rd.toReader _ _ _ _ _ _ _ _ _ _ _ _ hu hs rfl rfl hv
  subst h2
  obtain ⟨start, -, h6, -, h7⟩ := hostSearch_ok hs
  obtain ⟨e, h8, h9, h10⟩ := justifications_links h6
  have hne : links ≠ [] := by
    obtain ⟨-, -, -, ⟨before, l, t, rfl, -⟩, -⟩ := C43_links_replay _ _ _ _ _ _ _ hu h6
    simp
  obtain ⟨lo, hi, blocks, first, last, k1, k2, k3, hfirst, hlast, k4, k5, k6⟩ := C44_collects_partial _ _ _ _ hne h4.nodup h7
  obtain ⟨mn, mx, k7, k8, k9⟩ := collect_shape hne h7
  have hmn : mn = lo.target.epoch := by
    obtain ⟨h, h'⟩ := List.min?_eq_some_iff.1 k7
    obtain ⟨l, hl, rfl⟩ := List.mem_map.1 h
    have := h' _ (List.mem_map_of_mem k1)
    have := (k3 l hl).1
    omega
  have hmx : mx = hi.target.epoch := by
    obtain ⟨h, h'⟩ := List.max?_eq_some_iff.1 k8
    obtain ⟨l, hl, rfl⟩ := List.mem_map.1 h
    have := h' _ (List.mem_map_of_mem k2)
    have := (k3 l hl).2
    omega
  have e1 : satMul mn spec.slotsPerEpoch = first := by rw [hmn, hfirst]; rfl
  rw [e1, endSlot_eq, hmx, ← hlast] at k9
  have hrange : ∀ slot, first ≤ slot → slot ≤ last → slot ∈ slotRange first last := by
    intro slot s1 s2
    unfold slotRange
    exact List.mem_map.2 ⟨slot - first, List.mem_range.2 (by omega), by omega⟩
  refine ⟨input, links, lo, hi, first, last, e * spec.slotsPerEpoch, hb, ?_, k1, k2, k3, hfirst, hlast, ?_, ?_, ?_, ?_⟩
  · rw [hpre]; exact h4
  · intro slot s1 s2
    obtain ⟨o, ho⟩ := k4 slot s1 s2
    obtain ⟨x, hx, hxo⟩ := (hblk _ _).1 ho
    cases x with
    | none => exact .inl ((C71_block D r.blocks (.slot slot)).2.1.1 hx)
    | some x =>
      right
      obtain ⟨header, b⟩ := x
      cases hxo
      obtain ⟨votes, rfl⟩ := k9 slot (hrange slot s1 s2) b ho
      refine ⟨header, votes, ((C71_block D r.blocks (.slot slot)).1 _).1 hx, fun a ha hal => ?_⟩
      rw [hatt, k6]
      refine List.mem_flatMap.2 ⟨linkOf a, hal, mem_votesFor.2 ⟨?_, rfl⟩⟩
      have hm : (Res.ok (some (Block.electra (votes.map some))) : Res HostError (Option Block)) ∈ blocks.map .ok := by
        rw [← k5, show (Res.ok (some (Block.electra (votes.map some))) : Res HostError (Option Block)) = w.getBlock slot from ho.symm]
        exact List.mem_map_of_mem (List.mem_range'_1.2 ⟨s1, by omega⟩)
      obtain ⟨b', hb', hbb⟩ := List.mem_map.1 hm
      cases hbb
      refine List.mem_flatMap.2 ⟨_, hb', ?_⟩
      simpa using ha
  · intro a ha
    rw [hatt, k6] at ha
    obtain ⟨l, hl, hal⟩ := List.mem_flatMap.1 ha
    obtain ⟨ha, rfl⟩ := mem_votesFor.1 hal
    refine ⟨hl, ?_⟩
    obtain ⟨b, hb', hab⟩ := List.mem_flatMap.1 ha
    have hm : (Res.ok b : Res HostError (Option Block)) ∈
        (List.range' first (last + 1 - first)).map w.getBlock := by
      rw [k5]
      exact List.mem_map_of_mem hb'
    obtain ⟨slot, hsl, hgb⟩ := List.mem_map.1 hm
    obtain ⟨s1, s2⟩ := List.mem_range'_1.1 hsl
    have s2 : slot ≤ last := by omega
    cases b with
    | none => cases hab
    | some b =>
      obtain ⟨votes, rfl⟩ := k9 slot (hrange slot s1 s2) b hgb
      obtain ⟨x, hx, hxo⟩ := (hblk _ _).1 hgb
      cases x with
      | none => cases hxo
      | some x =>
        obtain ⟨header, b⟩ := x
        cases hxo
        exact ⟨slot, header, votes, s1, s2, ((C71_block D r.blocks (.slot slot)).1 _).1 hx, by simpa using hab⟩
  · intro hnode hlt
    obtain ⟨e', t, h11, h12, h13, h14⟩ := h10 hi k2
    have he' : e' * spec.slotsPerEpoch ≤ e * spec.slotsPerEpoch := Nat.mul_le_mul_right _ h12
    unfold ChainAt at h13
    rw [Nat.min_eq_left (by omega)] at h13
    obtain ⟨-, previous, ha⟩ := (hwalk _ _).1 h13
    have := hnode e' _ _ _ (by omega) (by omega) ha
    rw [← h14] at this
    rw [hlast]
    exact (Nat.min_le_left _ _).trans ((Nat.mul_le_mul_right _ this).trans he')
  · exact ((hwalk _ _).1 h9).2

/-! ## A node -/

/-- The content of the answers in the example: one byte, the number of the item. -/
def cxBlocks : List (Header × Block) :=
  [(gxHdr, .electra []), (gxHdr6, .electra ((gxVotes.take 4).map some)), (gxHdr6, .electra ((gxVotes.drop 4).map some)),
   (fpHdr9, .electra (fpVotes.map some))]

def cxStates : List (Checkpoint × Checkpoint × Checkpoint) :=
  [(gxC3, gxC3, ⟨2, exRoot32 20⟩), (gxC3, exC4, gxC3), (exC4, gxC6, gxC3), (gxC6, exC7, gxC6), (exC7, fpC9, gxC6), (fpC9, fpC10, fpC9)]

/-- States: the first byte is the declared version, the second is the version the content was written in, which reads as an older one as
well if it is 5. -/
def cxDecoders : Decoders HostState where
  header body := match body with
    | [i] => (cxBlocks[i.toNat]?).map (fun b => (exRoot32 0, b.1))
    | _ => none
  block body := match body with
    | [i] => cxBlocks[i.toNat]?
    | _ => none
  version body := body[0]?.map UInt8.toNat
  stateAs v body := match body with
    | [_, x] => if v = x.toNat ∨ (x = 5 ∧ v < 5) then some (fxState 12 gxVs) else none
    | _ => none
  finality body := match body with
    | [i] => cxStates[i.toNat]?
    | _ => none

/-- The replies of a node that has no block in most slots. -/
def cxNode : Request → Reply
  | .block (.slot n) =>
    if n = 25 then .response 200 [1] else if n = 29 then .response 200 [2]
    else if n = 41 then .response 200 [3] else .response 404 []
  | .header (.root r) => if r = gxHdr6.tree.root exExt then .response 200 [1] else .response 404 []
  | .finality (.slot n) =>
    if n < 16 then .noResponse
    else if n < 20 then .response 200 [0]
    else if n < 28 then .response 200 [1]
    else if n < 32 then .response 200 [2]
    else if n < 40 then .response 200 [3]
    else if n < 44 then .response 200 [4]
    else if n < 48 then .response 200 [5]
    else .response 500 []
  | _ => .badUrl

/-- The replies to the first request, when the node had one block. -/
def cxFirst : Request → Reply
  | .block (.slot n) => if n = 12 then .response 200 [0] else .response 404 []
  | _ => .badUrl

def cxReplies : Replies := ⟨cxFirst, cxNode, cxNode, cxNode, cxNode⟩

theorem cx_world : Client.world cxDecoders cxReplies fxProvider (.ok (exRoot32 77)) (fun pk => some (pk ++ List.replicate 48 0)) =
    fpWorld1 := by
  have h1 : (fun slot => asHost (getConsensusState cxDecoders cxNode (.slot slot))) = fpAsk := by
    funext slot
    unfold getConsensusState fpAsk cxNode
    dsimp only
    split_ifs <;> rfl
  have h2 : (fun slot => do
      let block ← asHost (getBlock cxDecoders cxNode (.slot slot))
      return block.map Prod.snd : Nat → Res HostError (Option Block)) = fpBlocks := by
    funext slot
    unfold getBlock fpBlocks cxNode
    dsimp only
    split_ifs <;> rfl
  have h3 : (fun slot => do
      let block ← asHost (getBlock cxDecoders cxFirst (.slot slot))
      return block.map Prod.fst : Nat → Res HostError (Option Header)) = fpWorld1.boundaryBlock := by
    funext slot
    show _ = Res.ok (if slot = 12 then some gxHdr else none)
    unfold getBlock cxFirst
    dsimp only
    split_ifs <;> rfl
  have h4 : (fun root => asHost (getBlockHeader cxDecoders cxNode (.root root))) = fpWorld1.headers := by
    funext root
    show _ = Res.ok (if root = gxHdr6.tree.root exExt then some gxHdr6 else none)
    unfold getBlockHeader cxNode
    dsimp only
    split_ifs <;> rfl
  unfold Client.world cxReplies
  dsimp only
  rw [h1, h2, h3, h4]
  rfl

theorem cx_plausible : PlausibleNode cxDecoders exSpec.slotsPerEpoch cxNode := by
  have key : ∀ slot x, Said cxNode (.finality (.slot slot)) cxDecoders.finality x → 16 ≤ slot ∧ slot < 48 ∧
      x.2.1.epoch = if slot < 20 then 3 else if slot < 28 then 4 else if slot < 32 then 6 else if slot < 40 then 7
        else if slot < 44 then 9 else 10 := by
    rintro slot x ⟨status, body, h1, h2, h3⟩
    unfold cxNode at h1
    dsimp only at h1
    split_ifs at h1 <;> cases h1 <;> first | (cases h3; refine ⟨by omega, by omega, ?_⟩; simp (disch := omega) only [if_pos, if_neg]; rfl) | omega
  intro e previous justified finalized he hlt hs
  obtain ⟨h1, h2, h3⟩ := key _ _ hs
  have hspe : exSpec.slotsPerEpoch = 4 := rfl
  simp only [hspe] at *
  rw [h3]
  split_ifs <;> omega

theorem cx_epochs (body : Bytes) (previous justified finalized : Checkpoint)
    (h : cxDecoders.finality body = some (previous, justified, finalized)) : justified.epoch < 2 ^ 64 := by
  have key : ∀ x ∈ cxStates, x.2.1.epoch < 2 ^ 64 := by decide
  unfold cxDecoders at h
  dsimp only at h
  split at h
  · exact key _ (List.mem_of_getElem? h)
  · cases h

/-- The node of the example is plausible, and an input is prepared from its answers: `C71_every_vote_partial` applies. -/
example : PlausibleNode cxDecoders exSpec.slotsPerEpoch cxReplies.walk ∧
    (∀ body previous justified finalized, cxDecoders.finality body = some (previous, justified, finalized) → justified.epoch < 2 ^ 64) ∧
    ∃ p, prepare fpWire exExt id exSpec Config.default 9
    (Client.world cxDecoders cxReplies fxProvider (.ok (exRoot32 77)) (fun pk => some (pk ++ List.replicate 48 0))) 3 = some (.ok p) ∧
    p.post = ⟨exC7, gxC6⟩ := by
  obtain ⟨input, -, hp⟩ := fp_prepared1
  exact ⟨cx_plausible, cx_epochs, _, by rw [cx_world]; exact hp, rfl⟩

/-- Status 503, no answer, and content that is no block: errors, not "no block". -/
example : getBlock cxDecoders (fun _ => .response 503 [1]) .head = .err (.http (some 503)) ∧
    getBlock cxDecoders (fun _ => .noResponse) .head = .err .middleware ∧
    getBlock cxDecoders (fun _ => .response 200 [1, 2]) .head = .err (.http none) ∧
    getBlock cxDecoders (fun _ => .response 404 [1]) .head = .ok none := ⟨rfl, rfl, rfl, rfl⟩

/-- An Electra state that is declared as one is read, although it reads as an older one too; declared as Deneb it is rejected. -/
example : (∃ s, getBeaconState cxDecoders (fun _ => .response 200 [5, 5]) .head = .ok s) ∧
    getBeaconState cxDecoders (fun _ => .response 200 [4, 5]) .head = .err .versionMismatch := ⟨⟨_, rfl⟩, rfl⟩

/-- `C71_honest_node` for a node that declares what it has. -/
example : Honest (fun _ => fxState 12 gxVs) (apiAnswer cxDecoders (fun _ => .response 200 [5, 5])) :=
  C71_honest_node _ _ _ (by
    intro slot status body v s h1 h2 h3
    cases h1
    cases h2
    exact (Option.some.inj h3).symm)

/-- A node that reports a finalized checkpoint after the justified one ends the program. -/
example : getConsensusState { cxDecoders with finality := fun _ => some (gxC3, gxC3, exC4) } (fun _ => .response 200 []) .head = .panic :=
  rfl

end Signal
