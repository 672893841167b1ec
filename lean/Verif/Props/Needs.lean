import Verif.Model.Program
import Verif.Props.Requests
import Verif.Props.Follow
import Verif.Props.Client

/-!
# C101: what a prepared input depends on
-/

namespace Signal
open Spec Program

/-! ## The verification -/

/-- Two readers with the same answers about some epochs. -/
structure SameAt (E : Nat → Prop) (R R' : Reader) : Prop where
  spec : R'.spec = R.spec
  genesis : R'.genesisValidatorsRoot = R.genesisValidatorsRoot
  fork : ∀ e, E e → R'.fork e = R.fork e
  active : ∀ e, E e → R'.activeValidators e = R.activeValidators e
  mix : ∀ e i, E e → R'.randaoMix e i = R.randaoMix e i

section
variable {E : Nat → Prop} {R R' : Reader} (h : SameAt E R R') (X : Ext)
include h

theorem SameAt.seed {e : Nat} (he : E e) (d : Bytes) : R'.getSeed X e d = R.getSeed X e d := by
  unfold Reader.getSeed Reader.getRandaoMix
  simp only [h.spec, h.mix e _ he]

theorem SameAt.committees {e : Nat} (he : E e) (active : OMap ValidatorInfo) : computeCommittees X R' active e = computeCommittees X R active e := by
  unfold computeCommittees
  simp only [h.spec, h.seed X he]

theorem SameAt.indexed {data : AttestationData} (he : E data.target.epoch) (vs : List ValidatorInfo) (sig : Bytes) :
    isValidIndexedAttestation X R' vs data sig = isValidIndexedAttestation X R vs data sig := by
  unfold isValidIndexedAttestation
  simp only [h.spec, h.genesis, h.fork _ he]

theorem SameAt.attestation {a : Attestation} (he : E a.data.target.epoch) (active : OMap ValidatorInfo) (c : CommitteeCache) :
    processAttestation X R' active c a = processAttestation X R active c a := by
  unfold processAttestation
  cases a with
  | base a => rfl
  | electra a =>
    have : E a.data.target.epoch := he
    simp only [h.spec, h.indexed X this]

theorem SameAt.participants {as : List Attestation} (he : ∀ a ∈ as, E a.data.target.epoch) (active : OMap ValidatorInfo) (c : CommitteeCache) : ∀ acc,
    collectParticipants X R' active c as acc = collectParticipants X R active c as acc := by
  induction as with
  | nil => intro acc; rfl
  | cons a as ih =>
    intro acc
    unfold collectParticipants
    rw [h.attestation X (he a List.mem_cons_self)]
    simp only [ih (fun b hb => he b (List.mem_cons_of_mem _ hb))]

theorem SameAt.group {link : Link} {as : List Attestation} (hl : E link.target.epoch) (he : ∀ a ∈ as, E a.data.target.epoch) (cfg : Config)
    (trusted : Checkpoint) (state : ConsensusState) : processGroup X cfg R' trusted state link as = processGroup X cfg R trusted state link as := by
  unfold processGroup
  simp only [h.spec, h.active _ hl, h.committees X hl, h.participants X he]

theorem SameAt.loop (cfg : Config) (trusted : Checkpoint) {gs : List (Link × List Attestation)}
    (hg : ∀ g ∈ gs, E g.1.target.epoch ∧ ∀ a ∈ g.2, E a.data.target.epoch) : ∀ state,
    verifyLoop X cfg R' trusted state gs = verifyLoop X cfg R trusted state gs := by
  induction gs with
  | nil => intro state; rfl
  | cons g gs ih =>
    obtain ⟨link, as⟩ := g
    intro state
    unfold verifyLoop
    rw [h.group X (hg _ List.mem_cons_self).1 (hg _ List.mem_cons_self).2]
    simp only [ih (fun g hm => hg g (List.mem_cons_of_mem _ hm))]

end

theorem chunk_epochs {E : Nat → Prop} {atts : List Attestation} (h : ∀ a ∈ atts, E a.data.target.epoch) :
    ∀ g ∈ chunkBy attLink atts, E g.1.target.epoch ∧ ∀ a ∈ g.2, E a.data.target.epoch := by
  rintro ⟨k, g⟩ hg
  obtain ⟨h1, h2⟩ := chunkBy_key hg
  have hin : ∀ a ∈ g, a ∈ atts := fun a ha => by
    rw [← chunkBy_flatten (key := attLink) atts]
    exact List.mem_flatMap.2 ⟨_, hg, ha⟩
  refine ⟨?_, fun a ha => h a (hin a ha)⟩
  obtain ⟨a, ha⟩ := List.exists_mem_of_ne_nil _ h1
  have := h2 a ha
  exact this ▸ h a (hin a ha)

theorem verify_same {E : Nat → Prop} {R R' : Reader} (h : SameAt E R R') (X : Ext) (cfg : Config) {atts : List Attestation} (ha : R.attestations = .ok atts)
    (he : ∀ a ∈ atts, E a.data.target.epoch) (ha' : R'.attestations = .ok atts) (hc : R'.consensusState = R.consensusState)
    {post : ConsensusState} {slot : Nat} (hv : verify X cfg R = .ok (post, slot))
    (hs : R'.slotForBlock post.finalized.root = R.slotForBlock post.finalized.root) : verify X cfg R' = .ok (post, slot) := by
  unfold verify at hv ⊢
  rw [hc, ha']
  rw [ha] at hv
  cases h1 : R.consensusState with
  | panic => rw [h1] at hv; cases hv
  | err e => rw [h1] at hv; cases hv
  | ok state =>
    rw [h1] at hv
    simp only [Res.unwrap, Res.ok_bind] at hv ⊢
    rw [h.loop X cfg _ (chunk_epochs he)]
    obtain ⟨s', e1, hv⟩ := Res.bind_eq_ok.1 hv
    rw [e1]
    obtain ⟨u, e2, hv⟩ := Res.bind_eq_ok.1 hv
    obtain ⟨n, e3, hv⟩ := Res.bind_eq_ok.1 hv
    simp only [Res.pure_eq, Res.ok.injEq, Prod.mk.injEq] at hv
    obtain ⟨rfl, rfl⟩ := hv
    rw [Res.ok_bind, e2, Res.ok_bind, hs, e3]
    rfl

/-! ## The reader of the host -/

/-- The reader of the host with other answers of the state provider and other block headers. -/
def HostReader.other (r : HostReader) (provider : Nat → Res ProviderError HostState) (headers : Root → Res HostError (Option Spec.Header)) : HostReader :=
  { r with provider := provider, headers := headers }

section
variable {E : Nat → Prop} {r : HostReader} {p : Nat → Res ProviderError HostState} {hd : Root → Res HostError (Option Spec.Header)}
  (h : ∀ e, E e → p (startSlot r.spec.slotsPerEpoch e) = r.provider (startSlot r.spec.slotsPerEpoch e))
include h

theorem other_state {e : Nat} (he : E e) : (r.other p hd).state e = r.state e := by
  have := h e he
  unfold HostReader.state stateAtEpoch HostReader.other
  unfold startSlot at this
  dsimp only
  rw [this]

theorem other_active {e : Nat} (he : E e) : (r.other p hd).activeValidators e = r.activeValidators e := by
  unfold HostReader.activeValidators
  rw [other_state h he]
  rfl

theorem other_mix {e : Nat} (he : E e) (i : Nat) : (r.other p hd).randaoMix e i = r.randaoMix e i := by
  unfold HostReader.randaoMix
  rw [other_state h he]

theorem other_fork {e : Nat} (he : E e) : (r.other p hd).fork e = r.fork e := by
  unfold HostReader.fork
  rw [other_state h he]

theorem other_same (t : Nat) : SameAt E (preflightReader t r.toReader) (preflightReader t (r.other p hd).toReader) where
  spec := rfl
  genesis := rfl
  fork e he := by
    unfold preflightReader HostReader.toReader
    dsimp only
    rw [other_fork h he]
  active e he := by
    unfold preflightReader HostReader.toReader
    dsimp only
    rw [other_active h he]
  mix e i he := by
    unfold preflightReader HostReader.toReader
    dsimp only
    rw [other_mix h he]

theorem other_builder {e : Nat} (he : E e) : newPatchBuilder (r.other p hd) e = newPatchBuilder r e := by
  have := h e he
  unfold newPatchBuilder stateAtEpoch HostReader.other
  unfold startSlot at this
  dsimp only
  rw [this]

theorem other_mixPatches {l : List (Nat × OSet)} (hl : ∀ x ∈ l, E x.1) : ∀ m, mixPatches (r.other p hd) l m = mixPatches r l m := by
  induction l with
  | nil => intro m; rfl
  | cons x l ih =>
    obtain ⟨e, is⟩ := x
    intro m
    unfold mixPatches
    rw [other_builder h (hl _ List.mem_cons_self)]
    simp only [ih (fun y hy => hl y (List.mem_cons_of_mem _ hy))]

theorem other_exitPatches {t : Nat} {vs : List Spec.Validator} {l : List Nat} (hl : ∀ e ∈ l, E e) : ∀ m,
    exitPatches (r.other p hd) t vs l m = exitPatches r t vs l m := by
  induction l with
  | nil => intro m; rfl
  | cons e l ih =>
    intro m
    unfold exitPatches
    rw [other_builder h (hl _ List.mem_cons_self)]
    simp only [ih (fun y hy => hl y (List.mem_cons_of_mem _ hy))]

end

theorem other_slot {r : HostReader} {p : Nat → Res ProviderError HostState} {hd : Root → Res HostError (Option Spec.Header)} {root : Root}
    (h : hd root = r.headers root) : (r.other p hd).slotForBlock root = r.slotForBlock root := by
  unfold HostReader.slotForBlock HostReader.other
  dsimp only
  rw [h]

/-- What is recorded is about some epochs and one block. -/
structure LogIn (E : Nat → Prop) (root : Root) (log : PreflightLog) : Prop where
  active : ∀ e ∈ log.validatorEpochs, E e
  mix : ∀ x ∈ log.mixEpochs, E x.1
  block : ∀ b ∈ log.blockReads, b = root

/-- What is asked is about some epochs and one block. -/
def QueryIn (E : Nat → Prop) (root : Root) : Query → Prop
  | .activeValidators e => E e
  | .randaoMix e _ => E e
  | .slotForBlock b => b = root

theorem queries_in {E : Nat → Prop} {X : Ext} {spec : ChainSpec} {atts : List Attestation} {root : Root} (he : ∀ a ∈ atts, E a.data.target.epoch) :
    ∀ q ∈ verifyQueries X spec atts root, QueryIn E root q := by
  intro q hq
  unfold verifyQueries at hq
  rcases List.mem_append.1 hq with hq | hq
  · obtain ⟨⟨l, g⟩, hg, hq⟩ := List.mem_flatMap.1 hq
    have := (chunk_epochs he _ hg).1
    simp only [List.mem_cons, List.not_mem_nil, or_false] at hq
    rcases hq with rfl | rfl <;> exact this
  · cases List.mem_singleton.1 hq
    rfl

theorem query_in {E : Nat → Prop} {root : Root} {r : HostReader} {t : Nat} {log log' : PreflightLog} {q : Query} (hl : LogIn E root log)
    (hq : QueryIn E root q) (h : preflightQuery t r log q = .ok log') : LogIn E root log' := by
  cases q with
  | activeValidators e =>
    unfold preflightQuery at h
    simp only [Res.bind_eq_ok, Res.pure_eq, Res.ok.injEq] at h
    obtain ⟨-, -, -, -, rfl⟩ := h
    refine ⟨fun x hx => ?_, hl.mix, hl.block⟩
    rcases OSet.mem_insert.1 hx with rfl | hx
    · exact hq
    · exact hl.active x hx
  | randaoMix e i =>
    unfold preflightQuery at h
    simp only [Res.bind_eq_ok, Res.pure_eq, Res.ok.injEq] at h
    obtain ⟨-, -, -, -, rfl⟩ := h
    refine ⟨hl.active, fun x hx => ?_, hl.block⟩
    rcases OMap.mem_insert_fst hx with rfl | hx
    · exact hq
    · exact hl.mix x hx
  | slotForBlock b =>
    unfold preflightQuery at h
    simp only [Res.bind_eq_ok, Res.pure_eq, Res.ok.injEq] at h
    obtain ⟨-, -, rfl⟩ := h
    refine ⟨hl.active, hl.mix, fun x hx => ?_⟩
    dsimp only at hx
    split at hx
    · exact hl.block x hx
    · rcases List.mem_append.1 hx with hx | hx
      · exact hl.block x hx
      · cases List.mem_singleton.1 hx
        exact hq

theorem run_same {E : Nat → Prop} {r : HostReader} {p : Nat → Res ProviderError HostState} {hd : Root → Res HostError (Option Spec.Header)} {root : Root}
    (h : ∀ e, E e → p (startSlot r.spec.slotsPerEpoch e) = r.provider (startSlot r.spec.slotsPerEpoch e)) (hh : hd root = r.headers root) (t : Nat)
    {qs : List Query} (hq : ∀ q ∈ qs, QueryIn E root q) : ∀ {log log' : PreflightLog}, LogIn E root log → preflightRun t r log qs = .ok log' →
    LogIn E root log' ∧ preflightRun t (r.other p hd) log qs = .ok log' := by
  induction qs with
  | nil => intro log log' hl h; cases h; exact ⟨hl, rfl⟩
  | cons q qs ih =>
    intro log log' hl hrun
    unfold preflightRun at hrun ⊢
    obtain ⟨mid, h1, h2⟩ := Res.bind_eq_ok.1 hrun
    have hq1 := hq q List.mem_cons_self
    have heq : preflightQuery t (r.other p hd) log q = preflightQuery t r log q := by
      cases q with
      | activeValidators e => unfold preflightQuery; simp only [other_active h hq1]
      | randaoMix e i => unfold preflightQuery; simp only [other_mix h hq1]
      | slotForBlock b =>
        cases (show b = root from hq1)
        unfold preflightQuery
        simp only [other_slot hh]
    rw [heq, h1]
    exact ih (fun q hm => hq q (List.mem_cons_of_mem _ hm)) (query_in hl hq1 h1) h2

theorem toInput_same {E : Nat → Prop} {r : HostReader} {p : Nat → Res ProviderError HostState} {hd : Root → Res HostError (Option Spec.Header)} {root : Root}
    (h : ∀ e, E e → p (startSlot r.spec.slotsPerEpoch e) = r.provider (startSlot r.spec.slotsPerEpoch e)) (hh : hd root = r.headers root)
    (X : Ext) (order : List Nat → List Nat) {trusted : Checkpoint} (ht : E trusted.epoch)
    (hb : stateAtEpochBoundary (hostStateOps X) r.spec.slotsPerEpoch p trusted.epoch = stateAtEpochBoundary (hostStateOps X) r.spec.slotsPerEpoch r.provider trusted.epoch)
    {log : PreflightLog} (hl : LogIn E root log) : toInput X order (r.other p hd) trusted log = toInput X order r trusted log := by
  have h1 : stateAtCheckpoint X (hostStateOps X) (r.other p hd).spec.slotsPerEpoch (r.other p hd).provider trusted =
      stateAtCheckpoint X (hostStateOps X) r.spec.slotsPerEpoch r.provider trusted := by
    unfold stateAtCheckpoint HostReader.other
    dsimp only
    rw [hb]
  have h2 : mapRes (slotProof X order (r.other p hd)) log.blockReads = mapRes (slotProof X order r) log.blockReads := by
    refine mapRes_congr (fun b hm => ?_)
    cases hl.block b hm
    unfold slotProof HostReader.other
    dsimp only
    rw [hh]
  unfold toInput
  rw [h1, h2]
  simp only [other_active h ht, other_mixPatches h hl.mix, other_exitPatches h hl.active]
  rfl

theorem preflight_same {E : Nat → Prop} {r : HostReader} {p : Nat → Res ProviderError HostState} {hd : Root → Res HostError (Option Spec.Header)}
    (h : ∀ e, E e → p (startSlot r.spec.slotsPerEpoch e) = r.provider (startSlot r.spec.slotsPerEpoch e))
    (X : Ext) (order : List Nat → List Nat) (cfg : Config) {trusted : Checkpoint} (ht : E trusted.epoch)
    (hb : stateAtEpochBoundary (hostStateOps X) r.spec.slotsPerEpoch p trusted.epoch = stateAtEpochBoundary (hostStateOps X) r.spec.slotsPerEpoch r.provider trusted.epoch)
    (he : ∀ a ∈ r.attestations, E a.data.target.epoch) {input : GuestInput} {pre post : ConsensusState} {slot : Nat}
    (hp : preflight X order cfg r trusted = .ok (input, pre, post, slot)) (hh : hd post.finalized.root = r.headers post.finalized.root) :
    preflight X order cfg (r.other p hd) trusted = .ok (input, pre, post, slot) := by
  unfold preflight at hp ⊢
  obtain ⟨⟨post', slot'⟩, h1, hp⟩ := Res.bind_eq_ok.1 hp
  obtain ⟨log, h2, hp⟩ := Res.bind_eq_ok.1 hp
  obtain ⟨inp, h3, hp⟩ := Res.bind_eq_ok.1 hp
  simp only [Res.pure_eq, Res.ok.injEq, Prod.mk.injEq] at hp
  obtain ⟨rfl, rfl, rfl, rfl⟩ := hp
  rw [Res.mapErr_eq_ok] at h1 h2 h3
  have v := verify_same (other_same (hd := hd) h trusted.epoch) X cfg (R := preflightReader trusted.epoch r.toReader) rfl he rfl rfl h1
    (by
      show ((r.other p hd).slotForBlock _).mapErr _ = (r.slotForBlock _).mapErr _
      rw [other_slot hh])
  obtain ⟨hl, l⟩ := run_same (hd := hd) h hh trusted.epoch (queries_in he) (log := .empty) ⟨nofun, nofun, nofun⟩ h2
  have i := (toInput_same (hd := hd) h hh X order ht hb hl).trans h3
  rw [v]
  simp only [Res.mapErr, Res.ok_bind]
  rw [show (r.other p hd).spec = r.spec from rfl, show (r.other p hd).attestations = r.attestations from rfl, l]
  simp only [Res.ok_bind]
  rw [i]
  rfl

theorem boundary_local {σ : Type} {ops : StateOps σ} {spe : Nat} {p : Nat → Res ProviderError σ} {e : Nat} {t : σ}
    (h : stateAtEpochBoundary ops spe p e = .ok t) : ∃ s, p (startSlot spe e) = .ok s ∧ (t = s ∨ p (ops.latestBlockHeader s).slot = .ok t) ∧
      ∀ p', p' (startSlot spe e) = p (startSlot spe e) → p' (ops.latestBlockHeader s).slot = p (ops.latestBlockHeader s).slot →
      stateAtEpochBoundary ops spe p' e = .ok t := by
  unfold stateAtEpochBoundary stateAtEpoch at h
  obtain ⟨s, h1, h2⟩ := Res.bind_eq_ok.1 h
  dsimp only at h2
  refine ⟨s, h1, ?_, fun p' q1 q2 => ?_⟩
  · split at h2
    · cases h2; exact .inl rfl
    · exact .inr h2
  · unfold startSlot at q1
    unfold stateAtEpochBoundary stateAtEpoch
    rw [q1, h1, Res.ok_bind]
    dsimp only
    rw [q2]
    exact h2

/-- **C101.** If `prepare_input` succeeds with a node whose states at the start of an epoch have only earlier epochs justified, then there is an epoch `g` such
that the input, its states and its slot depend on nothing that the node and the state provider say about a later epoch: on the states at the start of the epochs
from the finalized one up to before `g`, on one earlier state and one block (that of the boundary of the finalized epoch), on the consensus states at the start
of the epochs up to `g`, on the blocks up to the start of `g`, and on the header of the one block that gets finalized. -/
theorem C101_confined {W : Wire.WireExt} {X : Ext} {order : List Nat → List Nat} {spec : ChainSpec} {cfg : Config} {bound : Nat} {w : World} {epoch : Nat} {p : Prepared}
    (honest : ∀ e s, epoch < e → w.walk (startSlot spec.slotsPerEpoch e) = .ok s → s.currentJustified.epoch < e)
    (h : prepare W X order spec cfg bound w epoch = some (.ok p)) :
    ∃ f g s t, epoch < f ∧ f ≤ epoch + bound ∧ f < g ∧ g ≤ f + bound ∧
      w.provider (startSlot spec.slotsPerEpoch epoch) = .ok s ∧ (t = s ∨ w.provider s.latestBlockHeader.slot = .ok t) ∧
      ∀ w' : World, w'.genesisRoot = w.genesisRoot → w'.decompress = w.decompress →
        (∀ e, epoch ≤ e → e < g → w'.provider (startSlot spec.slotsPerEpoch e) = w.provider (startSlot spec.slotsPerEpoch e)) →
        w'.provider s.latestBlockHeader.slot = w.provider s.latestBlockHeader.slot →
        w'.boundaryBlock t.latestBlockHeader.slot = w.boundaryBlock t.latestBlockHeader.slot →
        (∀ e, epoch < e → e ≤ f → w'.find (startSlot spec.slotsPerEpoch e) = w.find (startSlot spec.slotsPerEpoch e)) →
        (∀ e, f ≤ e → e ≤ g → w'.walk (startSlot spec.slotsPerEpoch e) = w.walk (startSlot spec.slotsPerEpoch e)) →
        (∀ slot, startSlot spec.slotsPerEpoch (epoch + 1) ≤ slot → slot ≤ startSlot spec.slotsPerEpoch g → w'.getBlock slot = w.getBlock slot) →
        w'.headers p.post.finalized.root = w.headers p.post.finalized.root →
        prepare W X order spec cfg bound w' epoch = some (.ok p) := by
  unfold prepare at h
  cases ht : trustedCheckpoint X spec w epoch with
  | panic => rw [ht] at h; cases h
  | err e => rw [ht] at h; cases h
  | ok trusted =>
    rw [ht] at h
    dsimp only at h
    unfold trustedCheckpoint at ht
    obtain ⟨t, ht1, ht⟩ := Res.bind_eq_ok.1 ht
    rw [Res.mapErr_eq_ok] at ht1
    obtain ⟨s, hs1, hs2, hs3⟩ := boundary_local ht1
    have hte : trusted.epoch = epoch := by
      simp only [Res.bind_eq_ok, Res.pure_eq, Res.ok.injEq] at ht
      obtain ⟨-, -, -, -, -, -, rfl⟩ := ht
      rfl
    cases hsr : hostSearch spec.slotsPerEpoch w.find w.walk w.getBlock trusted bound with
    | none => rw [hsr] at h; cases h
    | some res =>
      cases res with
      | panic => rw [hsr] at h; cases h
      | err e => rw [hsr] at h; cases h
      | ok out =>
        obtain ⟨state, next, links, atts⟩ := out
        rw [hsr] at h
        simp only [Option.some.injEq] at h
        obtain ⟨⟨input, pre, post, slot⟩, h1, h2⟩ := Res.bind_eq_ok.1 h
        cases h2
        rw [Res.mapErr_eq_ok] at h1
        obtain ⟨f, g, a1, a2, a3, a4, -, -, -, a5, a6⟩ := search_local (by rw [hte]; exact honest) hsr
        rw [hte] at a1 a2 a5 a6
        refine ⟨f, g, s, t, a1, a2, a3, a4, hs1, hs2, fun w' q1 q2 q3 q4 q5 q6 q7 q8 q9 => ?_⟩
        have hb := hs3 w'.provider (q3 epoch (Nat.le_refl _) (by omega)) q4
        have htr : trustedCheckpoint X spec w' epoch = .ok trusted := by
          unfold trustedCheckpoint
          rw [hb]
          simp only [Res.mapErr, Res.ok_bind]
          rw [q5]
          exact ht
        have hpre := preflight_same (E := fun e => epoch ≤ e ∧ e < g) (r := w.reader spec state atts) (p := w'.provider) (hd := w'.headers)
          (fun e he => q3 e he.1 he.2) X order cfg (by rw [hte]; exact ⟨Nat.le_refl _, by omega⟩) (by rw [hte]; exact hb.trans ht1.symm)
          (fun a ha => ⟨Nat.le_of_lt (a5 a ha).1, (a5 a ha).2⟩) h1 q9
        have hr : (w.reader spec state atts).other w'.provider w'.headers = w'.reader spec state atts := by
          unfold World.reader HostReader.other
          rw [q1, q2]
        rw [hr] at hpre
        unfold prepare
        rw [htr]
        dsimp only
        rw [a6 w'.find w'.walk w'.getBlock q6 q7 q8]
        dsimp only
        rw [hpre]
        rfl

/-- **C101** at the level of HTTP: of the node it depends on the replies to the requests for the finality at the start of epochs, for blocks by slot and for one
header by root that are named; on no reply to any other request. -/
theorem C101_http {W : Wire.WireExt} {X : Ext} {order : List Nat → List Nat} {spec : ChainSpec} {cfg : Config} {bound : Nat} {D : Client.Decoders HostState}
    {n : Client.Replies} {provider : Nat → Res ProviderError HostState} {genesisRoot : Res ProviderError Root} {decompress : Bytes → Option Bytes} {epoch : Nat}
    {p : Prepared}
    (honest : ∀ e s, epoch < e → Client.getConsensusState D n.walk (.slot (startSlot spec.slotsPerEpoch e)) = .ok s → s.currentJustified.epoch < e)
    (h : prepare W X order spec cfg bound (Client.world D n provider genesisRoot decompress) epoch = some (.ok p)) :
    ∃ f g c, epoch < f ∧ f ≤ epoch + bound ∧ f < g ∧ g ≤ f + bound ∧ ∀ n' : Client.Replies,
      n'.boundary (.block (.slot c)) = n.boundary (.block (.slot c)) →
      (∀ e, epoch < e → e ≤ f → n'.find (.finality (.slot (startSlot spec.slotsPerEpoch e))) = n.find (.finality (.slot (startSlot spec.slotsPerEpoch e)))) →
      (∀ e, f ≤ e → e ≤ g → n'.walk (.finality (.slot (startSlot spec.slotsPerEpoch e))) = n.walk (.finality (.slot (startSlot spec.slotsPerEpoch e)))) →
      (∀ slot, startSlot spec.slotsPerEpoch (epoch + 1) ≤ slot → slot ≤ startSlot spec.slotsPerEpoch g →
        n'.blocks (.block (.slot slot)) = n.blocks (.block (.slot slot))) →
      n'.headers (.header (.root p.post.finalized.root)) = n.headers (.header (.root p.post.finalized.root)) →
      prepare W X order spec cfg bound (Client.world D n' provider genesisRoot decompress) epoch = some (.ok p) := by
  have honest' : ∀ e s, epoch < e → (Client.world D n provider genesisRoot decompress).walk (startSlot spec.slotsPerEpoch e) = .ok s → s.currentJustified.epoch < e := by
    intro e s he hs
    unfold Client.world Client.asHost at hs
    dsimp only at hs
    rw [Res.mapErr_eq_ok] at hs
    exact honest e s he hs
  obtain ⟨f, g, s, t, a1, a2, a3, a4, -, -, a5⟩ := C101_confined honest' h
  refine ⟨f, g, t.latestBlockHeader.slot, a1, a2, a3, a4, fun n' q1 q2 q3 q4 q5 => ?_⟩
  refine a5 _ rfl rfl (fun _ _ _ => rfl) rfl ?_ ?_ ?_ ?_ ?_
  · unfold Client.world Client.getBlock
    dsimp only
    rw [q1]
  · intro e h1 h2
    unfold Client.world Client.getConsensusState
    dsimp only
    rw [q2 e h1 h2]
  · intro e h1 h2
    unfold Client.world Client.getConsensusState
    dsimp only
    rw [q3 e h1 h2]
  · intro slot h1 h2
    unfold Client.world Client.getBlock
    dsimp only
    rw [q4 slot h1 h2]
  · unfold Client.world Client.getBlockHeader
    dsimp only
    rw [q5]

theorem fp_earlier (e : Nat) (s : ConsensusState) (he : 3 < e) (h : fpWorld1.walk (startSlot exSpec.slotsPerEpoch e) = .ok s) :
    s.currentJustified.epoch < e := by
  have hs : exSpec.slotsPerEpoch = 4 := rfl
  rw [hs] at h
  have h : fpAsk (startSlot 4 e) = .ok s := h
  unfold fpAsk startSlot satMul at h
  have c4 : exC4.epoch = 4 := rfl
  have c3 : gxC3.epoch = 3 := rfl
  have c6 : gxC6.epoch = 6 := rfl
  have c7 : exC7.epoch = 7 := rfl
  have c9 : fpC9.epoch = 9 := rfl
  have c10 : fpC10.epoch = 10 := rfl
  split_ifs at h <;> cases h <;> dsimp only <;> omega

/-- The hypotheses are met by the first round of the example: epoch 3 is final, and epoch 6 is next. -/
example : (∀ e s, 3 < e → fpWorld1.walk (startSlot exSpec.slotsPerEpoch e) = .ok s → s.currentJustified.epoch < e) ∧
    ∃ bytes, prepare fpWire exExt id exSpec Config.default 9 fpWorld1 3 = some (.ok ⟨bytes, ⟨exC4, gxC3⟩, ⟨exC7, gxC6⟩, 24⟩) :=
  ⟨fp_earlier, (C89_prepares_iff fpWire exExt id (fun l => List.Perm.refl l) (by decide) (2 ^ 32) exSpec Config.default 9 fp_sensible fpWorld1 3
    (fp_quiet1 3).toHonestWorld (fun slot s h => (fp_small h).1) _ _ _).2 fp_provable1⟩

/-- The same over HTTP. -/
example : (∀ e s, 3 < e → Client.getConsensusState cxDecoders cxReplies.walk (.slot (startSlot exSpec.slotsPerEpoch e)) = .ok s → s.currentJustified.epoch < e) ∧
    ∃ p, prepare fpWire exExt id exSpec Config.default 9
      (Client.world cxDecoders cxReplies fxProvider (.ok (exRoot32 77)) (fun pk => some (pk ++ List.replicate 48 0))) 3 = some (.ok p) := by
  refine ⟨fun e s he h => fp_earlier e s he ?_, ?_⟩
  · rw [← cx_world]
    show Client.asHost _ = _
    rw [h]
    rfl
  · obtain ⟨input, -, hp⟩ := fp_prepared1
    exact ⟨_, by rw [cx_world]; exact hp⟩

end Signal
