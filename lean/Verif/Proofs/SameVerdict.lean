import Verif.Props.Verdict
import Verif.Props.Preflight

/-! The preflight run and the guest's verification of its input: helper lemmas. -/

namespace Signal
open Spec

/-- What a successful `verify` has been told. -/
theorem verify_answered {X : Ext} {cfg : Config} {R : Reader} {post : ConsensusState} {slot : Nat}
    (h : verify X cfg R = .ok (post, slot)) :
    ∃ pre atts, R.consensusState = .ok pre ∧ R.attestations = .ok atts ∧
      (∀ a ∈ atts, pre.finalized.epoch ≤ a.data.target.epoch ∧
        (∃ l, R.activeValidators a.data.target.epoch = .ok l) ∧
        (∃ m, R.randaoMix a.data.target.epoch (seedMixIndex X R.spec a.data.target.epoch) = .ok (some m)) ∧
        ∃ f, R.fork a.data.target.epoch = .ok f) ∧
      R.slotForBlock post.finalized.root = .ok slot := by
  obtain ⟨pre, atts, h1, h2, h3, h4, h5⟩ := verify_ok h
  refine ⟨pre, atts, h1, h2, ?_, h5⟩
  intro a ha
  obtain ⟨g, hg, hag⟩ := exists_group ha
  obtain ⟨s₁, s₂, hp⟩ := verifyLoop_mem h3 _ hg
  obtain ⟨_, _, l, c, f, g3, g4, g5, _⟩ := processGroup_ok_iff.1 hp
  have hpre : ValidState pre := verify_pre_valid h3 (fun he => h4 (by rw [he]))
  have hlt := (verifyLoop_run h3).targets_lt.1 (linkOf a) (List.mem_map.2 ⟨_, hg, rfl⟩)
  have he : (linkOf a).target.epoch = a.data.target.epoch := rfl
  dsimp only at g3 g4
  rw [he] at g3 g4 hlt
  refine ⟨?_, ⟨l, g3⟩, ?_, ?_⟩
  · rcases hpre with hv | hv
    · omega
    · rw [hv] at hlt ⊢
      simp only [ConsensusState.zero, Checkpoint.zero] at hlt ⊢
      omega
  · obtain ⟨seed, _, _, _, _, g6, _⟩ := computeCommittees_ok g4
    unfold Reader.getSeed Reader.getRandaoMix at g6
    simp only [Res.bind_eq_ok, Res.mapErr_eq_ok, safeAdd_eq_ok, safeSub_eq_ok, safeRem_eq_ok, expect_eq_ok] at g6
    obtain ⟨_, ⟨_, rfl⟩, _, ⟨_, rfl⟩, _, ⟨_, rfl⟩, m, ⟨_, ⟨_, rfl⟩, m', g7, g8⟩, _⟩ := g6
    exact ⟨m, by rw [← g8]; exact g7⟩
  · obtain ⟨e, rfl, _, _, _, fork, _, hf, _⟩ := (processAttestation_ok_iff.1 (g5 a hag)).1.electra
    exact ⟨fork, hf⟩

theorem preflightRun_of_answered {t : Nat} {r : HostReader} : ∀ {qs : List Query} {log : PreflightLog},
    (∀ q ∈ qs, Answered t r q) → ∃ log', preflightRun t r log qs = .ok log' := by
  intro qs
  induction qs with
  | nil => intro log _; exact ⟨log, rfl⟩
  | cons q qs ih =>
    intro log h
    have hq : ∃ log', preflightQuery t r log q = .ok log' := by
      have := h q (by simp)
      cases q with
      | activeValidators e =>
        obtain ⟨h1, a, h2⟩ := this
        exact ⟨_, by simp only [preflightQuery, assert, h1, decide_true, if_true, Res.ok_bind, h2]; rfl⟩
      | randaoMix e i =>
        obtain ⟨m, h2⟩ := this
        exact ⟨_, by simp only [preflightQuery, h2, Res.ok_bind, expect]; rfl⟩
      | slotForBlock root =>
        obtain ⟨m, h2⟩ := this
        exact ⟨_, by simp only [preflightQuery, h2, Res.ok_bind]; rfl⟩
    obtain ⟨log', hl⟩ := hq
    obtain ⟨log'', hl'⟩ := ih (log := log') (fun q hq => h q (by simp [hq]))
    exact ⟨log'', by unfold preflightRun; rw [hl, Res.ok_bind]; exact hl'⟩

theorem mem_verifyQueries {X : Ext} {spec : ChainSpec} {atts : List Attestation} {root : Root} {q : Query} :
    q ∈ verifyQueries X spec atts root ↔
      (∃ a ∈ atts, q = .activeValidators a.data.target.epoch ∨
        q = .randaoMix a.data.target.epoch (seedMixIndex X spec a.data.target.epoch)) ∨ q = .slotForBlock root := by
  unfold verifyQueries
  rw [List.mem_append, List.mem_flatMap, List.mem_singleton, linkOf_eq]
  refine or_congr_left ⟨?_, ?_⟩
  · rintro ⟨⟨l, g⟩, hp, hq⟩
    obtain ⟨hne, hk⟩ := chunkBy_key hp
    obtain ⟨a, hag⟩ := List.exists_mem_of_ne_nil g hne
    refine ⟨a, ?_, ?_⟩
    · rw [← chunkBy_flatten (key := linkOf) atts]
      exact List.mem_flatMap.2 ⟨_, hp, hag⟩
    · have := hk a hag
      subst this
      simpa [linkOf] using hq
  · rintro ⟨a, ha, hq⟩
    obtain ⟨g, hg, _⟩ := exists_group ha
    exact ⟨_, hg, by simpa [linkOf] using hq⟩

theorem toReader_active {r : HostReader} {e : Nat} {l : List (Nat × ValidatorInfo)} :
    r.toReader.activeValidators e = .ok l ↔ r.activeValidators e = .ok l := Res.mapErr_eq_ok

theorem toReader_mix {r : HostReader} {e i : Nat} {m : Option Root} :
    r.toReader.randaoMix e i = .ok m ↔ r.randaoMix e i = .ok m := Res.mapErr_eq_ok

theorem toReader_slot {r : HostReader} {root : Root} {n : Nat} :
    r.toReader.slotForBlock root = .ok n ↔ r.slotForBlock root = .ok n := Res.mapErr_eq_ok

theorem toReader_fork {r : HostReader} {e : Nat} {f : Fork} :
    r.toReader.fork e = .ok f ↔ r.fork e = .ok f := Res.mapErr_eq_ok

/-- The patched validators agree with the later state in everything that has not changed for active ones. -/
theorem patched_project {β : Type} {dec : Bytes → Option Bytes} {far t e : Nat} {vs ws : List Validator} {g : GuestReader}
    (F : ValidatorInfo → β)
    (hF : ∀ (i : Nat) (v w : Validator) (key : Bytes), vs[i]? = some v → ws[i]? = some w → w.activeAt e →
      F (v.info key) = F (w.info key))
    (hfar : t < far) (he : t ≤ e) (hc : Continues far t vs ws e) (hg : g.validators = present dec vs t)
    (hp : (g.patchAt e).validatorExits = changedExits vs ws ∨ (e = t ∧ (g.patchAt e).validatorExits = [])) :
    (g.activeValidators e).map (fun p => (p.1, F p.2)) = (activeIn dec ws e).map (fun p => (p.1, F p.2)) := by
  have hs1 : OMap.Sorted (g.activeValidators e) := by
    unfold GuestReader.activeValidators
    rw [hg]
    exact OMap.sorted_filter (present_sorted _ _ _) _
  refine sorted_ext (sorted_map_snd F hs1) (sorted_map_snd F (activeIn_sorted _ _ _)) ?_
  intro y
  rw [List.mem_map, List.mem_map]
  constructor
  · rintro ⟨⟨i, x⟩, hm, rfl⟩
    unfold GuestReader.activeValidators at hm
    rw [hg, List.mem_filter, mem_present] at hm
    obtain ⟨⟨v, key, h1, h2, h3, rfl⟩, h4⟩ := hm
    have hlt : i < ws.length := by
      have := (List.getElem?_eq_some_iff.1 h1).1
      have := hc.grows
      omega
    have hw := List.getElem?_eq_getElem hlt
    have ha := (patched_active_iff hfar he hc h1 hw hp).1 ⟨h2, h4⟩
    refine ⟨(i, (ws[i]).info key), mem_activeIn.2 ⟨_, key, hw, ha, ?_, rfl⟩, ?_⟩
    · rw [hc.pubkey i v _ h1 hw]; exact h3
    · simp only [hF i v _ key h1 hw ha]
  · rintro ⟨⟨i, x⟩, hm, rfl⟩
    obtain ⟨w, key, h1, h2, h3, rfl⟩ := mem_activeIn.1 hm
    have hlt : i < vs.length := by
      by_contra hn
      exact hc.added i w (by omega) h1 h2
    have hv := List.getElem?_eq_getElem hlt
    obtain ⟨h4, h5⟩ := (patched_active_iff (key := key) hfar he hc hv h1 hp).2 h2
    refine ⟨(i, (vs[i]).info key), ?_, ?_⟩
    · unfold GuestReader.activeValidators
      rw [hg, List.mem_filter]
      refine ⟨mem_present.2 ⟨_, key, hv, h4, ?_, rfl⟩, h5⟩
      rw [← hc.pubkey i _ w hv h1]; exact h3
    · simp only [hF i _ w key hv h1 h2]

/-- Weights only depend on the balances. -/
theorem weights_congr {m m' : OMap ValidatorInfo}
    (h : m.map (fun p => (p.1, p.2.effectiveBalance)) = m'.map (fun p => (p.1, p.2.effectiveBalance))) :
    totalWeight m = totalWeight m' ∧ ∀ s, weight m s = weight m' s := by
  constructor
  · have := congrArg (fun l => (l.map (·.2)).sum) h
    simpa [totalWeight, List.map_map, Function.comp_def] using this
  · intro s
    unfold weight
    congr 2
    funext i
    have h1 := OMap.get?_map (fun _ (v : ValidatorInfo) => v.effectiveBalance) m i
    have h2 := OMap.get?_map (fun _ (v : ValidatorInfo) => v.effectiveBalance) m' i
    unfold balance
    rw [← h1, ← h2, h]

theorem enoughWeight_congr {cfg : Config} {spec : ChainSpec} {m m' : OMap ValidatorInfo} {s : List Nat}
    (h : m.map (fun p => (p.1, p.2.effectiveBalance)) = m'.map (fun p => (p.1, p.2.effectiveBalance)))
    (hw : EnoughWeight cfg spec m s) : EnoughWeight cfg spec m' s := by
  obtain ⟨h1, h2⟩ := weights_congr h
  obtain ⟨a, b, c, d⟩ := hw
  rw [h1] at b c d
  rw [h2 s] at a c d
  exact ⟨a, b, c, d⟩

end Signal
