import Verif.Spec.Client
import Verif.Proofs.Program

/-! Helper lemmas on the client. -/

namespace Signal
open Spec Wire Program

namespace Client

theorem isErrorStatus_false {n : Nat} : isErrorStatus n = false ↔ n < 400 ∨ 600 ≤ n := by
  unfold isErrorStatus
  rw [decide_eq_false_iff_not]
  omega

theorem getJson_ok {α : Type} {decode : Bytes → Option α} {reply : Reply} {a : α} :
    getJson decode reply = .ok a ↔ ∃ status body, reply = .response status body ∧ (status < 400 ∨ 600 ≤ status) ∧ decode body = some a := by
  cases reply with
  | badUrl => simp [getJson]
  | noResponse => simp [getJson]
  | response status body =>
    unfold getJson
    cases h : isErrorStatus status with
    | true =>
      have : ¬ (status < 400 ∨ 600 ≤ status) := fun h' => by rw [isErrorStatus_false.2 h'] at h; cases h
      simp [this, h]
    | false =>
      have := isErrorStatus_false.1 h
      cases hd : decode body <;> simp [this, hd, h]

theorem getJson_404 {α : Type} {decode : Bytes → Option α} {reply : Reply} :
    getJson decode reply = .err (.http (some 404)) ↔ ∃ body, reply = .response 404 body := by
  cases reply with
  | badUrl => simp [getJson]
  | noResponse => simp [getJson]
  | response status body =>
    unfold getJson
    cases h : isErrorStatus status with
    | true => simp [h]
    | false =>
      have : status ≠ 404 := fun h' => by subst h'; revert h; decide
      cases hd : decode body <;> simp [this, h, hd]

theorem getJson_not_panic {α : Type} {decode : Bytes → Option α} {reply : Reply} : getJson decode reply ≠ .panic := by
  cases reply with
  | badUrl => simp [getJson]
  | noResponse => simp [getJson]
  | response status body =>
    unfold getJson
    cases h : isErrorStatus status <;> cases hd : decode body <;> simp [hd, h]

theorem foundOr_some {α : Type} {r : Res ClientError α} {a : α} : foundOr r = .ok (some a) ↔ r = .ok a := by
  unfold foundOr
  split <;> simp

theorem foundOr_none {α : Type} {r : Res ClientError α} : foundOr r = .ok none ↔ r = .err (.http (some 404)) := by
  unfold foundOr
  split <;> simp_all

theorem foundOr_panic {α : Type} {r : Res ClientError α} : foundOr r = .panic ↔ r = .panic := by
  unfold foundOr
  split <;> simp

theorem asHost_ok {α : Type} {r : Res ClientError α} {a : α} : asHost r = .ok a ↔ r = .ok a := by
  unfold asHost
  simp

/-- The input holds the votes of the reader. -/
theorem toInput_attestations {X : Ext} {order : List Nat → List Nat} {cfg : Config} {r : HostReader} {trusted : Checkpoint}
    {input : GuestInput} {pre post : ConsensusState} {slot : Nat}
    (h : preflight X order cfg r trusted = .ok (input, pre, post, slot)) : input.attestations = r.attestations := by
  unfold preflight at h
  simp only [Res.bind_eq_ok, Res.mapErr_eq_ok, Res.pure_eq, Res.ok.injEq] at h
  obtain ⟨⟨post', slot'⟩, -, log, -, input', h, h'⟩ := h
  cases h'
  unfold toInput at h
  simp only [Res.bind_eq_ok, Res.mapErr_eq_ok, Res.pure_eq, Res.ok.injEq] at h
  obtain ⟨_, _, _, _, _, _, _, _, _, _, _, _, _, _, _, _, _, _, _, _, _, _, _, _, rfl⟩ := h
  rfl

/-- Every link was found as the justified checkpoint of a state on the way. -/
theorem justLoop_links (spe : Nat) (ask : StateAnswers) (c : Checkpoint) :
    ∀ (bound epoch : Nat) (prev : ConsensusState) (links : List Link) (s : ConsensusState) (out : List Link),
      justificationsLoop spe ask c bound epoch prev links = some (.ok (s, out)) →
      ∃ e, epoch ≤ e ∧ ChainAt spe ask e s ∧ ∀ l ∈ out, l ∈ links ∨ ∃ e' t, epoch ≤ e' ∧ e' ≤ e ∧ ChainAt spe ask e' t ∧
        l.target = t.currentJustified := by
  intro bound
  induction bound with
  | zero => intro epoch prev links s out h; simp [justificationsLoop] at h
  | succ n ih =>
    intro epoch prev links s out h
    unfold justificationsLoop at h
    cases hask : ask (startSlot spe epoch) with
    | panic => rw [hask] at h; simp at h
    | err x => rw [hask] at h; simp at h
    | ok cur =>
      rw [hask] at h
      simp only at h
      cases hl : prev.transitionLink cur with
      | panic => rw [hl] at h; simp at h
      | err x => rw [hl] at h; simp at h
      | ok o =>
        rw [hl] at h
        simp only at h
        have hnew : ∀ l ∈ o.toList, l.target = cur.currentJustified := by
          intro l hlo
          rcases ((transitionLink_ok_iff _ _ _).1 hl).2.2.2.2 with ⟨_, _, rfl⟩ | ⟨_, _, _, _, rfl⟩ | ⟨_, _, _, rfl⟩
          · cases hlo
          · simp at hlo; subst hlo; rfl
          · simp at hlo; subst hlo; rfl
        split at h
        · simp only [Option.some.injEq, Res.ok.injEq, Prod.mk.injEq] at h
          obtain ⟨rfl, rfl⟩ := h
          refine ⟨epoch, Nat.le_refl _, hask, fun l hl => ?_⟩
          rcases List.mem_append.1 hl with hl | hl
          · exact .inl hl
          · exact .inr ⟨epoch, cur, Nat.le_refl _, Nat.le_refl _, hask, hnew l hl⟩
        · obtain ⟨e, h1, h2, h3⟩ := ih (epoch + 1) cur _ s out h
          refine ⟨e, by omega, h2, fun l hl => ?_⟩
          rcases h3 l hl with h4 | ⟨e', t, h4, h5, h6, h7⟩
          · rcases List.mem_append.1 h4 with h4 | h4
            · exact .inl h4
            · exact .inr ⟨epoch, cur, Nat.le_refl _, by omega, hask, hnew l h4⟩
          · exact .inr ⟨e', t, by omega, h5, h6, h7⟩

theorem justifications_links {spe : Nat} {ask : StateAnswers} {start bound : Nat} {s s' : ConsensusState} {links : List Link}
    (h : justificationsUntilNewFinality spe ask start bound = some (.ok (s, s', links))) :
    ∃ e, start < e ∧ ChainAt spe ask e s' ∧ ∀ l ∈ links, ∃ e' t, start < e' ∧ e' ≤ e ∧ ChainAt spe ask e' t ∧
      l.target = t.currentJustified := by
  unfold justificationsUntilNewFinality at h
  cases hask : ask (startSlot spe start) with
  | panic => rw [hask] at h; simp at h
  | err x => rw [hask] at h; simp at h
  | ok s0 =>
    rw [hask] at h
    simp only [Option.map_eq_some_iff] at h
    obtain ⟨r, hr, h⟩ := h
    cases r with
    | panic => cases h
    | err x => cases h
    | ok p =>
      obtain ⟨s1, out⟩ := p
      simp only [Res.ok_bind, Res.pure_eq, Res.ok.injEq, Prod.mk.injEq] at h
      obtain ⟨rfl, rfl, rfl⟩ := h
      obtain ⟨e, h1, h2, h3⟩ := justLoop_links spe ask _ bound (start + 1) _ [] _ _ hr
      refine ⟨e, h1, h2, fun l hl => ?_⟩
      rcases h3 l hl with h4 | ⟨e', t, h4, h5⟩
      · cases h4
      · exact ⟨e', t, h4, h5⟩

/-- Only blocks whose votes all convert are grouped. -/
theorem groupBlocks_shape : ∀ (bs : List (Option Block)) (m m' : List (Link × List Attestation)), groupBlocks bs m = .ok m' →
    ∀ b, some b ∈ bs → ∃ votes : List Attestation, b = .electra (votes.map some) := by
  have hblock : ∀ (as : List (Option Attestation)) (m m' : List (Link × List Attestation)), groupBlock as m = .ok m' →
      ∃ votes : List Attestation, as = votes.map some := by
    intro as
    induction as with
    | nil => intro m m' _; exact ⟨[], rfl⟩
    | cons o as ih =>
      intro m m' h
      cases o with
      | none => cases h
      | some a =>
        obtain ⟨votes, hv⟩ := ih _ _ h
        exact ⟨a :: votes, by rw [hv]; rfl⟩
  intro bs
  induction bs with
  | nil => intro m m' _ b hb; cases hb
  | cons o bs ih =>
    intro m m' h b hb
    cases o with
    | none =>
      rcases List.mem_cons.1 hb with hb | hb
      · cases hb
      · exact ih _ _ h b hb
    | some c =>
      cases c with
      | other => cases h
      | electra as =>
        simp only [groupBlocks, Res.bind_eq_ok] at h
        obtain ⟨m1, h1, h2⟩ := h
        rcases List.mem_cons.1 hb with hb | hb
        · cases hb
          obtain ⟨votes, hv⟩ := hblock _ _ _ h1
          exact ⟨votes, by rw [hv]⟩
        · exact ih _ _ h2 b hb

theorem collect_shape {spe : Nat} {getBlock : Nat → Res HostError (Option Block)} {links : List Link} {atts : List Attestation}
    (hne : links ≠ []) (h : collectAttestations spe getBlock links = .ok atts) :
    ∃ mn mx, (links.map (·.target.epoch)).min? = some mn ∧ (links.map (·.target.epoch)).max? = some mx ∧
      ∀ slot ∈ slotRange (satMul mn spe) (satMul (satAdd mx 1) spe), ∀ b, getBlock slot = .ok (some b) →
        ∃ votes : List Attestation, b = .electra (votes.map some) := by
  unfold collectAttestations at h
  rw [if_neg hne] at h
  simp only [Res.bind_eq_ok, Res.pure_eq, Res.ok.injEq] at h
  obtain ⟨mn, h1, mx, h2, blocks, h3, m, h4, -⟩ := h
  refine ⟨mn, mx, expect_eq_ok.1 h1, expect_eq_ok.1 h2, fun slot hs b hb => ?_⟩
  rw [mapRes_eq_ok] at h3
  have : (Res.ok (some b) : Res HostError (Option Block)) ∈ blocks.map .ok := by
    rw [← h3, ← hb]
    exact List.mem_map_of_mem hs
  obtain ⟨x, hx, hxb⟩ := List.mem_map.1 this
  cases hxb
  exact groupBlocks_shape _ _ _ h4 b hx

end Client

end Signal
