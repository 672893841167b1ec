import Verif.Proofs.RegistryProof
import Verif.Proofs.Size
import Verif.Props.EndToEnd
import Verif.Props.Providers

/-! Helper lemmas: the construction of the guest input and its reading. -/

namespace Signal
open Spec

/-! ## Lists with indices -/

theorem sorted_filterMap_zipIdx {α β : Type} (g : α × Nat → Option (Nat × β))
    (hg : ∀ x y, g x = some y → y.1 = x.2) (l : List α) : ∀ k,
    OMap.Sorted ((l.zipIdx k).filterMap g) ∧ ∀ y ∈ (l.zipIdx k).filterMap g, k ≤ y.1 := by
  induction l with
  | nil => intro k; simp [OMap.Sorted]
  | cons a l ih =>
    intro k
    obtain ⟨h1, h2⟩ := ih (k + 1)
    rw [List.zipIdx_cons]
    cases ha : g (a, k) with
    | none =>
      rw [List.filterMap_cons_none ha]
      exact ⟨h1, fun y hy => by have := h2 y hy; omega⟩
    | some y =>
      rw [List.filterMap_cons_some ha]
      have hy := hg _ _ ha
      dsimp only at hy
      constructor
      · unfold OMap.Sorted at h1 ⊢
        rw [List.pairwise_cons]
        exact ⟨fun z hz => by have := h2 z hz; omega, h1⟩
      · intro z hz
        rcases List.mem_cons.1 hz with rfl | hz
        · omega
        · have := h2 z hz; omega

theorem sorted_ext {β : Type} {m m' : OMap β} (h : m.Sorted) (h' : m'.Sorted) (hm : ∀ x, x ∈ m ↔ x ∈ m') :
    m = m' := by
  have hn : m.Nodup := h.imp (fun {a b} hab he => by rw [he] at hab; omega)
  have hn' : m'.Nodup := h'.imp (fun {a b} hab he => by rw [he] at hab; omega)
  have h1 : List.Pairwise (fun a b => a.1 < b.1) m := h
  have h2 : List.Pairwise (fun a b => a.1 < b.1) m' := h'
  refine ((List.perm_ext_iff_of_nodup hn hn').2 hm).eq_of_pairwise ?_ h1 h2
  intro a b _ _ h1 h2
  exact absurd h1 (by omega)

/-! ## `present` and registry updates -/

theorem present_sorted (dec : Bytes → Option Bytes) (vs : List Validator) (t : Nat) : (present dec vs t).Sorted := by
  refine (sorted_filterMap_zipIdx _ ?_ vs 0).1
  rintro ⟨v, i⟩ y hy
  dsimp only at hy
  split at hy
  · simp at hy
  · obtain ⟨k, -, rfl⟩ := Option.map_eq_some_iff.1 hy; rfl

theorem mem_present {dec : Bytes → Option Bytes} {vs : List Validator} {t i : Nat} {x : ValidatorInfo} :
    (i, x) ∈ present dec vs t ↔ ∃ v key, vs[i]? = some v ∧ t < v.exitEpoch ∧ dec v.pubkey = some key ∧
      x = v.info key := by
  unfold present
  rw [List.mem_filterMap]
  constructor
  · rintro ⟨⟨v, j⟩, hm, hy⟩
    rw [List.mem_zipIdx_iff_getElem?] at hm
    dsimp only at hm hy
    split at hy
    · simp at hy
    · rename_i hlt
      obtain ⟨key, hk, he⟩ := Option.map_eq_some_iff.1 hy
      simp only [Prod.mk.injEq] at he
      obtain ⟨rfl, rfl⟩ := he
      exact ⟨v, key, hm, by omega, hk, rfl⟩
  · rintro ⟨v, key, h1, h2, h3, rfl⟩
    refine ⟨(v, i), by rw [List.mem_zipIdx_iff_getElem?]; exact h1, ?_⟩
    dsimp only
    rw [if_neg (by omega), h3]; rfl

theorem electraUpdate_pubkey (spec : ChainSpec) (fin e : Nat) (v : Validator) :
    (v.electraUpdate spec fin e).pubkey = v.pubkey := by
  unfold Validator.electraUpdate
  split
  · rfl
  · split <;> rfl

theorem electraUpdate_balance (spec : ChainSpec) (fin e : Nat) (v : Validator) :
    (v.electraUpdate spec fin e).effectiveBalance = v.effectiveBalance := by
  unfold Validator.electraUpdate
  split
  · rfl
  · split <;> rfl

theorem electraUpdate_slashed (spec : ChainSpec) (fin e : Nat) (v : Validator) :
    (v.electraUpdate spec fin e).slashed = v.slashed := by
  unfold Validator.electraUpdate
  split
  · rfl
  · split <;> rfl

theorem electraUpdate_info (spec : ChainSpec) (fin e : Nat) (v : Validator) (key : Bytes) :
    (v.electraUpdate spec fin e).info key = Spec.electraUpdate spec fin e (v.info key) := by
  unfold Validator.electraUpdate Spec.electraUpdate Validator.info
  dsimp only
  split
  · rfl
  · split <;> rfl

theorem present_map_update (dec : Bytes → Option Bytes) (spec : ChainSpec) (fin e t : Nat) (vs : List Validator) :
    present dec (vs.map (Validator.electraUpdate spec fin e)) t =
      (present dec vs t).map (fun x => (x.1, Spec.electraUpdate spec fin e x.2)) := by
  unfold present
  rw [List.zipIdx_map, List.filterMap_map, List.map_filterMap]
  apply List.filterMap_congr
  rintro ⟨v, i⟩ _
  simp only [Function.comp_apply, Prod.map_apply, id_eq, electraUpdate_exit, electraUpdate_pubkey]
  by_cases h : v.exitEpoch ≤ t
  · rw [if_pos h, if_pos h]; rfl
  · rw [if_neg h, if_neg h]
    cases dec v.pubkey with
    | none => rfl
    | some key => simp [electraUpdate_info]

theorem registryLoop_present {ε : Type} (dec : Bytes → Option Bytes) (spec : ChainSpec) (sf tr ju t : Nat)
    (hj : tr ≤ ju) (hsmall : ju + 1 + spec.maxSeedLookahead < U64) (n : Nat) : ∀ (e : Nat) (vs : List Validator),
    sf ≤ e → (n = 0 ∨ e + n ≤ ju + 1) →
    (registryLoop spec sf tr ju n e (present dec vs t) : Res ε _) =
      .ok (present dec (updateRegistry spec sf tr ju n e vs) t) := by
  induction n with
  | zero => intro e vs _ _; rfl
  | succ n ih =>
    intro e vs hsf hn
    have hen : e + (n + 1) ≤ ju + 1 := by omega
    unfold registryLoop updateRegistry
    have hstep : ∃ m, (processRegistryUpdates spec (present dec vs t) (if e < ju then sf else tr) e : Res ε _) = .ok m := by
      unfold processRegistryUpdates
      have : spec.computeActivationExitEpoch e = .ok (e + 1 + spec.maxSeedLookahead) :=
        computeActivationExitEpoch_eq_ok.2 ⟨by omega, rfl⟩
      simp [this, Res.unwrap]
    obtain ⟨m, hm⟩ := hstep
    have hm' := C34_electra spec _ e _ m (by split <;> omega) hm
    simp only [hm, Res.ok_bind]
    rw [hm', ← present_map_update]
    exact ih (e + 1) _ (by omega) (by omega)

/-! ## Keys -/

theorem collectKeys_ok (dec : Bytes → Option Bytes) (t : Nat) (vs : List Validator) :
    ∀ (k : Nat) (active : List (Nat × ValidatorInfo)),
    (∀ v ∈ vs, t < v.exitEpoch → ∃ key, dec v.pubkey = some key) →
    (∀ i info, (i, info) ∈ active → ∀ v, k ≤ i → vs[i - k]? = some v → dec v.pubkey = some info.pubkey) →
    collectKeys dec t (vs.zipIdx k) active = .ok (presentKeys dec t vs) := by
  induction vs with
  | nil => intro k active _ _; rfl
  | cons v vs ih =>
    intro k active hd ha
    rw [List.zipIdx_cons]
    have hrest : ∀ active', (∀ x ∈ active', x ∈ active) →
        collectKeys dec t (vs.zipIdx (k + 1)) active' = .ok (presentKeys dec t vs) := by
      intro active' hs
      refine ih (k + 1) active' (fun w hw => hd w (List.mem_cons_of_mem _ hw)) ?_
      intro i info hm w hi hw
      refine ha i info (hs _ hm) w (by omega) ?_
      rw [show i - k = (i - (k + 1)) + 1 by omega]
      exact hw
    unfold collectKeys presentKeys
    by_cases hv : v.exitEpoch ≤ t
    · rw [if_pos hv, if_pos hv]
      exact hrest active (fun x hx => hx)
    · rw [if_neg hv, if_neg hv]
      obtain ⟨key, hkey⟩ := hd v List.mem_cons_self (by omega)
      cases active with
      | nil =>
        simp only [hkey, expect, Res.ok_bind, hrest [] (by simp)]
        rfl
      | cons a active =>
        obtain ⟨next, info⟩ := a
        dsimp only
        by_cases hn : next = k
        · rw [if_pos hn, hrest active (fun x hx => List.mem_cons_of_mem _ hx)]
          have := ha next info List.mem_cons_self v (by omega) (by rw [hn, Nat.sub_self]; rfl)
          rw [hkey] at this
          cases this
          simp only [hkey, Res.ok_bind]
          rfl
        · rw [if_neg hn, hrest _ (fun x hx => hx)]
          simp only [hkey, expect, Res.ok_bind]
          rfl

/-! ## Patches -/

theorem diffLoop_eq (l : List (Validator × Validator)) : ∀ (k : Nat) (acc : OMap Nat), (∀ x ∈ acc, x.1 < k) →
    diffLoop k l acc = acc ++ (l.zipIdx k).filterMap (fun ((w, v), i) =>
      if w.exitEpoch = v.exitEpoch then none else some (i, w.exitEpoch)) := by
  induction l with
  | nil => intro k acc _; simp [diffLoop]
  | cons a l ih =>
    obtain ⟨w, v⟩ := a
    intro k acc hacc
    rw [List.zipIdx_cons]
    unfold diffLoop
    by_cases h : w.exitEpoch = v.exitEpoch
    · rw [if_neg (by simpa using h), List.filterMap_cons_none (by simp [h])]
      exact ih (k + 1) acc (fun x hx => Nat.lt_succ_of_lt (hacc x hx))
    · rw [if_pos h, OMap.insert_append acc k _ hacc, ih (k + 1), List.filterMap_cons_some (b := (k, w.exitEpoch)) (by simp [h])]
      · simp
      · intro x hx
        rcases List.mem_append.1 hx with hx | hx
        · exact Nat.lt_succ_of_lt (hacc x hx)
        · simp only [List.mem_cons, List.not_mem_nil, or_false] at hx
          subst hx; exact Nat.lt_succ_self k

theorem diffLoop_changedExits (vs ws : List Validator) : diffLoop 0 (ws.zip vs) [] = changedExits vs ws :=
  diffLoop_eq _ 0 [] (by simp)

theorem changedExits_sorted (vs ws : List Validator) : (changedExits vs ws).Sorted := by
  refine (sorted_filterMap_zipIdx _ ?_ (ws.zip vs) 0).1
  rintro ⟨⟨w, v⟩, i⟩ y hy
  dsimp only at hy
  split at hy
  · simp at hy
  · simp only [Option.some.injEq] at hy
    subst hy; rfl

theorem mem_changedExits {vs ws : List Validator} {i x : Nat} :
    (i, x) ∈ changedExits vs ws ↔ ∃ v w, vs[i]? = some v ∧ ws[i]? = some w ∧ w.exitEpoch ≠ v.exitEpoch ∧
      x = w.exitEpoch := by
  unfold changedExits
  rw [List.mem_filterMap]
  constructor
  · rintro ⟨⟨⟨w, v⟩, j⟩, hm, hy⟩
    rw [List.mem_zipIdx_iff_getElem?, List.getElem?_zip_eq_some] at hm
    dsimp only at hm hy
    split at hy
    · simp at hy
    · rename_i hne
      simp only [Option.some.injEq, Prod.mk.injEq] at hy
      obtain ⟨rfl, rfl⟩ := hy
      exact ⟨v, w, hm.2, hm.1, hne, rfl⟩
  · rintro ⟨v, w, h1, h2, h3, rfl⟩
    refine ⟨((w, v), i), by rw [List.mem_zipIdx_iff_getElem?, List.getElem?_zip_eq_some]; exact ⟨h2, h1⟩, ?_⟩
    dsimp only
    rw [if_neg h3]

theorem get?_changedExits {vs ws : List Validator} {i x : Nat} :
    (changedExits vs ws).get? i = some x ↔ ∃ v w, vs[i]? = some v ∧ ws[i]? = some w ∧ w.exitEpoch ≠ v.exitEpoch ∧
      x = w.exitEpoch := by
  rw [OMap.get?_eq_some_iff (changedExits_sorted vs ws), mem_changedExits]

theorem randaoMixes_ok (l : List Nat) : ∀ (b : PatchBuilder), (∀ i ∈ l, ∃ m, b.state.randaoMixes[i]? = some m) →
    ∃ m, b.randaoMixes l = .ok ⟨b.state, ⟨m, b.patch.validatorExits⟩⟩ ∧
      (∀ i, m.get? i = if i ∈ l then b.state.randaoMixes[i]? else b.patch.randaoMixes.get? i) ∧
      (b.patch.randaoMixes.Sorted → m.Sorted) := by
  induction l with
  | nil => intro b _; exact ⟨b.patch.randaoMixes, rfl, by simp, id⟩
  | cons j l ih =>
    intro b h
    obtain ⟨x, hx⟩ := h j List.mem_cons_self
    have hstep : b.randaoMix j = .ok ⟨b.state, ⟨b.patch.randaoMixes.insert j x, b.patch.validatorExits⟩⟩ := by
      unfold PatchBuilder.randaoMix
      simp [hx, okOr]
    obtain ⟨m, h1, h2, h3⟩ := ih ⟨b.state, ⟨b.patch.randaoMixes.insert j x, b.patch.validatorExits⟩⟩
      (fun i hi => h i (List.mem_cons_of_mem _ hi))
    refine ⟨m, ?_, ?_, fun hs => h3 (OMap.sorted_insert hs _ _)⟩
    · unfold PatchBuilder.randaoMixes
      simp only [hstep, Res.ok_bind]
      exact h1
    · intro i
      rw [h2 i]
      dsimp only
      by_cases hi : i ∈ l
      · rw [if_pos hi, if_pos (List.mem_cons_of_mem _ hi)]
      · rw [if_neg hi, OMap.get?_insert]
        by_cases hj : i = j
        · subst hj; simp [hx]
        · rw [if_neg hj, if_neg]
          simp [hj, hi]

/-- The state of an epoch as the host's functions find it. -/
theorem newPatchBuilder_eq {r : HostReader} {e : Nat} {s : HostState} (h : r.state e = .ok s) :
    newPatchBuilder r e = .ok ⟨s, .empty⟩ := by
  unfold HostReader.state at h
  rw [Res.mapErr_eq_ok] at h
  unfold newPatchBuilder
  rw [h]; rfl

theorem mixPatches_ok (r : HostReader) (L : List (Nat × OSet)) : ∀ (m : OMap PatchBuilder), m.Sorted →
    OMap.Sorted L → (∀ e idxs, (e, idxs) ∈ L → m.get? e = none) →
    (∀ e idxs, (e, idxs) ∈ L → ∃ s, r.state e = .ok s ∧ ∀ i ∈ idxs, ∃ x, s.randaoMixes[i]? = some x) →
    ∃ m', mixPatches r L m = .ok m' ∧ m'.Sorted ∧
      (∀ e idxs, (e, idxs) ∈ L → ∃ s b, r.state e = .ok s ∧ m'.get? e = some b ∧ b.state = s ∧
        b.patch.validatorExits = [] ∧ (∀ i, b.patch.randaoMixes.get? i = if i ∈ idxs then s.randaoMixes[i]? else none) ∧
        b.patch.randaoMixes.Sorted) ∧
      ∀ e, e ∉ OMap.keys L → m'.get? e = m.get? e := by
  induction L with
  | nil => intro m hm _ _ _; exact ⟨m, rfl, hm, by simp, fun e _ => rfl⟩
  | cons a L ih =>
    obtain ⟨e, idxs⟩ := a
    intro m hm hL hnone hs
    obtain ⟨hL1, hL2⟩ := List.pairwise_cons.1 hL
    obtain ⟨s, h1, h2⟩ := hs e idxs List.mem_cons_self
    obtain ⟨mx, h3, h4, h5⟩ := randaoMixes_ok idxs ⟨s, .empty⟩ h2
    have hne : ∀ e' idxs', (e', idxs') ∈ L → e' ≠ e := by
      intro e' idxs' hm' he
      have := hL1 _ hm'
      simp only at this; omega
    obtain ⟨m', g1, g2, g3, g4⟩ := ih (m.insert e ⟨s, ⟨mx, []⟩⟩) (OMap.sorted_insert hm _ _) hL2 (by
      intro e' idxs' hm'
      rw [OMap.get?_insert, if_neg (hne e' idxs' hm')]
      exact hnone e' idxs' (List.mem_cons_of_mem _ hm'))
      (fun e' idxs' hm' => hs e' idxs' (List.mem_cons_of_mem _ hm'))
    refine ⟨m', ?_, g2, ?_, ?_⟩
    · unfold mixPatches
      simp only [newPatchBuilder_eq h1, Res.ok_bind, hnone e idxs List.mem_cons_self, Option.getD_none, h3]
      exact g1
    · intro e' idxs' hm'
      rcases List.mem_cons.1 hm' with hm' | hm'
      · cases hm'
        refine ⟨s, ⟨s, ⟨mx, []⟩⟩, h1, ?_, rfl, rfl, h4, h5 List.Pairwise.nil⟩
        rw [g4 e, OMap.get?_insert, if_pos rfl]
        intro hk
        obtain ⟨z, hz, hz'⟩ := List.mem_map.1 hk
        exact hne z.1 z.2 hz hz'
      · exact g3 e' idxs' hm'
    · intro e' he'
      simp only [OMap.keys, List.map_cons, List.mem_cons, not_or] at he'
      rw [g4 e' he'.2, OMap.get?_insert, if_neg he'.1]

theorem exitPatches_ok (r : HostReader) (t : Nat) (vs : List Validator) (L : List Nat) :
    ∀ (m : OMap PatchBuilder), m.Sorted → L.Nodup →
    (∀ e ∈ L, ∀ b, m.get? e = some b → b.patch.validatorExits = [] ∧ r.state e = .ok b.state) →
    (∀ e ∈ L, ∃ s, r.state e = .ok s) →
    ∃ m', exitPatches r t vs L m = .ok m' ∧ m'.Sorted ∧
      (∀ e ∈ L, e ≠ t → ∃ s b, r.state e = .ok s ∧ m'.get? e = some b ∧
        b.patch = ⟨((m.get? e).map (·.patch.randaoMixes)).getD [], changedExits vs s.beacon.validators⟩) ∧
      ∀ e, e ∉ L ∨ e = t → m'.get? e = m.get? e := by
  induction L with
  | nil => intro m hm _ _ _; exact ⟨m, rfl, hm, by simp, fun e _ => rfl⟩
  | cons e L ih =>
    intro m hm hL hb hs
    obtain ⟨hL1, hL2⟩ := List.nodup_cons.1 hL
    by_cases het : e = t
    · obtain ⟨m', g1, g2, g3, g4⟩ := ih m hm hL2 (fun e' h' => hb e' (List.mem_cons_of_mem _ h'))
        (fun e' h' => hs e' (List.mem_cons_of_mem _ h'))
      refine ⟨m', ?_, g2, ?_, ?_⟩
      · unfold exitPatches
        rw [if_neg (by simpa using het)]
        exact g1
      · intro e' h' hne
        rcases List.mem_cons.1 h' with rfl | h'
        · exact absurd het hne
        · exact g3 e' h' hne
      · intro e' h'
        apply g4
        rcases h' with h' | h'
        · exact Or.inl (fun hm' => h' (List.mem_cons_of_mem _ hm'))
        · exact Or.inr h'
    · obtain ⟨s, h1⟩ := hs e List.mem_cons_self
      -- the builder that is used
      have hbuild : ∃ b : PatchBuilder, ((m.get? e).getD ⟨s, .empty⟩) = b ∧ b.state = s ∧ b.patch.validatorExits = [] ∧
          b.patch.randaoMixes = ((m.get? e).map (·.patch.randaoMixes)).getD [] := by
        cases hg : m.get? e with
        | none => exact ⟨_, rfl, rfl, rfl, rfl⟩
        | some b =>
          obtain ⟨b1, b2⟩ := hb e List.mem_cons_self b hg
          rw [h1] at b2
          simp only [Res.ok.injEq] at b2
          exact ⟨b, rfl, b2.symm, b1, rfl⟩
      obtain ⟨b, b1, b2, b3, b4⟩ := hbuild
      have hdiff : b.validatorDiff vs = ⟨s, ⟨((m.get? e).map (·.patch.randaoMixes)).getD [],
          changedExits vs s.beacon.validators⟩⟩ := by
        unfold PatchBuilder.validatorDiff
        rw [b2, b3, b4, diffLoop_changedExits]
      have hne : ∀ e' ∈ L, e' ≠ e := fun e' h' he => hL1 (he ▸ h')
      obtain ⟨m', g1, g2, g3, g4⟩ := ih (m.insert e (b.validatorDiff vs)) (OMap.sorted_insert hm _ _) hL2 (by
          intro e' h' b' hb'
          rw [OMap.get?_insert, if_neg (hne e' h')] at hb'
          exact hb e' (List.mem_cons_of_mem _ h') b' hb')
        (fun e' h' => hs e' (List.mem_cons_of_mem _ h'))
      refine ⟨m', ?_, g2, ?_, ?_⟩
      · unfold exitPatches
        rw [if_pos het]
        simp only [newPatchBuilder_eq h1, Res.ok_bind, b1]
        exact g1
      · intro e' h' hne'
        rcases List.mem_cons.1 h' with h' | h'
        · subst h'
          refine ⟨s, b.validatorDiff vs, h1, ?_, by rw [hdiff]⟩
          rw [g4 e' (Or.inl hL1), OMap.get?_insert, if_pos rfl]
        · obtain ⟨s', b', c1, c2, c3⟩ := g3 e' h' hne'
          refine ⟨s', b', c1, c2, ?_⟩
          rw [c3, OMap.get?_insert, if_neg (hne e' h')]
      · intro e' h'
        have hne' : e' ≠ e := by
          rcases h' with h' | h'
          · exact fun he => h' (he ▸ List.mem_cons_self)
          · exact fun he => het (he ▸ h')
        rw [g4 e', OMap.get?_insert, if_neg hne']
        rcases h' with h' | h'
        · exact Or.inl (fun hm' => h' (List.mem_cons_of_mem _ hm'))
        · exact Or.inr h'

/-! ## The record -/

/-- What is known about a query that has been answered. -/
def Answered (t : Nat) (r : HostReader) : Query → Prop
  | .activeValidators e => t ≤ e ∧ ∃ a, r.activeValidators e = .ok a
  | .randaoMix e i => ∃ m, r.randaoMix e i = .ok (some m)
  | .slotForBlock root => ∃ s, r.slotForBlock root = .ok s

/-- The record of a sequence of queries. -/
structure Recorded (t : Nat) (r : HostReader) (qs : List Query) (log : PreflightLog) : Prop where
  epochs_sorted : OSet.Sorted log.validatorEpochs
  mixes_sorted : OMap.Sorted log.mixEpochs
  epochs : ∀ e, e ∈ log.validatorEpochs ↔ Query.activeValidators e ∈ qs
  mixes : ∀ e i, (∃ idxs, log.mixEpochs.get? e = some idxs ∧ i ∈ idxs) ↔ Query.randaoMix e i ∈ qs
  mixes_ne : ∀ e idxs, log.mixEpochs.get? e = some idxs → idxs ≠ []
  blocks : ∀ root, root ∈ log.blockReads ↔ Query.slotForBlock root ∈ qs
  blocks_nodup : log.blockReads.Nodup
  answered : ∀ q ∈ qs, Answered t r q

theorem preflightQuery_recorded {t : Nat} {r : HostReader} {qs : List Query} {log log' : PreflightLog} {q : Query}
    (h : preflightQuery t r log q = .ok log') (hr : Recorded t r qs log) : Recorded t r (qs ++ [q]) log' := by
  cases q with
  | activeValidators e =>
    unfold preflightQuery at h
    obtain ⟨⟨⟩, h1, h⟩ := Res.bind_eq_ok.1 h
    obtain ⟨a, h2, h⟩ := Res.bind_eq_ok.1 h
    have h1 : t ≤ e := by simpa using h1
    cases h
    refine ⟨OSet.sorted_insert hr.epochs_sorted _, hr.mixes_sorted, ?_, ?_, hr.mixes_ne, ?_, ?_, ?_⟩
    · intro e'
      rw [OSet.mem_insert, List.mem_append, hr.epochs]
      simp [or_comm]
    · intro e' i
      rw [List.mem_append, ← hr.mixes]
      simp
    · intro root
      rw [List.mem_append, ← hr.blocks]
      simp
    · exact hr.blocks_nodup
    · intro q hq
      rcases List.mem_append.1 hq with hq | hq
      · exact hr.answered q hq
      · simp only [List.mem_cons, List.not_mem_nil, or_false] at hq
        subst hq; exact ⟨h1, a, h2⟩
  | randaoMix e i =>
    unfold preflightQuery at h
    obtain ⟨m, h1, h⟩ := Res.bind_eq_ok.1 h
    obtain ⟨m', h2, h⟩ := Res.bind_eq_ok.1 h
    have h2 : m = some m' := by
      cases m with
      | none => simp [expect] at h2
      | some x => simp only [expect, Res.ok.injEq] at h2; rw [h2]
    subst h2
    cases h
    refine ⟨hr.epochs_sorted, OMap.sorted_insert hr.mixes_sorted _ _, ?_, ?_, ?_, ?_, ?_, ?_⟩
    · intro e'
      rw [List.mem_append, ← hr.epochs]
      simp
    · intro e' j
      rw [List.mem_append, ← hr.mixes]
      dsimp only
      rw [OMap.get?_insert]
      by_cases he : e' = e
      · subst he
        rw [if_pos rfl]
        simp only [Option.some.injEq, exists_eq_left', OSet.mem_insert, List.mem_cons, List.not_mem_nil, or_false,
          Query.randaoMix.injEq, true_and]
        cases hg : log.mixEpochs.get? e' with
        | none => simp
        | some idxs => simp [or_comm]
      · rw [if_neg he]
        simp [he]
    · intro e' idxs hg
      dsimp only at hg
      rw [OMap.get?_insert] at hg
      split at hg
      · simp only [Option.some.injEq] at hg
        subst hg
        exact List.ne_nil_of_mem (a := i) (by rw [OSet.mem_insert]; exact Or.inl rfl)
      · exact hr.mixes_ne e' idxs hg
    · intro root
      rw [List.mem_append, ← hr.blocks]
      simp
    · exact hr.blocks_nodup
    · intro q hq
      rcases List.mem_append.1 hq with hq | hq
      · exact hr.answered q hq
      · simp only [List.mem_cons, List.not_mem_nil, or_false] at hq
        subst hq; exact ⟨m', h1⟩
  | slotForBlock root =>
    unfold preflightQuery at h
    obtain ⟨s, h1, h⟩ := Res.bind_eq_ok.1 h
    cases h
    refine ⟨hr.epochs_sorted, hr.mixes_sorted, ?_, ?_, hr.mixes_ne, ?_, ?_, ?_⟩
    · intro e'
      rw [List.mem_append, ← hr.epochs]
      simp
    · intro e' i
      rw [List.mem_append, ← hr.mixes]
      simp
    · intro root'
      rw [List.mem_append, ← hr.blocks]
      dsimp only
      split
      · rename_i hin
        simp only [List.mem_cons, List.not_mem_nil, or_false, Query.slotForBlock.injEq]
        constructor
        · exact Or.inl
        · rintro (h | rfl)
          · exact h
          · exact hin
      · simp
    · dsimp only
      split
      · exact hr.blocks_nodup
      · rename_i hin
        rw [List.nodup_append]
        refine ⟨hr.blocks_nodup, by simp, ?_⟩
        rintro a ha b hb rfl
        exact hin (by rw [← List.mem_singleton.1 hb]; exact ha)
    · intro q hq
      rcases List.mem_append.1 hq with hq | hq
      · exact hr.answered q hq
      · simp only [List.mem_cons, List.not_mem_nil, or_false] at hq
        subst hq; exact ⟨s, h1⟩

theorem preflightRun_recorded' {t : Nat} {r : HostReader} (qs' : List Query) : ∀ {qs : List Query} {log log' : PreflightLog},
    preflightRun t r log qs' = .ok log' → Recorded t r qs log → Recorded t r (qs ++ qs') log' := by
  induction qs' with
  | nil =>
    intro qs log log' h hr
    cases h
    rw [List.append_nil]; exact hr
  | cons q qs' ih =>
    intro qs log log' h hr
    unfold preflightRun at h
    obtain ⟨l1, h1, h2⟩ := Res.bind_eq_ok.1 h
    have := ih h2 (preflightQuery_recorded h1 hr)
    simpa using this

theorem preflightRun_recorded {t : Nat} {r : HostReader} {qs : List Query} {log : PreflightLog}
    (h : preflightRun t r .empty qs = .ok log) : Recorded t r qs log := by
  refine preflightRun_recorded' qs h (qs := []) ⟨List.Pairwise.nil, List.Pairwise.nil, ?_, ?_, ?_, ?_, ?_, ?_⟩ <;>
    simp [PreflightLog.empty, OMap.get?]

/-! ## Answers of the host -/

theorem activeValidators_state {r : HostReader} {e : Nat} {a : List (Nat × ValidatorInfo)}
    (h : r.activeValidators e = .ok a) : ∃ s, r.state e = .ok s := by
  unfold HostReader.activeValidators at h
  obtain ⟨s, h1, -⟩ := Res.bind_eq_ok.1 h
  exact ⟨s, h1⟩

theorem randaoMix_state {r : HostReader} {e i : Nat} {m : Option Root} (h : r.randaoMix e i = .ok m) :
    ∃ s, r.state e = .ok s ∧ s.randaoMixes[i]? = m := by
  unfold HostReader.randaoMix at h
  obtain ⟨s, h1, h⟩ := Res.bind_eq_ok.1 h
  exact ⟨s, h1, by cases h; rfl⟩

theorem slotForBlock_header {r : HostReader} {root : Root} {n : Nat} (h : r.slotForBlock root = .ok n) :
    ∃ hd, r.headers root = .ok (some hd) ∧ hd.slot = n := by
  unfold HostReader.slotForBlock at h
  obtain ⟨o, h1, h⟩ := Res.bind_eq_ok.1 h
  obtain ⟨hd, h2, h⟩ := Res.bind_eq_ok.1 h
  cases o with
  | none => simp [okOr] at h2
  | some x =>
    simp only [okOr, Res.ok.injEq] at h2
    subst h2
    exact ⟨x, h1, by cases h; rfl⟩

theorem mapRes_ok_forall {ε α β : Type} {f : α → Res ε β} : ∀ {l : List α} {out : List β}, mapRes f l = .ok out →
    List.Forall₂ (fun a b => f a = .ok b) l out := by
  intro l
  induction l with
  | nil => intro out h; cases h; exact .nil
  | cons a l ih =>
    intro out h
    unfold mapRes at h
    obtain ⟨b, h1, h⟩ := Res.bind_eq_ok.1 h
    obtain ⟨bs, h2, h⟩ := Res.bind_eq_ok.1 h
    cases h
    exact .cons h1 (ih h2)

theorem forall₂_mem_right {α β : Type} {R : α → β → Prop} {l : List α} {l' : List β} (h : List.Forall₂ R l l') {b : β}
    (hb : b ∈ l') : ∃ a ∈ l, R a b := by
  induction h with
  | nil => simp at hb
  | cons h1 _ ih =>
    rcases List.mem_cons.1 hb with rfl | hb
    · exact ⟨_, List.mem_cons_self, h1⟩
    · obtain ⟨a, ha, hr⟩ := ih hb
      exact ⟨a, List.mem_cons_of_mem _ ha, hr⟩

theorem forall₂_mem_left {α β : Type} {R : α → β → Prop} {l : List α} {l' : List β} (h : List.Forall₂ R l l') {a : α}
    (ha : a ∈ l) : ∃ b ∈ l', R a b := by
  induction h with
  | nil => simp at ha
  | cons h1 _ ih =>
    rcases List.mem_cons.1 ha with rfl | ha
    · exact ⟨_, List.mem_cons_self, h1⟩
    · obtain ⟨b, hb, hr⟩ := ih ha
      exact ⟨b, List.mem_cons_of_mem _ hb, hr⟩

theorem toValidatorInfo_eq_ok {dec : Bytes → Option Bytes} {v : Validator} {x : ValidatorInfo} :
    toValidatorInfo dec v = .ok x ↔ ∃ key, dec v.pubkey = some key ∧ x = v.info key := by
  unfold toValidatorInfo
  cases h : dec v.pubkey with
  | none => simp [okOr]
  | some key => simp [okOr, Validator.info, eq_comm]

theorem mem_activeValidators {r : HostReader} {e : Nat} {a : List (Nat × ValidatorInfo)} {s : HostState}
    (hs : r.state e = .ok s) (h : r.activeValidators e = .ok a) {i : Nat} {x : ValidatorInfo} :
    (i, x) ∈ a ↔ ∃ w key, s.beacon.validators[i]? = some w ∧ w.activeAt e ∧ r.decompress w.pubkey = some key ∧
      x = w.info key := by
  unfold HostReader.activeValidators at h
  rw [hs, Res.ok_bind] at h
  have hf := mapRes_ok_forall h
  constructor
  · intro hm
    obtain ⟨⟨w, j⟩, hw, hx⟩ := forall₂_mem_right hf hm
    obtain ⟨info, h1, h2⟩ := Res.bind_eq_ok.1 hx
    cases h2
    obtain ⟨key, h3, h4⟩ := toValidatorInfo_eq_ok.1 h1
    rw [List.mem_filter, List.mem_zipIdx_iff_getElem?] at hw
    obtain ⟨h5, h6⟩ := hw
    simp only [Bool.and_eq_true, decide_eq_true_eq] at h6
    exact ⟨w, key, h5, h6, h3, h4⟩
  · rintro ⟨w, key, h1, h2, h3, rfl⟩
    have hw : (w, i) ∈ s.beacon.validators.zipIdx.filter
        (fun (v, _) => decide (v.activationEpoch ≤ e) && decide (e < v.exitEpoch)) := by
      rw [List.mem_filter, List.mem_zipIdx_iff_getElem?]
      refine ⟨h1, ?_⟩
      simp only [Bool.and_eq_true, decide_eq_true_eq]
      exact h2
    obtain ⟨b, hb, hr⟩ := forall₂_mem_left hf hw
    obtain ⟨info, h4, h5⟩ := Res.bind_eq_ok.1 hr
    cases h5
    obtain ⟨key', h6, h7⟩ := toValidatorInfo_eq_ok.1 h4
    rw [h3] at h6
    cases h6
    rw [← h7]; exact hb

theorem activeValidators_sorted {r : HostReader} {e : Nat} {a : List (Nat × ValidatorInfo)}
    (h : r.activeValidators e = .ok a) : OMap.Sorted a := by
  unfold HostReader.activeValidators at h
  obtain ⟨s, -, h'⟩ := Res.bind_eq_ok.1 h
  have hf := mapRes_ok_forall h'
  have hp : List.Pairwise (fun a b : Validator × Nat => a.2 < b.2) (s.beacon.validators.zipIdx.filter
        (fun (v, _) => decide (v.activationEpoch ≤ e) && decide (e < v.exitEpoch))) := by
    apply List.Pairwise.filter
    generalize s.beacon.validators = l
    suffices ∀ k, List.Pairwise (fun a b : Validator × Nat => a.2 < b.2) (l.zipIdx k) from this 0
    induction l with
    | nil => simp
    | cons v l ih =>
      intro k
      rw [List.zipIdx_cons, List.pairwise_cons]
      refine ⟨?_, ih (k + 1)⟩
      rintro ⟨w, j⟩ hm
      have := List.le_snd_of_mem_zipIdx hm
      dsimp only at this ⊢
      omega
  revert hp
  generalize (s.beacon.validators.zipIdx.filter
        (fun (v, _) => decide (v.activationEpoch ≤ e) && decide (e < v.exitEpoch))) = l at hf
  intro hp
  have hidx : ∀ (x : Validator × Nat) y, (do
      let info ← toValidatorInfo r.decompress x.1
      return (x.2, info) : Res HostError _) = .ok y → y.1 = x.2 := by
    intro x y hxy
    obtain ⟨info, h1, h2⟩ := Res.bind_eq_ok.1 hxy
    cases h2; rfl
  unfold OMap.Sorted
  clear h h'
  induction hf with
  | nil => simp
  | cons h1 hf' ih =>
    rw [List.pairwise_cons] at hp ⊢
    refine ⟨?_, ih hp.2⟩
    intro y hy
    obtain ⟨x, hx, hxy⟩ := forall₂_mem_right hf' hy
    have := hp.1 x hx
    rw [hidx _ _ h1, hidx _ _ hxy]
    exact this

/-! ## The input -/

theorem forall₂_of_forall {α β : Type} {R : α → β → Prop} : ∀ {l : List α}, (∀ a ∈ l, ∃ b, R a b) →
    ∃ l', List.Forall₂ R l l' := by
  intro l
  induction l with
  | nil => intro _; exact ⟨[], .nil⟩
  | cons a l ih =>
    intro h
    obtain ⟨b, hb⟩ := h a List.mem_cons_self
    obtain ⟨l', hl'⟩ := ih (fun a ha => h a (List.mem_cons_of_mem _ ha))
    exact ⟨b :: l', .cons hb hl'⟩

theorem mapRes_of_forall {ε α β : Type} {f : α → Res ε β} {l : List α} {out : List β}
    (h : List.Forall₂ (fun a b => f a = .ok b) l out) : mapRes f l = .ok out := by
  induction h with
  | nil => rfl
  | cons h1 _ ih => unfold mapRes; simp only [h1, ih, Res.ok_bind]; rfl

theorem verify_calculateRoot {X : Ext} {p : Multiproof} {root : Root} (h : p.verify X root = .ok ()) :
    p.calculateRoot X = .ok root :=
  (C25_root_ok_iff X p root).2 ((C25_verify_ok_iff X p root).1 h)

/-- The proof of a slot is good for a root of which the host knows the header. -/
structure SlotProofOf (X : Ext) (r : HostReader) (root : Root) (p : Multiproof) : Prop where
  verifies : p.verify X root = .ok ()
  value : ∃ h, r.headers root = .ok (some h) ∧ p.values = [(blockSlotGindex, u64Chunk h.slot)] ∧ h.slot < 2 ^ 64
  size : ProofSize 3 p

theorem slotProof_ok (X : Ext) {r : HostReader} {root : Root} {h : Header} (hh : r.headers root = .ok (some h))
    (hw : h.WF) (hroot : h.tree.root X = root) (order : List Nat → List Nat) (ho : ∀ l, (order l).Perm l)
    (hcap : 126 ≤ X.stackCapacity) : ∃ p, slotProof X order r root = .ok p ∧ SlotProofOf X r root p := by
  obtain ⟨p, h1, h2, h3, hg⟩ := build_slot X h hw order ho hcap
  have hsize := build_size X (Spec.Header.tree_chunked hw) (by decide) hg order ho h1
  rw [slot_ancestors] at hsize
  rw [hroot] at h2
  refine ⟨p, ?_, h2, ⟨h, hh, h3, hw.slot⟩, hsize⟩
  unfold slotProof
  rw [hh]
  simp only [Res.mapErr, Res.ok_bind, okOr, h1, h2]
  rfl

theorem blockSlotLoop_complete (X : Ext) (r : HostReader) {roots : List Root} {ps : List Multiproof}
    (h : List.Forall₂ (SlotProofOf X r) roots ps) : ∀ (m : List (Root × Nat)),
    (∀ x ∈ m, ∃ hd, r.headers x.1 = .ok (some hd) ∧ x.2 = hd.slot) →
    ∃ out, blockSlotLoop X ps m = .ok out ∧ (∀ x ∈ out, ∃ hd, r.headers x.1 = .ok (some hd) ∧ x.2 = hd.slot) ∧
      (∀ x ∈ m, x ∈ out) ∧ ∀ root ∈ roots, ∃ n, (root, n) ∈ out := by
  induction h with
  | nil => intro m hm; exact ⟨m, rfl, hm, fun _ h => h, by simp⟩
  | @cons root p roots ps h1 _ ih =>
    intro m hm
    obtain ⟨hd, e1, e2, e3⟩ := h1.value
    obtain ⟨out, g1, g2, g3, g4⟩ := ih ((root, hd.slot) :: m) (by
      intro x hx
      rcases List.mem_cons.1 hx with rfl | hx
      · exact ⟨hd, e1, rfl⟩
      · exact hm x hx)
    refine ⟨out, ?_, g2, fun x hx => g3 x (List.mem_cons_of_mem _ hx), ?_⟩
    · unfold blockSlotLoop
      have hn : nextAssertGindex p.values blockSlotGindex = .ok (u64Chunk hd.slot, []) :=
        nextAssertGindex_eq_ok.2 e2
      simp only [verify_calculateRoot h1.verifies, hn, Res.mapErr, Res.ok_bind]
      rw [u64FromChunk_u64Chunk _ e3]
      exact g1
    · intro root' hr
      rcases List.mem_cons.1 hr with rfl | hr
      · exact ⟨hd.slot, g3 _ List.mem_cons_self⟩
      · exact g4 root' hr

/-- The patches of an input for the recorded queries. -/
structure PatchesFor (r : HostReader) (t : Nat) (vs : List Validator) (qs : List Query) (patches : OMap StatePatch) :
    Prop where
  sorted : patches.Sorted
  exits : ∀ e, Query.activeValidators e ∈ qs → e ≠ t → ∃ s p, r.state e = .ok s ∧ patches.get? e = some p ∧
    p.validatorExits = changedExits vs s.beacon.validators
  no_exits : ∀ e p, (Query.activeValidators e ∉ qs ∨ e = t) → patches.get? e = some p → p.validatorExits = []
  mixes : ∀ e i, Query.randaoMix e i ∈ qs → ∃ s p, r.state e = .ok s ∧ patches.get? e = some p ∧
    p.randaoMixes.get? i = s.randaoMixes[i]?
  epochs : ∀ e p, patches.get? e = some p → (Query.activeValidators e ∈ qs ∧ e ≠ t) ∨ ∃ i, Query.randaoMix e i ∈ qs
  mixes_sorted : ∀ e p, patches.get? e = some p → p.randaoMixes.Sorted
  mixes_only : ∀ e p i x, patches.get? e = some p → p.randaoMixes.get? i = some x →
    Query.randaoMix e i ∈ qs ∧ ∃ s, r.state e = .ok s ∧ s.randaoMixes[i]? = some x

theorem sorted_map_snd {V W : Type} {m : OMap V} (f : V → W) (h : m.Sorted) :
    OMap.Sorted (m.map (fun x => (x.1, f x.2))) := by
  unfold OMap.Sorted at h ⊢
  rw [List.pairwise_map]
  exact h

theorem patches_ok {r : HostReader} {t : Nat} {vs : List Validator} {qs : List Query} {log : PreflightLog}
    (h : Recorded t r qs log) : ∃ b1 b2, mixPatches r log.mixEpochs [] = .ok b1 ∧
      exitPatches r t vs log.validatorEpochs b1 = .ok b2 ∧
      PatchesFor r t vs qs (b2.map (fun (epoch, b) => (epoch, b.patch))) := by
  have hmem : ∀ e idxs, (e, idxs) ∈ log.mixEpochs ↔ log.mixEpochs.get? e = some idxs :=
    fun e idxs => (OMap.get?_eq_some_iff h.mixes_sorted).symm
  have hmix : ∀ e i idxs, log.mixEpochs.get? e = some idxs → i ∈ idxs → ∃ s x, r.state e = .ok s ∧
      s.randaoMixes[i]? = some x := by
    intro e i idxs hg hi
    obtain ⟨m, hm⟩ := h.answered _ ((h.mixes e i).1 ⟨idxs, hg, hi⟩)
    obtain ⟨s, h1, h2⟩ := randaoMix_state hm
    exact ⟨s, m, h1, h2⟩
  have hst : ∀ e idxs, (e, idxs) ∈ log.mixEpochs → ∃ s, r.state e = .ok s ∧ ∀ i ∈ idxs, ∃ x, s.randaoMixes[i]? = some x := by
    intro e idxs hm
    rw [hmem] at hm
    obtain ⟨j, hj⟩ := List.exists_mem_of_ne_nil _ (h.mixes_ne e idxs hm)
    obtain ⟨s, x, h1, -⟩ := hmix e j idxs hm hj
    refine ⟨s, h1, fun i hi => ?_⟩
    obtain ⟨s', x', h1', h2'⟩ := hmix e i idxs hm hi
    rw [h1] at h1'
    cases h1'
    exact ⟨x', h2'⟩
  obtain ⟨b1, f1, f2, f3, f4⟩ := mixPatches_ok r log.mixEpochs [] List.Pairwise.nil h.mixes_sorted
    (fun _ _ _ => rfl) hst
  have hb1 : ∀ e b, b1.get? e = some b → b.patch.validatorExits = [] ∧ r.state e = .ok b.state ∧
      (∃ i, Query.randaoMix e i ∈ qs) ∧ b.patch.randaoMixes.Sorted ∧
      ∀ i x, b.patch.randaoMixes.get? i = some x → Query.randaoMix e i ∈ qs ∧ b.state.randaoMixes[i]? = some x := by
    intro e b hb
    by_cases hk : e ∈ OMap.keys log.mixEpochs
    · obtain ⟨⟨e', idxs⟩, hm, rfl⟩ := List.mem_map.1 hk
      obtain ⟨s, b', g1, g2, g3, g4, g5, g6⟩ := f3 e' idxs hm
      dsimp only at hb
      rw [hb] at g2
      cases g2
      obtain ⟨j, hj⟩ := List.exists_mem_of_ne_nil _ (h.mixes_ne e' idxs ((hmem _ _).1 hm))
      refine ⟨g4, by rw [g3]; exact g1, ⟨j, (h.mixes e' j).1 ⟨idxs, (hmem _ _).1 hm, hj⟩⟩, g6, fun i x hx => ?_⟩
      rw [g5 i] at hx
      split at hx
      · rename_i hi
        exact ⟨(h.mixes e' i).1 ⟨idxs, (hmem _ _).1 hm, hi⟩, by rw [g3]; exact hx⟩
      · cases hx
    · rw [f4 e hk] at hb
      simp [OMap.get?] at hb
  obtain ⟨b2, g1, g2, g3, g4⟩ := exitPatches_ok r t vs log.validatorEpochs b1 f2
    (h.epochs_sorted.imp (fun {a b} hab => Nat.ne_of_lt hab))
    (fun e _ b hb => ⟨(hb1 e b hb).1, (hb1 e b hb).2.1⟩)
    (fun e he => by
      obtain ⟨-, a, ha⟩ := h.answered _ ((h.epochs e).1 he)
      exact activeValidators_state ha)
  have hget : ∀ e, OMap.get? (b2.map (fun (epoch, b) => (epoch, b.patch))) e = (b2.get? e).map (·.patch) := by
    intro e
    exact OMap.get?_map (fun _ b => b.patch) b2 e
  have hpatch : ∀ e p, OMap.get? (b2.map (fun (epoch, b) => (epoch, b.patch))) e = some p → p.randaoMixes = [] ∨
      ∃ b, b1.get? e = some b ∧ p.randaoMixes = b.patch.randaoMixes := by
    intro e p hp
    rw [hget] at hp
    obtain ⟨b, hb, rfl⟩ := Option.map_eq_some_iff.1 hp
    by_cases he : e ∈ log.validatorEpochs ∧ e ≠ t
    · obtain ⟨s, b', k1, k2, k3⟩ := g3 e he.1 he.2
      rw [hb] at k2
      cases k2
      rw [k3]
      cases hg : b1.get? e with
      | none => exact Or.inl rfl
      | some b' => exact Or.inr ⟨b', rfl, rfl⟩
    · refine Or.inr ⟨b, ?_, rfl⟩
      rw [← g4 e, hb]
      by_cases h' : e ∈ log.validatorEpochs
      · exact Or.inr (by_contra (fun hne => he ⟨h', hne⟩))
      · exact Or.inl h'
  refine ⟨b1, b2, f1, g1, sorted_map_snd _ g2, ?_, ?_, ?_, ?_, ?_, ?_⟩
  · intro e he hne
    obtain ⟨s, b, k1, k2, k3⟩ := g3 e ((h.epochs e).2 he) hne
    exact ⟨s, b.patch, k1, by rw [hget, k2]; rfl, by rw [k3]⟩
  · intro e p hne hp
    rw [hget, g4 e (by rw [h.epochs]; exact hne)] at hp
    obtain ⟨b, hb, rfl⟩ := Option.map_eq_some_iff.1 hp
    exact (hb1 e b hb).1
  · intro e i hq
    obtain ⟨idxs, hg, hi⟩ := (h.mixes e i).2 hq
    obtain ⟨s, b, k1, k2, k3, k4, k5, -⟩ := f3 e idxs ((hmem _ _).2 hg)
    by_cases he : e ∈ log.validatorEpochs ∧ e ≠ t
    · obtain ⟨s', b', l1, l2, l3⟩ := g3 e he.1 he.2
      refine ⟨s, b'.patch, k1, by rw [hget, l2]; rfl, ?_⟩
      rw [l3, k2]
      exact (k5 i).trans (if_pos hi)
    · refine ⟨s, b.patch, k1, ?_, (k5 i).trans (if_pos hi)⟩
      rw [hget, g4 e, k2]; rfl
      by_cases h' : e ∈ log.validatorEpochs
      · exact Or.inr (by_contra (fun hne => he ⟨h', hne⟩))
      · exact Or.inl h'
  · intro e p hp
    rw [hget] at hp
    obtain ⟨b, hb, -⟩ := Option.map_eq_some_iff.1 hp
    by_cases he : e ∈ log.validatorEpochs ∧ e ≠ t
    · exact Or.inl ⟨(h.epochs e).1 he.1, he.2⟩
    · right
      refine (hb1 e b ?_).2.2.1
      rw [← g4 e, hb]
      by_cases h' : e ∈ log.validatorEpochs
      · exact Or.inr (by_contra (fun hne => he ⟨h', hne⟩))
      · exact Or.inl h'
  · intro e p hp
    rcases hpatch e p hp with h' | ⟨b, hb, h'⟩
    · rw [h']; exact List.Pairwise.nil
    · rw [h']; exact (hb1 e b hb).2.2.2.1
  · intro e p i x hp hx
    rcases hpatch e p hp with h' | ⟨b, hb, h'⟩
    · rw [h'] at hx; simp [OMap.get?] at hx
    · rw [h'] at hx
      obtain ⟨k1, k2⟩ := (hb1 e b hb).2.2.2.2 i x hx
      exact ⟨k1, b.state, (hb1 e b hb).2.1, k2⟩

theorem updateRegistry_get? (spec : ChainSpec) (fin tr ju : Nat) (n : Nat) : ∀ (e : Nat) (vs : List Validator) (i : Nat)
    (v : Validator), vs[i]? = some v → ∃ v', (updateRegistry spec fin tr ju n e vs)[i]? = some v' ∧
      v'.pubkey = v.pubkey ∧ v'.exitEpoch = v.exitEpoch ∧ v'.effectiveBalance = v.effectiveBalance ∧
      v'.slashed = v.slashed := by
  induction n with
  | zero => intro e vs i v h; exact ⟨v, h, rfl, rfl, rfl, rfl⟩
  | succ n ih =>
    intro e vs i v h
    unfold updateRegistry
    obtain ⟨v', h1, h2, h3, h4, h5⟩ := ih (e + 1)
      (vs.map (Validator.electraUpdate spec (if e < ju then fin else tr) e)) i _
      (by rw [List.getElem?_map, h]; rfl)
    exact ⟨v', h1, by rw [h2, electraUpdate_pubkey], by rw [h3, electraUpdate_exit],
      by rw [h4, electraUpdate_balance], by rw [h5, electraUpdate_slashed]⟩

theorem updateRegistry_length (spec : ChainSpec) (fin tr ju : Nat) (n : Nat) : ∀ (e : Nat) (vs : List Validator),
    (updateRegistry spec fin tr ju n e vs).length = vs.length := by
  induction n with
  | zero => intro e vs; rfl
  | succ n ih => intro e vs; unfold updateRegistry; rw [ih, List.length_map]

theorem registryOf_length (spec : ChainSpec) (st : BeaconState) (pre : ConsensusState) :
    (registryOf spec st pre).length = st.validators.length := updateRegistry_length _ _ _ _ _ _ _

/-- A validator of the registry brought forward is one of the state. -/
theorem registryOf_get? {spec : ChainSpec} {st : BeaconState} {pre : ConsensusState} {i : Nat} {v' : Validator}
    (h : (registryOf spec st pre)[i]? = some v') : ∃ v, st.validators[i]? = some v ∧
      v'.pubkey = v.pubkey ∧ v'.exitEpoch = v.exitEpoch ∧ v'.effectiveBalance = v.effectiveBalance ∧
      v'.slashed = v.slashed := by
  have hi : i < st.validators.length := by
    rw [← registryOf_length spec st pre]
    exact (List.getElem?_eq_some_iff.1 h).1
  obtain ⟨v'', h1, h2⟩ := updateRegistry_get? spec st.finalizedEpoch pre.finalized.epoch pre.currentJustified.epoch
    (pre.currentJustified.epoch + 1 - st.slot / spec.slotsPerEpoch) (st.slot / spec.slotsPerEpoch) st.validators i _
    (List.getElem?_eq_getElem hi)
  have h1 : (registryOf spec st pre)[i]? = some v'' := h1
  rw [h] at h1
  cases h1
  exact ⟨_, List.getElem?_eq_getElem hi, h2⟩

theorem registryOf_get?' {spec : ChainSpec} {st : BeaconState} {pre : ConsensusState} {i : Nat} {v : Validator}
    (h : st.validators[i]? = some v) : ∃ v', (registryOf spec st pre)[i]? = some v' ∧
      v'.pubkey = v.pubkey ∧ v'.exitEpoch = v.exitEpoch ∧ v'.effectiveBalance = v.effectiveBalance ∧
      v'.slashed = v.slashed :=
  updateRegistry_get? _ _ _ _ _ _ _ _ _ h

theorem changedExits_registryOf (spec : ChainSpec) (st : BeaconState) (pre : ConsensusState) (ws : List Validator) :
    changedExits (registryOf spec st pre) ws = changedExits st.validators ws := by
  refine sorted_ext (changedExits_sorted _ _) (changedExits_sorted _ _) ?_
  rintro ⟨i, x⟩
  rw [mem_changedExits, mem_changedExits]
  constructor
  · rintro ⟨v, w, h1, h2, h3, h4⟩
    obtain ⟨v0, g1, -, g3, -⟩ := registryOf_get? h1
    exact ⟨v0, w, g1, h2, by rw [← g3]; exact h3, h4⟩
  · rintro ⟨v, w, h1, h2, h3, h4⟩
    obtain ⟨v0, g1, -, g3, -⟩ := registryOf_get?' (spec := spec) (pre := pre) h1
    exact ⟨v0, w, g1, h2, by rw [g3]; exact h3, h4⟩

/-- The parts of an input built for a trusted state. -/
structure InputFor (X : Ext) (r : HostReader) (trusted : Checkpoint) (st : HostState) (qs : List Query)
    (input : GuestInput) : Prop where
  block : input.beaconBlock.verify X trusted.root = .ok ()
  block_values : input.beaconBlock.values = [(stateRootGindex, st.beacon.tree.root X)]
  state : input.beaconState.verify X (st.beacon.tree.root X) = .ok ()
  state_extract : extractBeaconState input.beaconState = .ok (stateInfo X st.beacon)
  registry : input.activeValidators.verify X ((registryTree st.beacon.validators).root X) = .ok ()
  registry_extract : extractValidators X input.activeValidators input.publicKeys trusted.epoch =
    .ok (present r.decompress st.beacon.validators trusted.epoch)
  patches : PatchesFor r trusted.epoch st.beacon.validators qs input.patches
  consensus : input.consensusState = r.consensusState
  attestations : input.attestations = r.attestations
  slots : ∃ roots, (∀ root, root ∈ roots ↔ Query.slotForBlock root ∈ qs) ∧
    List.Forall₂ (SlotProofOf X r) roots input.blockSlotProofs
  slots_count : ∃ roots : List Root, roots.Nodup ∧ (∀ root ∈ roots, Query.slotForBlock root ∈ qs) ∧
    input.blockSlotProofs.length = roots.length
  keys : input.publicKeys = presentKeys r.decompress trusted.epoch st.beacon.validators
  block_size : ProofSize 3 input.beaconBlock
  state_size : ProofSize 26 input.beaconState
  registry_size : ∃ n, n ≤ 9 * st.beacon.validators.length + 42 ∧ ProofSize n input.activeValidators

theorem take_versionChunk {v : Bytes} (h : v.length = 4) : (versionChunk v).take 4 = v := by
  unfold versionChunk
  rw [List.take_append_of_le_length (by omega), List.take_of_length_le (by omega)]

theorem extract_state {X : Ext} {s : BeaconState} (hw : s.WF) {p : Multiproof}
    (hp : p.values = [(genesisValidatorsRootGindex, s.genesisValidatorsRoot), (slotGindex, u64Chunk s.slot),
        (forkPreviousVersionGindex, versionChunk s.fork.previousVersion),
        (forkCurrentVersionGindex, versionChunk s.fork.currentVersion), (forkEpochGindex, u64Chunk s.fork.epoch),
        (validatorsGindex, (registryTree s.validators).root X),
        (finalizedCheckpointEpochGindex, u64Chunk s.finalizedEpoch),
        (earliestExitEpochGindex, u64Chunk s.earliestExitEpoch),
        (earliestConsolidationEpochGindex, u64Chunk s.earliestConsolidationEpoch)]) :
    extractBeaconState p = .ok (stateInfo X s) := by
  rw [extractBeaconState_eq_ok]
  refine ⟨_, _, _, _, _, _, _, _, _, hp, ?_⟩
  rw [u64FromChunk_u64Chunk _ hw.slot, u64FromChunk_u64Chunk _ hw.forkEpoch,
    u64FromChunk_u64Chunk _ hw.finalizedEpoch, u64FromChunk_u64Chunk _ hw.earliestExitEpoch,
    u64FromChunk_u64Chunk _ hw.earliestConsolidationEpoch, take_versionChunk hw.previousVersion,
    take_versionChunk hw.currentVersion]
  rfl

theorem toInput_ok {X : Ext} {order : List Nat → List Nat} (ho : ∀ l, (order l).Perm l) (hcap : 126 ≤ X.stackCapacity)
    {r : HostReader} {trusted : Checkpoint} {st : HostState} (ht : TrustedState X r trusted st) {qs : List Query}
    (hc : Consistent X r trusted st qs) {log : PreflightLog} (hlog : Recorded trusted.epoch r qs log)
    {a : List (Nat × ValidatorInfo)} (ha : r.activeValidators trusted.epoch = .ok a) :
    ∃ input, toInput X order r trusted log = .ok input ∧ InputFor X r trusted st qs input := by
  have hroot := (C57_root_matches X _ _ _ _ _ ht.found).1
  obtain ⟨pb, b1, b2, b3, b4⟩ := build_block X _ ht.header_wf order ho hcap
  have b5 := build_size X (Spec.Header.tree_chunked ht.header_wf) (by decide) b4 order ho b1
  rw [block_ancestors] at b5
  rw [hroot] at b2
  obtain ⟨ps, s1, s2, s3, s4⟩ := build_state X _ ht.wf order ho hcap
  have s5 := build_size X (Spec.BeaconState.tree_chunked ht.wf) (by decide) s4 order ho s1
  rw [state_ancestors] at s5
  obtain ⟨pr, r1, r2, r3, r4⟩ := build_registry X _ ht.wf.validators trusted.epoch order ho hcap
  have r5 := build_size X (registryTree_chunked ht.wf.validators) (OSet.sorted_extend List.Pairwise.nil _) r4 order ho r1
  have r6 := registry_ancestors (t := trusted.epoch) ht.wf.validators.limit
  obtain ⟨m1, m2, p1, p2, p3⟩ := patches_ok (vs := st.beacon.validators) hlog
  have hkeys : collectKeys r.decompress trusted.epoch st.beacon.validators.zipIdx a =
      .ok (presentKeys r.decompress trusted.epoch st.beacon.validators) := by
    refine collectKeys_ok _ _ _ 0 _ ?_ ?_
    · intro v hv _
      obtain ⟨key, hk, -⟩ := ht.keys v hv
      exact ⟨key, hk⟩
    · intro i info hm v _ hv
      obtain ⟨s, hs⟩ := activeValidators_state ha
      obtain ⟨w, key, h1, h2, h3, rfl⟩ := (mem_activeValidators hs ha).1 hm
      rw [Nat.sub_zero] at hv
      obtain ⟨v', g1, g2, -⟩ := registryOf_get?' (spec := r.spec) (pre := r.consensusState) hv
      have := (hc.states _ s (Or.inl rfl) hs).pubkey i v' w g1 h1
      rw [← g2, ← this]
      exact h3
  have hslots : ∃ l, List.Forall₂ (fun root p => slotProof X order r root = .ok p ∧ SlotProofOf X r root p)
      log.blockReads l := by
    apply forall₂_of_forall
    intro root hr
    obtain ⟨n, hn⟩ := hlog.answered _ ((hlog.blocks root).1 hr)
    obtain ⟨hd, h1, -⟩ := slotForBlock_header hn
    obtain ⟨h2, h3⟩ := hc.headers root hd h1
    exact slotProof_ok X h1 h2 h3 order ho hcap
  obtain ⟨sp, hsp⟩ := hslots
  refine ⟨⟨pb, ps, pr, presentKeys r.decompress trusted.epoch st.beacon.validators,
    m2.map (fun (epoch, b) => (epoch, b.patch)), r.consensusState, r.attestations, sp⟩, ?_, ?_⟩
  · unfold toInput
    have hb1 : build X order [11] ({ st.latestBlockHeader with stateRoot := st.beacon.tree.root X } : Header).tree =
      .ok pb := b1
    simp only [ht.found, Res.mapErr, Res.ok_bind, hb1, b2, s1, s2, ha, hkeys, r1, r2, p1, p2,
      mapRes_of_forall (hsp.imp (fun _ _ h => h.1))]
    rfl
  · exact ⟨b2, b3, s2, extract_state ht.wf s3, r2,
      extractValidators_complete X r.decompress trusted.epoch _ ht.wf.validators (fun v hv _ => ht.keys v hv) pr r3,
      p3, rfl, rfl, ⟨log.blockReads, hlog.blocks, hsp.imp (fun _ _ h => h.2)⟩,
      ⟨log.blockReads, hlog.blocks_nodup, fun root h => (hlog.blocks root).1 h, hsp.length_eq.symm⟩, rfl, b5, s5, _, r6, r5⟩

theorem registry_built {ε : Type} {X : Ext} {r : HostReader} {trusted : Checkpoint} {st : HostState}
    (ht : TrustedState X r trusted st) :
    (registryLoop r.spec st.beacon.finalizedEpoch trusted.epoch r.consensusState.currentJustified.epoch
      (r.consensusState.currentJustified.epoch + 1 - st.beacon.slot / r.spec.slotsPerEpoch)
      (st.beacon.slot / r.spec.slotsPerEpoch)
      (present r.decompress st.beacon.validators trusted.epoch) : Res ε _) =
    .ok (present r.decompress (registryOf r.spec st.beacon r.consensusState) trusted.epoch) := by
  unfold registryOf
  have h64 : (2 : Nat) ^ 64 = U64 := by norm_num
  have hs := ht.small
  rw [h64] at hs
  have := ht.start
  rw [this]
  exact registryLoop_present r.decompress r.spec _ _ _ _ ht.justified hs _ _ _ ht.finalized_past (by omega)

/-- What `into_reader` does with a built input: it fails only if the check of the patches does. -/
theorem intoReader_result {X : Ext} {r : HostReader} {trusted : Checkpoint} {st : HostState} {qs : List Query}
    (ht : TrustedState X r trusted st) {input : GuestInput} (hi : InputFor X r trusted st qs input) :
    input.intoReader X r.spec = (do
      validateStatePatches X r.spec input.patches trusted (stateInfo X st.beacon)
          (present r.decompress (registryOf r.spec st.beacon r.consensusState) trusted.epoch)
      let slots ← blockSlotLoop X input.blockSlotProofs []
      return ⟨r.spec, st.beacon.genesisValidatorsRoot,
          present r.decompress (registryOf r.spec st.beacon r.consensusState) trusted.epoch, input.patches,
          r.consensusState, r.attestations, slots⟩) := by
  have hsr : extractBeaconBlock input.beaconBlock = .ok (st.beacon.tree.root X) :=
    extractBeaconBlock_eq_ok.2 hi.block_values
  have hse : (slotEpoch r.spec (stateInfo X st.beacon).slot : Res GuestReaderError Nat) =
      .ok (st.beacon.slot / r.spec.slotsPerEpoch) := slotEpoch_eq_ok_iff.2 ⟨ht.slots_per_epoch, rfl⟩
  have hfork : (stateInfo X st.beacon).fork = r.spec.forkAtEpoch (st.beacon.slot / r.spec.slotsPerEpoch) := ht.fork
  have hreg : (registryLoop r.spec (stateInfo X st.beacon).finalizedCheckpointEpoch trusted.epoch
      r.consensusState.currentJustified.epoch
      (r.consensusState.currentJustified.epoch + 1 - st.beacon.slot / r.spec.slotsPerEpoch)
      (st.beacon.slot / r.spec.slotsPerEpoch)
      (present r.decompress st.beacon.validators trusted.epoch) : Res GuestReaderError _) = _ := registry_built ht
  have hval : input.activeValidators.verify X (stateInfo X st.beacon).validatorsRoot = .ok () := hi.registry
  unfold GuestInput.intoReader
  simp only [hi.consensus, ht.start, hi.block, hsr, hi.state, hi.state_extract, hval, hi.registry_extract, hse, hfork,
    hreg, hi.attestations, Res.mapErr, Res.ok_bind, ensure, decide_true, if_true]
  rfl

/-- The reader it makes of a built input. -/
theorem intoReader_built {X : Ext} {r : HostReader} {trusted : Checkpoint} {st : HostState} {qs : List Query}
    (ht : TrustedState X r trusted st) {input : GuestInput} (hi : InputFor X r trusted st qs input) :
    ∃ slots, blockSlotLoop X input.blockSlotProofs [] = .ok slots ∧
      (∀ x ∈ slots, ∃ hd, r.headers x.1 = .ok (some hd) ∧ x.2 = hd.slot) ∧
      (∀ root, Query.slotForBlock root ∈ qs → ∃ n, (root, n) ∈ slots) ∧
      ∀ g, input.intoReader X r.spec = .ok g ↔
        validateStatePatches X r.spec input.patches trusted (stateInfo X st.beacon)
          (present r.decompress (registryOf r.spec st.beacon r.consensusState) trusted.epoch) = .ok () ∧
        g = ⟨r.spec, st.beacon.genesisValidatorsRoot,
          present r.decompress (registryOf r.spec st.beacon r.consensusState) trusted.epoch, input.patches,
          r.consensusState, r.attestations, slots⟩ := by
  obtain ⟨roots, e1, e2⟩ := hi.slots
  obtain ⟨out, f1, f2, -, f4⟩ := blockSlotLoop_complete X r e2 [] (by simp)
  refine ⟨out, f1, f2, fun root hr => f4 root ((e1 root).2 hr), ?_⟩
  intro g
  rw [intoReader_result ht hi, f1]
  constructor
  · intro h
    obtain ⟨⟨⟩, h1, h2⟩ := Res.bind_eq_ok.1 h
    cases h2
    exact ⟨h1, rfl⟩
  · rintro ⟨h1, rfl⟩
    rw [h1]; rfl

end Signal
