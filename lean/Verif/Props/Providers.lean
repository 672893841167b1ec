import Verif.Spec.Providers
import Verif.Proofs.Multiproof
import Verif.Proofs.Ssz
import Verif.Props.Committee

/-!
# Properties C46, C47, C48, C57: the state providers of the host

Specification: `Verif/Spec/Providers.lean`.
-/

namespace Signal
open Spec

variable {σ : Type}

/-! ## C46 -/

/-- The cache holds exactly the first successful answers. -/
theorem cacheRun_spec (before : List (Nat × (Nat → Res ProviderError σ))) :
    ∀ (cache : StateCache σ) (slot : Nat) (inner : Nat → Res ProviderError σ)
      (after : List (Nat × (Nat → Res ProviderError σ))),
    ∃ earlier later o, cacheRun cache (before ++ (slot, inner) :: after) = earlier ++ (slot, o) :: later ∧
      earlier.length = before.length ∧
      ((∃ s, (cache.lookup slot = some s ∨ cache.lookup slot = none ∧ ∃ b, (slot, .ok s, b) ∈ earlier) ∧
          o = (.ok s, false)) ∨
        (cache.lookup slot = none ∧ (∀ s b, (slot, .ok s, b) ∉ earlier) ∧ o = (inner slot, true))) := by
  induction before with
  | nil =>
    intro cache slot inner after
    refine ⟨[], _, _, rfl, rfl, ?_⟩
    unfold cacheStateAtSlot
    cases h : cache.lookup slot with
    | some s => left; exact ⟨s, Or.inl rfl, rfl⟩
    | none =>
      right
      refine ⟨rfl, by simp, ?_⟩
      cases inner slot <;> rfl
  | cons r before ih =>
    intro cache slot inner after
    obtain ⟨slot', inner'⟩ := r
    simp only [List.cons_append, cacheRun]
    obtain ⟨earlier, later, o, h1, h2, h3⟩ := ih (cacheStateAtSlot inner' cache slot').2.1 slot inner after
    refine ⟨_ :: earlier, later, o, by rw [h1]; rfl, by simp [h2], ?_⟩
    -- the effect of the first request on the entry for `slot`
    have key : (cacheStateAtSlot inner' cache slot').2.1.lookup slot = cache.lookup slot ∧
        (cache.lookup slot = none → ∀ s, slot' = slot → (cacheStateAtSlot inner' cache slot').1 ≠ .ok s) ∨
        (cache.lookup slot = none ∧ slot' = slot ∧ ∃ s, (cacheStateAtSlot inner' cache slot').2.1.lookup slot = some s ∧
          (cacheStateAtSlot inner' cache slot').1 = .ok s) := by
      unfold cacheStateAtSlot
      cases hc : cache.lookup slot' with
      | some s =>
        left
        refine ⟨rfl, ?_⟩
        rintro hn s' rfl
        rw [hn] at hc; cases hc
      | none =>
        cases hi : inner' slot' with
        | ok s =>
          simp only
          by_cases he : slot' = slot
          · subst he
            right
            refine ⟨hc, rfl, s, ?_, rfl⟩
            rw [List.lookup_append, hc]
            simp
          · left
            refine ⟨?_, fun _ _ h => absurd h he⟩
            rw [List.lookup_append]
            have : List.lookup slot [(slot', s)] = none := by
              simp [List.lookup, show (slot == slot') = false by simp; omega]
            rw [this]
            simp
        | err e => left; exact ⟨rfl, by intro _ _ _; simp⟩
        | panic => left; exact ⟨rfl, by intro _ _ _; simp⟩
    rcases key with ⟨k1, k2⟩ | ⟨k1, rfl, s, k2, k3⟩
    · rw [k1] at h3
      rcases h3 with ⟨s, h3, h4⟩ | ⟨h3, h4, h5⟩
      · left
        refine ⟨s, ?_, h4⟩
        rcases h3 with h3 | ⟨h3, b, h5⟩
        · exact Or.inl h3
        · exact Or.inr ⟨h3, b, List.mem_cons_of_mem _ h5⟩
      · right
        refine ⟨h3, ?_, h5⟩
        intro s b hm
        rcases List.mem_cons.1 hm with he | hm
        · simp only [Prod.mk.injEq] at he
          exact k2 h3 s he.1.symm he.2.1.symm
        · exact h4 s b hm
    · left
      rw [k2] at h3
      rcases h3 with ⟨s', h3 | ⟨h3, -⟩, h4⟩ | ⟨h3, -⟩
      · cases h3
        refine ⟨s, Or.inr ⟨k1, ?_⟩, h4⟩
        exact ⟨_, by rw [← k3]; exact List.mem_cons_self ..⟩
      · cases h3
      · cases h3

/-- **C46.** For every sequence of requests to a new cache, and whatever the wrapped provider answers at each time: a
request whose slot was answered successfully before gets that same state, without asking the wrapped provider;
every other request gets what the wrapped provider answers at that time. Failures are not remembered. -/
theorem C46_cache (before after : List (Nat × (Nat → Res ProviderError σ))) (slot : Nat)
    (inner : Nat → Res ProviderError σ) :
    ∃ earlier later answer asked,
      cacheRun [] (before ++ (slot, inner) :: after) = earlier ++ (slot, answer, asked) :: later ∧
      earlier.length = before.length ∧
      ((∃ s b, (slot, .ok s, b) ∈ earlier ∧ answer = .ok s ∧ asked = false) ∨
        ((∀ s b, (slot, .ok s, b) ∉ earlier) ∧ answer = inner slot ∧ asked = true)) := by
  obtain ⟨earlier, later, ⟨answer, asked⟩, h1, h2, h3⟩ := cacheRun_spec before [] slot inner after
  refine ⟨earlier, later, answer, asked, h1, h2, ?_⟩
  rcases h3 with ⟨s, h3 | ⟨-, b, h3⟩, h4⟩ | ⟨-, h3, h4⟩
  · cases h3
  · cases h4; exact Or.inl ⟨s, b, h3, rfl, rfl⟩
  · cases h4; exact Or.inr ⟨h3, rfl, rfl⟩

theorem cacheRun_transparent (inner : Nat → Res ProviderError σ) : ∀ (slots : List Nat) (cache : StateCache σ),
    (∀ slot s, cache.lookup slot = some s → inner slot = .ok s) →
    (cacheRun cache (slots.map (fun s => (s, inner)))).map (fun o => (o.1, o.2.1)) =
      slots.map (fun s => (s, inner s)) := by
  intro slots
  induction slots with
  | nil => intro _ _; rfl
  | cons slot slots ih =>
    intro cache hc
    simp only [List.map_cons, cacheRun]
    have h1 : (cacheStateAtSlot inner cache slot).1 = inner slot := by
      unfold cacheStateAtSlot
      cases h : cache.lookup slot with
      | some s => rw [hc slot s h]
      | none => cases hi : inner slot <;> simp
    rw [h1]
    congr 1
    apply ih
    intro slot' s' h
    unfold cacheStateAtSlot at h
    cases hl : cache.lookup slot with
    | some s => rw [hl] at h; exact hc slot' s' h
    | none =>
      rw [hl] at h
      cases hi : inner slot with
      | ok s =>
        rw [hi] at h
        simp only [List.lookup_append] at h
        cases hl' : cache.lookup slot' with
        | some t => rw [hl'] at h; simp at h; subst h; exact hc slot' t hl'
        | none =>
          rw [hl'] at h
          simp only [Option.none_or, List.lookup] at h
          by_cases he : slot' = slot
          · subst he; simp at h; rw [hi, h]
          · simp [show (slot' == slot) = false by simpa using he] at h
      | err e => rw [hi] at h; exact hc slot' s' h
      | panic => rw [hi] at h; exact hc slot' s' h

/-- **C46.** If the wrapped provider is deterministic, the cache cannot be told apart from it. -/
theorem C46_transparent (inner : Nat → Res ProviderError σ) (slots : List Nat) :
    (cacheRun [] (slots.map (fun s => (s, inner)))).map (fun o => (o.1, o.2.1)) =
      slots.map (fun s => (s, inner s)) :=
  cacheRun_transparent inner slots [] (by intro _ _ h; cases h)

/-- **C46.** The genesis validators root comes from any cached state. If all states have the same one, it is that
one, whatever the iteration order of the map. -/
theorem C46_genesis_root (ops : StateOps σ) (inner : Nat → Res ProviderError σ) (cache : StateCache σ) (pick : Nat)
    (g : Root) (hcache : ∀ slot s, (slot, s) ∈ cache → ops.genesisValidatorsRoot s = g)
    (hinner : ∀ s, inner 0 = .ok s → ops.genesisValidatorsRoot s = g) :
    (cache ≠ [] → cacheGenesisRoot ops inner cache pick = .ok g) ∧
    (∀ r, cacheGenesisRoot ops inner cache pick = .ok r → r = g) := by
  unfold cacheGenesisRoot
  constructor
  · intro hne
    have hlen : 0 < cache.length := List.length_pos_iff.2 hne
    have hlt : pick % cache.length < cache.length := Nat.mod_lt _ hlen
    rw [List.getElem?_eq_getElem hlt]
    generalize he : cache[pick % cache.length] = p
    obtain ⟨slot, s⟩ := p
    simp only
    rw [hcache slot s (he ▸ List.getElem_mem hlt)]
  · intro r h
    split at h
    · rename_i slot s he
      cases h
      exact hcache slot s (List.mem_of_getElem? he)
    · rename_i he
      have hnil : cache = [] := by
        cases cache with
        | nil => rfl
        | cons a l =>
          rw [List.getElem?_eq_none_iff] at he
          have := Nat.mod_lt pick (show 0 < (a :: l).length by simp)
          omega
      subst hnil
      simp only [Res.bind_eq_ok, Res.pure_eq, Res.ok.injEq] at h
      obtain ⟨s, h1, rfl⟩ := h
      apply hinner
      unfold cacheStateAtSlot at h1
      simp only [List.lookup] at h1
      cases hi : inner 0 with
      | ok t => rw [hi] at h1; simp at h1; rw [h1]
      | err e => rw [hi] at h1; cases h1
      | panic => rw [hi] at h1; cases h1

/-- A failure is not remembered, a success is. -/
example : cacheRun (σ := Nat) [] [(3, fun _ => .err .other), (3, fun s => .ok (s + 1)), (4, fun _ => .panic),
    (3, fun _ => .err .other)] =
    [(3, .err .other, true), (3, .ok 4, true), (4, .panic, true), (3, .ok 4, false)] := by decide

/-! ## C57 -/

/-- **C57.** A state that `state_at_checkpoint` returns belongs to the checkpoint: its latest block header, with the
root of the state filled in, has the root of the checkpoint. Otherwise no state is returned. -/
theorem C57_root_matches (X : Ext) (ops : StateOps σ) (spe : Nat) (provider : Nat → Res ProviderError σ)
    (c : Checkpoint) (s : σ) (h : stateAtCheckpoint X ops spe provider c = .ok s) :
    (filledHeader ops s).tree.root X = c.root ∧
      ∃ slot, provider slot = .ok s ∧
        (slot = min (c.epoch * spe) (2 ^ 64 - 1) ∧ (ops.latestBlockHeader s).slot = ops.slot s ∨
          ∃ s', provider (min (c.epoch * spe) (2 ^ 64 - 1)) = .ok s' ∧ slot = (ops.latestBlockHeader s').slot) := by
  unfold stateAtCheckpoint at h
  simp only [Res.bind_eq_ok, Res.pure_eq, Res.ok.injEq] at h
  obtain ⟨s₁, h1, ⟨⟩, h2, rfl⟩ := h
  have h2 : c.root = (filledHeader ops s₁).tree.root X := by
    unfold ensure at h2
    split at h2
    · rename_i h; exact of_decide_eq_true h
    · cases h2
  refine ⟨h2.symm, ?_⟩
  unfold stateAtEpochBoundary at h1
  simp only [Res.bind_eq_ok] at h1
  obtain ⟨s₂, h3, h4⟩ := h1
  have h3 : provider (min (c.epoch * spe) (2 ^ 64 - 1)) = .ok s₂ := h3
  split at h4
  · rename_i he
    cases h4
    exact ⟨_, h3, Or.inl ⟨rfl, he⟩⟩
  · exact ⟨_, h4, Or.inr ⟨s₂, h3, rfl⟩⟩

/-- Trees of the same shape with the same root have the same leaves. -/
theorem leaves_of_root {X : Ext} {S : List Bytes} (hS : NoCollisionOn X S) : ∀ (T T' : Tree),
    T.preorder = T'.preorder → T.Chunked → T'.Chunked →
    (∀ x ∈ T.hashed X, x ∈ S) → (∀ x ∈ T'.hashed X, x ∈ S) → T.root X = T'.root X → T.leaves = T'.leaves := by
  have split : ∀ (A B : Tree) (x y : List Bool), A.preorder ++ x = B.preorder ++ y → A.preorder = B.preorder ∧ x = y := by
    intro A
    induction A with
    | leaf c =>
      intro B x y h
      cases B with
      | leaf d => simp [Tree.preorder] at h ⊢; exact h
      | node l r => simp [Tree.preorder] at h
    | node l r ihl ihr =>
      intro B x y h
      cases B with
      | leaf d => simp [Tree.preorder] at h
      | node l' r' =>
        simp only [Tree.preorder, List.cons_append, List.append_assoc, List.cons.injEq, true_and] at h ⊢
        obtain ⟨h1, h2⟩ := ihl _ _ _ h
        obtain ⟨h3, h4⟩ := ihr _ _ _ h2
        exact ⟨by rw [h1, h3], h4⟩
  intro T
  induction T with
  | leaf c =>
    intro T' hs _ _ _ _ hr
    cases T' with
    | leaf d => simp only [Tree.root] at hr; simp [Tree.leaves, hr]
    | node l r => simp [Tree.preorder] at hs
  | node l r ihl ihr =>
    intro T' hs hc hc' hh hh' hr
    cases T' with
    | leaf d => simp [Tree.preorder] at hs
    | node l' r' =>
      simp only [Tree.preorder, List.cons.injEq, true_and] at hs
      obtain ⟨s1, s2⟩ := split l l' _ _ hs
      simp only [Tree.root] at hr
      have he := hS _ (hh _ (by simp [Tree.hashed])) _ (hh' _ (by simp [Tree.hashed])) hr
      obtain ⟨e1, e2⟩ := List.append_inj he (by rw [Spec.Tree.root_length X hc.1, Spec.Tree.root_length X hc'.1])
      simp only [Tree.leaves]
      rw [ihl l' s1 hc.1 hc'.1 (fun x hx => hh x (by simp [Tree.hashed, hx]))
          (fun x hx => hh' x (by simp [Tree.hashed, hx])) e1,
        ihr r' s2 hc.2 hc'.2 (fun x hx => hh x (by simp [Tree.hashed, hx]))
          (fun x hx => hh' x (by simp [Tree.hashed, hx])) e2]


theorem header_chunked {h : Header} (hw : h.WF) : h.tree.Chunked :=
  ⟨⟨⟨u64Chunk_length _, u64Chunk_length _⟩, hw.parentRoot, hw.stateRoot⟩,
    ⟨hw.bodyRoot, (by decide : zeroRoot.length = 32)⟩, (by decide : zeroRoot.length = 32),
    (by decide : zeroRoot.length = 32)⟩

theorem header_leaves (h : Header) : h.tree.leaves =
    [u64Chunk h.slot, u64Chunk h.proposerIndex, h.parentRoot, h.stateRoot, h.bodyRoot, zeroRoot, zeroRoot, zeroRoot] :=
  rfl

theorem header_preorder (h h' : Header) : h.tree.preorder = h'.tree.preorder := rfl

/-- **C57.** If `c` is the checkpoint of the block with header `block`, and SHA-256 has no collision among the strings
hashed for the two headers, then a state returned for `c` is the state of that block: it has the state root of
the block, and its latest block header is that of the block. -/
theorem C57_state_of_block (X : Ext) (ops : StateOps σ) (spe : Nat) (provider : Nat → Res ProviderError σ)
    (c : Checkpoint) (s : σ) (block : Header) (hb : block.tree.root X = c.root) (hw : block.WF)
    (hs : (filledHeader ops s).WF)
    (hc : NoCollisionOn X (block.tree.hashed X ++ (filledHeader ops s).tree.hashed X))
    (h : stateAtCheckpoint X ops spe provider c = .ok s) :
    ops.hashTreeRoot s = block.stateRoot ∧ (ops.latestBlockHeader s).slot = block.slot ∧
      (ops.latestBlockHeader s).parentRoot = block.parentRoot ∧
      (ops.latestBlockHeader s).bodyRoot = block.bodyRoot := by
  obtain ⟨h1, -⟩ := C57_root_matches X ops spe provider c s h
  have := leaves_of_root hc block.tree (filledHeader ops s).tree (header_preorder _ _)
    (header_chunked hw) (header_chunked hs) (fun x hx => by simp [hx]) (fun x hx => by simp [hx]) (by rw [hb, h1])
  rw [header_leaves, header_leaves] at this
  simp only [List.cons.injEq, and_true] at this
  obtain ⟨e1, -, e3, e4, e5⟩ := this
  refine ⟨e4.symm, ?_, e3.symm, e5.symm⟩
  unfold u64Chunk at e1
  have e1 := List.append_cancel_right e1
  exact (leBytes_inj hw.slot hs.slot e1).symm


/-! ## File names -/

theorem parseDigits_append (a b : List Char) (acc : Nat) :
    parseDigits (a ++ b) acc = (parseDigits a acc).bind (parseDigits b) := by
  induction a generalizing acc with
  | nil => rfl
  | cons c a ih =>
    simp only [List.cons_append, parseDigits]
    split
    · exact ih _
    · rfl

theorem digit_toNat {n : Nat} (h : n < 10) : (Char.ofNat (48 + n)).toNat = 48 + n := by
  have : n = 0 ∨ n = 1 ∨ n = 2 ∨ n = 3 ∨ n = 4 ∨ n = 5 ∨ n = 6 ∨ n = 7 ∨ n = 8 ∨ n = 9 := by omega
  rcases this with rfl | rfl | rfl | rfl | rfl | rfl | rfl | rfl | rfl | rfl <;> decide

theorem decimal_digits (n : Nat) : (∀ c ∈ decimal n, 48 ≤ c.toNat ∧ c.toNat ≤ 57) ∧ decimal n ≠ [] ∧
    parseDigits (decimal n) 0 = some n := by
  induction n using Nat.strongRecOn with
  | ind n ih =>
    rw [decimal]
    split
    · rename_i h
      refine ⟨?_, by simp, ?_⟩
      · intro c hc
        simp only [List.mem_singleton] at hc
        subst hc
        rw [digit_toNat h]; omega
      · simp only [parseDigits, digit_toNat h]
        rw [if_pos (by omega)]
        congr 1; omega
    · rename_i h
      obtain ⟨h1, h2, h3⟩ := ih (n / 10) (by omega)
      have hd : n % 10 < 10 := Nat.mod_lt _ (by omega)
      refine ⟨?_, by simp, ?_⟩
      · intro c hc
        rcases List.mem_append.1 hc with hc | hc
        · exact h1 c hc
        · simp only [List.mem_singleton] at hc
          subst hc
          rw [digit_toNat hd]; omega
      · rw [parseDigits_append, h3]
        simp only [Option.bind_some, parseDigits, digit_toNat hd]
        rw [if_pos (by omega)]
        congr 1; omega

theorem parseSlot_decimal {n : Nat} (h : n < 2 ^ 64) : parseSlot (decimal n) = some n := by
  obtain ⟨h1, h2, h3⟩ := decimal_digits n
  unfold parseSlot
  have hplus : stripPlus (decimal n) = decimal n := by
    unfold stripPlus
    split
    · rename_i cs he
      have := h1 '+' (by rw [he]; simp)
      exact absurd this (by decide)
    · rfl
  simp only [hplus, if_neg h2, h3, if_pos h]

/-- The name of a state file is read back as its slot. -/
theorem slotOfName_stateFile {n : Nat} (h : n < 2 ^ 64) : slotOfName (stateFile n) = some n := by
  unfold slotOfName stateFile
  have htw : (decimal n ++ "_beacon_state.ssz".toList).takeWhile (· ≠ '_') = decimal n := by
    rw [List.takeWhile_append_of_pos]
    · have : "_beacon_state.ssz".toList.takeWhile (· ≠ '_') = [] := by decide
      rw [this, List.append_nil]
    · intro c hc
      have := (decimal_digits n).1 c hc
      simp only [ne_eq, decide_eq_true_eq]
      rintro rfl
      exact absurd this (by decide)
  rw [htw, parseSlot_decimal h]

theorem stateFile_inj {m n : Nat} (hm : m < 2 ^ 64) (hn : n < 2 ^ 64) (h : stateFile m = stateFile n) : m = n := by
  have := slotOfName_stateFile hm
  rw [h, slotOfName_stateFile hn] at this
  cases this; rfl

/-! ## C48 -/

theorem lookup_filter_ne (dir : Dir) (name n : List Char) :
    (dir.filter (fun p => p.1 ≠ name)).lookup n = if n = name then none else dir.lookup n := by
  induction dir with
  | nil => simp
  | cons p dir ih =>
    obtain ⟨k, e⟩ := p
    by_cases hk : k = name
    · subst hk
      rw [List.filter_cons_of_neg (by simp), ih]
      by_cases hn : n = k
      · simp [hn]
      · simp [hn, List.lookup_cons, show (n == k) = false by simpa using hn]
    · rw [List.filter_cons_of_pos (by simpa using hk)]
      by_cases hn : n = k
      · subst hn
        simp [hk]
      · simp only [List.lookup_cons, show (n == k) = false by simpa using hn]
        exact ih

/-- Every interruption of the loop. -/
theorem clearLoop_spec (fails : List Char → Bool) (slot : Nat) : ∀ (steps : Nat) (entries dir : Dir),
    (∀ name, (∀ s, slotOfName name = some s → slot ≤ s) →
      (clearLoop fails slot steps entries dir).2.lookup name = dir.lookup name) ∧
    (∀ name, (clearLoop fails slot steps entries dir).2.lookup name = dir.lookup name ∨
      (clearLoop fails slot steps entries dir).2.lookup name = none) ∧
    ((clearLoop fails slot steps entries dir).1 = .ok () → ∀ name e s, (name, e) ∈ entries →
      slotOfName name = some s → s < slot → (clearLoop fails slot steps entries dir).2.lookup name = none) := by
  intro steps
  induction steps with
  | zero => intro entries dir; exact ⟨fun _ _ => rfl, fun _ => Or.inl rfl, by intro h; cases h⟩
  | succ n ih =>
    intro entries dir
    cases entries with
    | nil => exact ⟨fun _ _ => rfl, fun _ => Or.inl rfl, by intro _ _ _ _ h; cases h⟩
    | cons p entries =>
      obtain ⟨name, entry⟩ := p
      unfold clearLoop
      cases hs : slotOfName name with
      | none =>
        simp only
        obtain ⟨i1, i2, i3⟩ := ih entries dir
        refine ⟨i1, i2, fun hok name' e s hm hs' hlt => ?_⟩
        rcases List.mem_cons.1 hm with he | hm
        · cases he; rw [hs] at hs'; cases hs'
        · exact i3 hok name' e s hm hs' hlt
      | some s₀ =>
        simp only
        split
        · rename_i hlt
          split
          · exact ⟨fun _ _ => rfl, fun _ => Or.inl rfl, by intro h; cases h⟩
          · obtain ⟨i1, i2, i3⟩ := ih entries (dir.filter (fun p => p.1 ≠ name))
            refine ⟨?_, ?_, ?_⟩
            · intro name' hge
              rw [i1 name' hge, lookup_filter_ne, if_neg]
              rintro rfl
              have := hge _ hs
              omega
            · intro name'
              rcases i2 name' with h | h
              · rw [lookup_filter_ne] at h
                by_cases hn : name' = name
                · rw [if_pos hn] at h; exact Or.inr h
                · rw [if_neg hn] at h; exact Or.inl h
              · exact Or.inr h
            · intro hok name' e s hm hs' hlt'
              rcases List.mem_cons.1 hm with he | hm
              · cases he
                rcases i2 name with h | h
                · rw [h, lookup_filter_ne, if_pos rfl]
                · exact h
              · exact i3 hok name' e s hm hs' hlt'
        · rename_i hge
          obtain ⟨i1, i2, i3⟩ := ih entries dir
          refine ⟨i1, i2, fun hok name' e s hm hs' hlt => ?_⟩
          rcases List.mem_cons.1 hm with he | hm
          · cases he; rw [hs] at hs'; cases hs'; omega
          · exact i3 hok name' e s hm hs' hlt

theorem lookup_none_of_not_mem {dir : Dir} {n : List Char} (h : ∀ e, (n, e) ∉ dir) : dir.lookup n = none := by
  induction dir with
  | nil => rfl
  | cons p dir ih =>
    obtain ⟨k, e⟩ := p
    have hk : n ≠ k := by rintro rfl; exact h e (by simp)
    rw [List.lookup_cons, show (n == k) = false by simpa using hk]
    exact ih (fun e he => h e (by simp [he]))

/-- **C48.** Clearing keeps every state from the first slot of the epoch on readable and unchanged, whatever else is in
the directory, in whatever order it is listed, and even if the clearing fails or is killed at any point. -/
theorem C48_keeps_newer (ops : StateOps σ) (spe : Nat) (fails : List Char → Bool) (dir : Dir) (epoch steps slot : Nat)
    (hu : slot < 2 ^ 64) (hs : epoch * spe ≤ slot) :
    fileStateAtSlot ops (clearStatesBefore spe fails dir epoch steps).2 slot = fileStateAtSlot ops dir slot := by
  unfold fileStateAtSlot clearStatesBefore
  rw [(clearLoop_spec fails (satMul epoch spe) steps dir dir).1]
  intro s h
  rw [slotOfName_stateFile hu] at h
  cases h
  unfold satMul
  omega

/-- **C48.** When clearing succeeds, no state before the first slot of the epoch is left. -/
theorem C48_removes_older (ops : StateOps σ) (spe : Nat) (fails : List Char → Bool) (dir : Dir) (epoch steps slot : Nat)
    (hs : slot < epoch * spe) (hu : slot < 2 ^ 64 - 1)
    (h : (clearStatesBefore spe fails dir epoch steps).1 = .ok ()) :
    fileStateAtSlot ops (clearStatesBefore spe fails dir epoch steps).2 slot = .err (.notFound slot) := by
  unfold clearStatesBefore at h ⊢
  obtain ⟨-, i2, i3⟩ := clearLoop_spec fails (satMul epoch spe) steps dir dir
  have : (clearLoop fails (satMul epoch spe) steps dir dir).2.lookup (stateFile slot) = none := by
    by_cases hm : ∃ e, (stateFile slot, e) ∈ dir
    · obtain ⟨e, hm⟩ := hm
      exact i3 h _ e slot hm (slotOfName_stateFile (by omega)) (by unfold satMul; omega)
    · rcases i2 (stateFile slot) with h' | h'
      · rw [h', lookup_none_of_not_mem (fun e he => hm ⟨e, he⟩)]
      · exact h'
  unfold fileStateAtSlot
  rw [this]

/-- **C48.** A file whose name does not begin with a number and `_` is never touched, and no file is ever changed. -/
theorem C48_other_files (spe : Nat) (fails : List Char → Bool) (dir : Dir) (epoch steps : Nat) (name : List Char) :
    (slotOfName name = none →
      (clearStatesBefore spe fails dir epoch steps).2.lookup name = dir.lookup name) ∧
    ((clearStatesBefore spe fails dir epoch steps).2.lookup name = dir.lookup name ∨
      (clearStatesBefore spe fails dir epoch steps).2.lookup name = none) := by
  obtain ⟨i1, i2, -⟩ := clearLoop_spec fails (satMul epoch spe) steps dir dir
  exact ⟨fun h => i1 name (by intro s hs; rw [h] at hs; cases hs), i2 name⟩

/-- **C48, limit.** Files that are not states are removed as well if their name begins with an earlier slot number, and
one such directory makes clearing fail, in some orders before any state is removed. -/
theorem C48_foreign_files :
    (clearStatesBefore 32 (fun _ => false) [("12_notes.txt".toList, .file [1])] 1 9).2 = [] ∧
    clearStatesBefore 32 (fun _ => false) [("7_old".toList, .directory), (stateFile 5, .file [1])] 1 9 =
      (.err .other, [("7_old".toList, .directory), (stateFile 5, .file [1])]) := by
  constructor
  · decide
  · have h1 : slotOfName "7_old".toList = some 7 := by decide
    unfold clearStatesBefore clearLoop
    rw [h1]
    simp [satMul]


/-- Non-trivial case: of three states, in any order of the listing, the older two are removed. -/
example : (clearStatesBefore 32 (fun _ => false) [("64_beacon_state.ssz".toList, .file [2]), ("readme".toList, .file [9]),
    ("31_beacon_state.ssz".toList, .file [1]), ("63_beacon_state.ssz".toList, .file [3])] 2 9) =
    (.ok (), [("64_beacon_state.ssz".toList, .file [2]), ("readme".toList, .file [9])]) := by decide

/-- Killed after two entries: nothing newer is lost. -/
example : (clearStatesBefore 32 (fun _ => false) [("31_beacon_state.ssz".toList, .file [1]),
    ("64_beacon_state.ssz".toList, .file [2]), ("63_beacon_state.ssz".toList, .file [3])] 2 2) =
    (.panic, [("64_beacon_state.ssz".toList, .file [2]), ("63_beacon_state.ssz".toList, .file [3])]) := by decide

/-! ## C47 -/

/-- What one request does to the directory and what it answers. -/
theorem request_spec {ops : StateOps σ} {chain : Nat → σ} {api : Nat → Option σ} {w : WriteEnd} {dir : Dir} {slot : Nat}
    (hu : slot < 2 ^ 64) (hrt : RoundTrip ops chain) (hh : Honest chain api) :
    (dir.lookup (stateFile slot) = none ∧ api slot = none ∧
        persistentStateAtSlot ops api w dir slot = (.err .other, dir)) ∨
    (dir.lookup (stateFile slot) = none ∧ api slot = some (chain slot) ∧ ∃ content r,
      persistentStateAtSlot ops api w dir slot = (r, dir ++ [(stateFile slot, .file content)]) ∧
      (∃ k, content = (ops.serialize (chain slot)).take k) ∧
      (w = .complete → content = ops.serialize (chain slot) ∧ r = .ok (chain slot)) ∧
      (∀ s, r = .ok s → s = chain slot)) ∨
    (∃ entry, dir.lookup (stateFile slot) = some entry ∧
      persistentStateAtSlot ops api w dir slot = (fileStateAtSlot ops dir slot, dir) ∧
      ∀ s, fileStateAtSlot ops dir slot = .ok s → ∃ content, entry = .file content ∧ ops.deserialize content = some s) := by
  cases hl : dir.lookup (stateFile slot) with
  | some entry =>
    right; right
    refine ⟨entry, rfl, ?_, ?_⟩
    · unfold persistentStateAtSlot fileStateAtSlot
      rw [hl]
      cases entry with
      | directory => rfl
      | file content =>
        simp only
        cases ops.deserialize content <;> rfl
    · intro s hs
      unfold fileStateAtSlot at hs
      rw [hl] at hs
      cases entry with
      | directory => cases hs
      | file content =>
        simp only at hs
        cases hd : ops.deserialize content with
        | none => rw [hd] at hs; cases hs
        | some s' => rw [hd] at hs; cases hs; exact ⟨content, rfl, hd⟩
  | none =>
    have hf : fileStateAtSlot ops dir slot = .err (.notFound slot) := by
      unfold fileStateAtSlot; rw [hl]
    cases ha : api slot with
    | none =>
      left
      refine ⟨rfl, rfl, ?_⟩
      unfold persistentStateAtSlot
      rw [hf]
      simp only [ha]
    | some s =>
      right; left
      have := hh slot s ha
      subst this
      refine ⟨rfl, rfl, ?_⟩
      unfold persistentStateAtSlot saveState
      rw [hf]
      simp only [ha, hrt.slot slot hu, hl]
      cases w with
      | complete =>
        exact ⟨_, _, rfl, ⟨(ops.serialize (chain slot)).length, (List.take_length).symm⟩, fun _ => ⟨rfl, rfl⟩, by
          intro s h; cases h; rfl⟩
      | failed k => exact ⟨_, _, rfl, ⟨k, rfl⟩, by simp, by intro s h; cases h⟩
      | killed k => exact ⟨_, _, rfl, ⟨k, rfl⟩, by simp, by intro s h; cases h⟩

theorem lookup_append_single (dir : Dir) (n m : List Char) (e : Entry) (hl : dir.lookup m = none) :
    (dir ++ [(m, e)]).lookup n = if n = m then some e else dir.lookup n := by
  rw [List.lookup_append]
  by_cases h : n = m
  · subst h; rw [hl]; simp
  · rw [if_neg h]
    have : List.lookup n [(m, e)] = none := by simp [List.lookup, show (n == m) = false by simpa using h]
    rw [this]; simp

theorem onlyPrefixes_step {ops : StateOps σ} {chain : Nat → σ} {spe : Nat} {dir : Dir} (e : ProviderEvent σ)
    (hrt : RoundTrip ops chain) (hh : ∀ slot api w, e = .request slot api w → slot < 2 ^ 64 ∧ Honest chain api)
    (hd : OnlyPrefixes ops chain dir) : OnlyPrefixes ops chain (providerStep ops spe dir e).1 := by
  cases e with
  | request slot api w =>
    obtain ⟨hu, hh⟩ := hh slot api w rfl
    simp only [providerStep]
    rcases request_spec (w := w) (dir := dir) (slot := slot) hu hrt hh with ⟨-, -, h⟩ | ⟨hl, -, content, r, h, hk, -⟩ | ⟨_, -, h, -⟩
    · rw [h]; exact hd
    · rw [h]
      intro slot' hu' content' hc
      simp only at hc
      rw [lookup_append_single _ _ _ _ hl] at hc
      split at hc
      · rename_i he
        have := stateFile_inj hu' hu he
        subst this
        cases hc
        exact hk
      · exact hd slot' hu' content' hc
    · rw [h]; exact hd
  | clear epoch fails steps =>
    simp only [providerStep, clearStatesBefore]
    intro slot hu content hc
    rcases (clearLoop_spec fails (satMul epoch spe) steps dir dir).2.1 (stateFile slot) with h | h
    · rw [h] at hc; exact hd slot hu content hc
    · rw [h] at hc; cases hc

/-- **C47 (never a wrong state).** For every sequence of requests and clearings, with failures and kills at any point, also
in the middle of a write, the persistent provider never answers with anything but the state that the node has for that
slot. This needs that a truncated serialized state is never accepted as a different state. -/
theorem C47_never_wrong (ops : StateOps σ) (chain : Nat → σ) (spe : Nat) (dir : Dir) (events : List (ProviderEvent σ))
    (hrt : RoundTrip ops chain) (hp : NoWrongPrefix ops chain) (hd : OnlyPrefixes ops chain dir)
    (hh : HonestEvents chain events) :
    ∀ slot r, (slot, r) ∈ (providerRun ops spe dir events).2 → ∀ s, r = .ok s → s = chain slot := by
  induction events generalizing dir with
  | nil => intro slot r h; cases h
  | cons e events ih =>
    intro slot r h s hs
    simp only [providerRun, List.mem_append] at h
    rcases h with h | h
    · cases e with
      | clear epoch fails steps => simp [providerStep] at h
      | request slot' api w =>
        simp only [providerStep, Option.toList_some, List.mem_singleton, Prod.mk.injEq] at h
        obtain ⟨rfl, rfl⟩ := h
        obtain ⟨hu, hh'⟩ := hh slot api w (by simp)
        rcases request_spec (w := w) (dir := dir) (slot := slot) hu hrt hh' with
          ⟨-, -, h⟩ | ⟨hl, -, content, r, h, hk, -, hr⟩ | ⟨entry, hl, h, hr⟩
        · rw [h] at hs; cases hs
        · rw [h] at hs; exact hr s hs
        · rw [h] at hs
          obtain ⟨content, rfl, hdes⟩ := hr s hs
          obtain ⟨k, rfl⟩ := hd slot hu content hl
          exact hp slot hu k s hdes
    · refine ih _ (onlyPrefixes_step e hrt ?_ hd) ?_ slot r h s hs
      · rintro slot' api w rfl
        exact hh slot' api w (by simp)
      · intro slot' api w hm
        exact hh slot' api w (List.mem_cons_of_mem _ hm)

theorem intact_step {ops : StateOps σ} {chain : Nat → σ} {spe : Nat} {dir : Dir} {slot : Nat} (e : ProviderEvent σ)
    (hu : slot < 2 ^ 64) (hrt : RoundTrip ops chain)
    (hh : ∀ slot api w, e = .request slot api w → slot < 2 ^ 64 ∧ Honest chain api)
    (hw : ∀ api w, e = .request slot api w → w = .complete)
    (hd : Intact ops chain dir slot) : Intact ops chain (providerStep ops spe dir e).1 slot := by
  cases e with
  | request slot' api w =>
    obtain ⟨hu', hh⟩ := hh slot' api w rfl
    simp only [providerStep]
    rcases request_spec (w := w) (dir := dir) (slot := slot') hu' hrt hh with
      ⟨-, -, h⟩ | ⟨hl, -, content, r, h, hk, hcomp, -⟩ | ⟨_, -, h, -⟩
    · rw [h]; exact hd
    · rw [h]
      unfold Intact
      simp only
      rw [lookup_append_single _ _ _ _ hl]
      split
      · rename_i he
        have := stateFile_inj hu hu' he
        subst this
        rw [(hcomp (hw api w rfl)).1]
        exact Or.inr rfl
      · exact hd
    · rw [h]; exact hd
  | clear epoch fails steps =>
    simp only [providerStep, clearStatesBefore]
    unfold Intact
    rcases (clearLoop_spec fails (satMul epoch spe) steps dir dir).2.1 (stateFile slot) with h | h
    · rw [h]; exact hd
    · rw [h]; exact Or.inl rfl

theorem intact_run {ops : StateOps σ} {chain : Nat → σ} {spe : Nat} {slot : Nat} (hu : slot < 2 ^ 64)
    (hrt : RoundTrip ops chain) : ∀ (events : List (ProviderEvent σ)) (dir : Dir), HonestEvents chain events →
    (∀ api w, ProviderEvent.request slot api w ∈ events → w = .complete) → Intact ops chain dir slot →
    Intact ops chain (providerRun ops spe dir events).1 slot := by
  intro events
  induction events with
  | nil => intro dir _ _ hd; exact hd
  | cons e events ih =>
    intro dir hh hw hd
    simp only [providerRun]
    apply ih
    · intro slot' api w hm
      exact hh slot' api w (List.mem_cons_of_mem _ hm)
    · intro api w hm
      exact hw api w (List.mem_cons_of_mem _ hm)
    · refine intact_step e hu hrt ?_ ?_ hd
      · rintro slot' api w rfl
        exact hh slot' api w (by simp)
      · rintro api w rfl
        exact hw api w (by simp)

/-- **C47 (retry), partial.** Full statement: after every sequence of requests, clearings, failures and kills, a request
that finds the node available is answered with the state for that slot. Missing: the writes of that slot must not have
been interrupted; `C47_truncated_forever` shows that this is needed. Interrupted writes of other slots, failures of the
node and interrupted clearings are all allowed. Once stored, the state is also served without the node. -/
theorem C47_retry_partial (ops : StateOps σ) (chain : Nat → σ) (spe : Nat) (dir : Dir) (slot : Nat)
    (events : List (ProviderEvent σ)) (hu : slot < 2 ^ 64) (hrt : RoundTrip ops chain) (hd : Intact ops chain dir slot)
    (hh : HonestEvents chain events) (hw : ∀ api w, ProviderEvent.request slot api w ∈ events → w = .complete)
    (api : Nat → Option σ) (ha : api slot = some (chain slot)) :
    (persistentStateAtSlot ops api .complete (providerRun ops spe dir events).1 slot).1 = .ok (chain slot) ∧
    ∀ api' w, (persistentStateAtSlot ops api' w
      (persistentStateAtSlot ops api .complete (providerRun ops spe dir events).1 slot).2 slot).1 =
        .ok (chain slot) := by
  have hi := intact_run (spe := spe) hu hrt events dir hh hw hd
  generalize (providerRun ops spe dir events).1 = dir' at hi
  -- a stored state is served from the file
  have hserve : ∀ (d : Dir) (api' : Nat → Option σ) (w : WriteEnd),
      d.lookup (stateFile slot) = some (.file (ops.serialize (chain slot))) →
      persistentStateAtSlot ops api' w d slot = (.ok (chain slot), d) := by
    intro d api' w hl
    have hf : fileStateAtSlot ops d slot = .ok (chain slot) := by
      unfold fileStateAtSlot
      rw [hl]
      simp only [hrt.read slot hu]
    unfold persistentStateAtSlot
    rw [hf]
  rcases hi with hl | hl
  · have hp : persistentStateAtSlot ops api .complete dir' slot =
        (.ok (chain slot), dir' ++ [(stateFile slot, .file (ops.serialize (chain slot)))]) := by
      unfold persistentStateAtSlot fileStateAtSlot saveState
      rw [hl]
      simp only [ha, hrt.slot slot hu, hl]
      rfl
    rw [hp]
    refine ⟨rfl, fun api' w => ?_⟩
    rw [hserve]
    rw [lookup_append_single _ _ _ _ hl, if_pos rfl]
  · rw [hserve dir' api .complete hl]
    exact ⟨rfl, fun api' w => by rw [hserve dir' api' w hl]⟩

/-- **C47, negation.** A write that is interrupted where the bytes so far are not a state makes every later request for
that slot fail, although the node is available, until the file is removed: the file exists, so the node is not asked. -/
theorem C47_truncated_forever (ops : StateOps σ) (chain : Nat → σ) (spe : Nat) (dir : Dir) (slot k : Nat)
    (hu : slot < 2 ^ 64) (hrt : RoundTrip ops chain) (hl : dir.lookup (stateFile slot) = none)
    (hk : ops.deserialize ((ops.serialize (chain slot)).take k) = none)
    (events : List (ProviderEvent σ)) (hh : HonestEvents chain events)
    (hclear : ∀ epoch fails steps, ProviderEvent.clear epoch fails steps ∈ events → epoch * spe ≤ slot)
    (api : Nat → Option σ) (ha : api slot = some (chain slot)) :
    ∀ r, (slot, r) ∈ (providerRun ops spe (persistentStateAtSlot ops api (.killed k) dir slot).2 events).2 →
      r = .err .other := by
  have hp : (persistentStateAtSlot ops api (.killed k) dir slot).2 =
      dir ++ [(stateFile slot, .file ((ops.serialize (chain slot)).take k))] := by
    unfold persistentStateAtSlot fileStateAtSlot saveState
    rw [hl]
    simp only [ha, hrt.slot slot hu, hl]
  rw [hp]
  have h0 : (dir ++ [(stateFile slot, Entry.file ((ops.serialize (chain slot)).take k))]).lookup (stateFile slot) =
      some (.file ((ops.serialize (chain slot)).take k)) := by
    rw [lookup_append_single _ _ _ _ hl, if_pos rfl]
  clear hp hl
  generalize dir ++ [(stateFile slot, Entry.file ((ops.serialize (chain slot)).take k))] = d at h0
  induction events generalizing d with
  | nil => intro r h; cases h
  | cons e events ih =>
    intro r h
    simp only [providerRun, List.mem_append] at h
    have hfile : fileStateAtSlot ops d slot = .err .other := by
      unfold fileStateAtSlot
      rw [h0]
      simp only [hk]
    rcases h with h | h
    · cases e with
      | clear epoch fails steps => simp [providerStep] at h
      | request slot' api w =>
        simp only [providerStep, Option.toList_some, List.mem_singleton, Prod.mk.injEq] at h
        obtain ⟨rfl, rfl⟩ := h
        unfold persistentStateAtSlot
        rw [hfile]
    · refine ih (fun slot' api w hm => hh slot' api w (List.mem_cons_of_mem _ hm))
        (fun epoch fails steps hm => hclear epoch fails steps (List.mem_cons_of_mem _ hm)) (d := _) ?_ r h
      cases e with
      | request slot' api w =>
        obtain ⟨hu', hh'⟩ := hh slot' api w (by simp)
        simp only [providerStep]
        rcases request_spec (w := w) (dir := d) (slot := slot') hu' hrt hh' with
          ⟨-, -, h⟩ | ⟨hl', -, content, r, h, -⟩ | ⟨_, -, h, -⟩
        · rw [h]; exact h0
        · rw [h]
          simp only
          rw [lookup_append_single _ _ _ _ hl', if_neg, h0]
          intro he
          rw [he, hl'] at h0
          cases h0
        · rw [h]; exact h0
      | clear epoch fails steps =>
        have hle := hclear epoch fails steps (by simp)
        simp only [providerStep, clearStatesBefore]
        rw [(clearLoop_spec fails (satMul epoch spe) steps d d).1, h0]
        intro s hs
        rw [slotOfName_stateFile hu] at hs
        cases hs
        unfold satMul
        omega

/-- **C47.** Saving never changes an entry that is there, however it ends; and when it reports success, the state was not
there before and can be read back, provided that its serialization can. -/
theorem C47_save (ops : StateOps σ) (dir : Dir) (state : σ) (w : WriteEnd) :
    (∀ name e, dir.lookup name = some e → (saveState ops dir state w).2.lookup name = some e) ∧
    ((saveState ops dir state w).1 = .ok () → ops.deserialize (ops.serialize state) = some state →
      fileStateAtSlot ops dir (ops.slot state) = .err (.notFound (ops.slot state)) ∧
      fileStateAtSlot ops (saveState ops dir state w).2 (ops.slot state) = .ok state) := by
  unfold saveState
  dsimp only
  cases hl : dir.lookup (stateFile (ops.slot state)) with
  | some e =>
    dsimp only
    exact ⟨fun _ _ h => h, by intro h; cases h⟩
  | none =>
    have keep : ∀ content name e, dir.lookup name = some e →
        (dir ++ [(stateFile (ops.slot state), Entry.file content)]).lookup name = some e := by
      intro content name e h
      rw [lookup_append_single _ _ _ _ hl, if_neg, h]
      rintro rfl
      rw [hl] at h
      cases h
    cases w with
    | complete =>
      dsimp only
      refine ⟨fun name e h => keep _ name e h, fun _ hd => ⟨?_, ?_⟩⟩
      · unfold fileStateAtSlot; rw [hl]
      · unfold fileStateAtSlot
        rw [lookup_append_single _ _ _ _ hl, if_pos rfl]
        simp only [hd]
    | failed k => dsimp only; exact ⟨fun name e h => keep _ name e h, by intro h; cases h⟩
    | killed k => dsimp only; exact ⟨fun name e h => keep _ name e h, by intro h; cases h⟩

/-- **C47.** Clearing the states of a later epoch repairs an interrupted write: the file is gone. -/
theorem C47_clearing_repairs (ops : StateOps σ) (chain : Nat → σ) (spe : Nat) (fails : List Char → Bool) (dir : Dir)
    (epoch steps slot : Nat) (hs : slot < epoch * spe) (hu : slot < 2 ^ 64 - 1)
    (h : (clearStatesBefore spe fails dir epoch steps).1 = .ok ()) :
    Intact ops chain (clearStatesBefore spe fails dir epoch steps).2 slot := by
  left
  have := C48_removes_older ops spe fails dir epoch steps slot hs hu h
  unfold fileStateAtSlot at this
  cases hl : (clearStatesBefore spe fails dir epoch steps).2.lookup (stateFile slot) with
  | none => rfl
  | some entry =>
    rw [hl] at this
    cases entry with
    | directory => cases this
    | file content =>
      simp only at this
      cases hd : ops.deserialize content <;> rw [hd] at this <;> cases this

/-! ### Concrete states -/

/-- A state is its slot and a list of bytes; the last byte written is an end mark. -/
def pxOps : StateOps (Nat × Bytes) where
  slot := (·.1)
  genesisValidatorsRoot := fun _ => zeroRoot
  latestBlockHeader := fun s => ⟨s.1, 0, zeroRoot, zeroRoot, zeroRoot⟩
  hashTreeRoot := fun _ => zeroRoot
  serialize := fun s => leBytes 8 s.1 ++ s.2.map (fun _ => 1) ++ [0]
  deserialize := fun b =>
    if 9 ≤ b.length ∧ b.getLast? = some 0 then some (ofLE (b.take 8), ((b.drop 8).dropLast).map (fun _ => 7)) else none

def pxChain (slot : Nat) : Nat × Bytes := (slot % 2 ^ 64, [7, 7, 7])

/-- The same with a list at the end of the serialization that is as long as there are bytes, as in SSZ. -/
def pxOpsList : StateOps (Nat × Bytes) := { pxOps with
  serialize := fun s => leBytes 8 s.1 ++ s.2
  deserialize := fun b => if 8 ≤ b.length then some (ofLE (b.take 8), b.drop 8) else none }

/-- **C47, limit.** `NoWrongPrefix` is needed: in a format in which a list extends to the end of the file, as the last
list of an SSZ container does, an interrupted write can leave the file of a different state, and the provider then
answers with that one. -/
theorem C47_truncated_wrong :
    ∃ (dir : Dir) (slot k : Nat) (s : Nat × Bytes),
      dir = (persistentStateAtSlot pxOpsList (fun n => some (n, [7, 7, 7])) (.killed k) [] slot).2 ∧
      (persistentStateAtSlot pxOpsList (fun n => some (n, [7, 7, 7])) .complete dir slot).1 = .ok s ∧
      s ≠ (slot, [7, 7, 7]) := by
  refine ⟨_, 5, 10, (5, [7, 7]), rfl, ?_, by decide⟩
  have h1 : (persistentStateAtSlot pxOpsList (fun n => some (n, [7, 7, 7])) (.killed 10) [] 5).2 =
      [(stateFile 5, .file [5, 0, 0, 0, 0, 0, 0, 0, 7, 7])] := rfl
  rw [h1]
  have h2 : fileStateAtSlot pxOpsList [(stateFile 5, .file [5, 0, 0, 0, 0, 0, 0, 0, 7, 7])] 5 = .ok (5, [7, 7]) := by
    unfold fileStateAtSlot
    simp [List.lookup_cons]
    decide
  unfold persistentStateAtSlot
  rw [h2]


theorem pxSerialize {slot : Nat} (h : slot < 2 ^ 64) :
    pxOps.serialize (pxChain slot) = leBytes 8 slot ++ [1, 1, 1, 0] := by
  have hm : slot % 2 ^ 64 = slot := Nat.mod_eq_of_lt h
  show leBytes 8 (slot % 2 ^ 64) ++ [1, 1, 1] ++ [0] = _
  rw [hm, List.append_assoc]
  rfl

theorem pxDeserialize (b : Bytes) : pxOps.deserialize b =
    if 9 ≤ b.length ∧ b.getLast? = some 0 then some (ofLE (b.take 8), ((b.drop 8).dropLast).map (fun _ => 7)) else none :=
  rfl

theorem pxRoundTrip : RoundTrip pxOps pxChain where
  slot := by
    intro slot h
    show slot % 2 ^ 64 = slot
    exact Nat.mod_eq_of_lt h
  read := by
    intro slot h
    have hm : slot % 2 ^ 64 = slot := Nat.mod_eq_of_lt h
    have h1 : (leBytes 8 slot ++ [1, 1, 1, 0]).take 8 = leBytes 8 slot := List.take_left' (leBytes_length 8 slot)
    have h2 : (leBytes 8 slot ++ [1, 1, 1, 0]).drop 8 = [1, 1, 1, 0] := List.drop_left' (leBytes_length 8 slot)
    rw [pxSerialize h, pxDeserialize]
    rw [if_pos ⟨by simp, by simp⟩, h1, h2, ofLE_leBytes]
    simp only [pxChain, hm]
    have : slot % 256 ^ 8 = slot := Nat.mod_eq_of_lt (by simpa using h)
    rw [this]
    rfl

theorem pxNoWrongPrefix : NoWrongPrefix pxOps pxChain := by
  intro slot hu k s h
  have hser := pxSerialize hu
  rw [hser] at h
  have hlen : (leBytes 8 slot ++ [1, 1, 1, 0]).length = 12 := by simp
  rcases Nat.lt_or_ge k 12 with hk | hk
  · exfalso
    rcases Nat.lt_or_ge k 9 with hk9 | hk9
    · rw [pxDeserialize, if_neg] at h
      · cases h
      · rintro ⟨h9, -⟩
        rw [List.length_take] at h9
        omega
    · rw [pxDeserialize, if_neg] at h
      · cases h
      · rintro ⟨-, hl⟩
        have : k = 9 ∨ k = 10 ∨ k = 11 := by omega
        rcases this with rfl | rfl | rfl <;> simp [List.take_append] at hl
  · rw [List.take_of_length_le (by omega), ← hser, pxRoundTrip.read slot hu] at h
    cases h; rfl

/-- The hypotheses are met by an empty directory and a history with an interrupted write, a failing node and an
interrupted clearing. -/
example : RoundTrip pxOps pxChain ∧ NoWrongPrefix pxOps pxChain ∧ OnlyPrefixes pxOps pxChain [] ∧
    Intact pxOps pxChain [] 64 ∧
    HonestEvents pxChain [.request 5 (fun n => some (pxChain n)) (.killed 10), .request 64 (fun _ => none) .complete,
      .clear 1 (fun _ => false) 0] := by
  refine ⟨pxRoundTrip, pxNoWrongPrefix, ?_, Or.inl rfl, ?_⟩
  · intro slot _ content h; cases h
  · intro slot api w h
    simp only [List.mem_cons, ProviderEvent.request.injEq, List.not_mem_nil, or_false, reduceCtorEq] at h
    rcases h with ⟨rfl, rfl, rfl⟩ | ⟨rfl, rfl, rfl⟩
    · exact ⟨by decide, fun n s h => by cases h; rfl⟩
    · exact ⟨by decide, fun n s h => by cases h⟩

/-- The condition of `C47_truncated_forever` is met: the first ten bytes are not a state. -/
example : pxOps.deserialize ((pxOps.serialize (pxChain 5)).take 10) = none := by decide

/-- A state for a checkpoint, from a provider whose first slot of the epoch is empty. -/
example : ∃ (provider : Nat → Res ProviderError (Nat × Bytes)) (c : Checkpoint) (s : Nat × Bytes),
    stateAtCheckpoint exExt { pxOps with latestBlockHeader := fun _ => ⟨63, 0, zeroRoot, zeroRoot, zeroRoot⟩ }
      32 provider c = .ok s ∧ s.1 = 63 ∧ c.epoch = 2 := by
  refine ⟨fun n => .ok (n, []), ⟨2, (Header.mk 63 0 zeroRoot zeroRoot zeroRoot).tree.root exExt⟩, (63, []), ?_, rfl, rfl⟩
  unfold stateAtCheckpoint
  have : stateAtEpochBoundary { pxOps with
      latestBlockHeader := fun _ => ⟨63, 0, zeroRoot, zeroRoot, zeroRoot⟩ } 32 (fun n => .ok (n, [])) 2 =
      .ok (63, []) := rfl
  rw [this]
  simp only [Res.ok_bind]
  have hr : (pxOps.hashTreeRoot (63, [])) = zeroRoot := rfl
  rw [hr, ensure, if_pos (decide_eq_true rfl)]
  rfl

end Signal
