import Verif.Spec.Paths
import Verif.Spec.Reproducible
import Verif.Props.Gindices
import Verif.Props.Builder
import Verif.Proofs.Reproducible
import Verif.Proofs.OMap
import Verif.Proofs.RegistryProof

/-!
# C95: registered paths

Specification: `Verif/Spec/Paths.lean`.
-/

namespace Signal
open Spec Gen

theorem typeAt_isSome_iff (path : List PathElem) : ∀ (s : Schema) (s' : Schema), typeAt s path = some s' ↔ Leads s path s' := by
  induction path with
  | nil =>
    intro s s'
    simp only [typeAt, Option.some.injEq]
    exact ⟨fun h => h ▸ .here, fun h => by cases h; rfl⟩
  | cons p ps ih =>
    intro s s'
    simp only [typeAt]
    constructor
    · intro h
      cases hs : step s p with
      | none => rw [hs] at h; cases h
      | some x =>
        obtain ⟨d, i, t⟩ := x
        rw [hs] at h
        have ht := (ih t s').1 h
        cases s with
        | «opaque» => cases p <;> cases hs
        | bytes n =>
          cases p with
          | field name => cases hs
          | index j =>
            simp only [step] at hs
            split at hs <;> cases hs
            exact .byte (by assumption) ht
        | list limit e =>
          cases p with
          | field name => cases hs
          | index j =>
            simp only [step] at hs
            split at hs <;> cases hs
            exact .element (by assumption) ht
        | container fs =>
          cases p with
          | index j => cases hs
          | field name =>
            simp only [step] at hs
            obtain ⟨j, h1, h2⟩ := Option.bind_eq_some_iff.1 hs
            obtain ⟨f, h3, h4⟩ := Option.bind_eq_some_iff.1 h2
            cases h4
            obtain ⟨hj, hp, hmin⟩ := List.findIdx?_eq_some_iff_getElem.1 h1
            obtain ⟨_, hf⟩ := List.getElem?_eq_some_iff.1 h3
            have hname : f.1 = name := by rw [hf] at hp; simpa using hp
            refine .field (s := f.2) ?_ ht
            rw [List.find?_eq_some_iff_getElem]
            refine ⟨by simp, i, hj, by rw [hf, ← hname], fun k hk => by simpa using hmin k hk⟩
    · intro h
      cases h with
      | @field fs name t _ _ hf ht =>
        obtain ⟨-, j, hj, hfj, hmin⟩ := List.find?_eq_some_iff_getElem.1 hf
        have h1 : fs.findIdx? (fun f => f.1 == name) = some j := by
          rw [List.findIdx?_eq_some_iff_getElem]
          exact ⟨hj, by rw [hfj]; simp, fun k hk => by simpa using hmin k hk⟩
        have hs : step (.container fs) (.field name) = some (depthFor fs.length, j, t) := by
          simp [step, h1, List.getElem?_eq_getElem hj, hfj]
        rw [hs]
        exact (ih t s').2 ht
      | @byte n j _ _ hj ht =>
        simp only [step, hj, if_true]
        exact (ih _ s').2 ht
      | @element limit j e _ _ hj ht =>
        simp only [step, hj, if_true]
        exact (ih _ s').2 ht

theorem gindexFrom_isSome (path : List PathElem) : ∀ (s : Schema) (root : Nat), (gindexFrom root s path).isSome = (typeAt s path).isSome := by
  induction path with
  | nil => intro s root; rfl
  | cons p ps ih =>
    intro s root
    simp only [gindexFrom, typeAt]
    cases step s p with
    | none => rfl
    | some x => exact ih _ _

/-- A path has an index exactly if it is one of the type. -/
theorem reqIndex_isSome_iff (s : Schema) (q : ReqPath) : (reqIndex s q).isSome ↔ PathOf s q := by
  cases q with
  | part path =>
    simp only [reqIndex, gindex, gindexFrom_isSome, PathOf, ← typeAt_isSome_iff, Option.isSome_iff_exists]
  | lengthOf path =>
    have hg := gindexFrom_isSome path s 1
    simp only [reqIndex, PathOf, ← typeAt_isSome_iff]
    cases ht : typeAt s path with
    | none => simp
    | some t =>
      rw [ht] at hg
      cases t with
      | list limit e => simp only [Option.isSome_map, gindex, hg]; simp
      | _ => simp

theorem register_eq {ε : Type} (rs : List Registration) : ∀ b : ProofBuilder, OSet.Sorted b.gindices →
    ((∃ r ∈ rs, Unknown r) ∧ (ProofBuilder.register rs b : Res ε ProofBuilder) = .panic) ∨
    ((∀ r ∈ rs, ¬ Unknown r) ∧ ∃ b', (ProofBuilder.register rs b : Res ε ProofBuilder) = .ok b' ∧ OSet.Sorted b'.gindices ∧
      ∀ g, g ∈ b'.gindices ↔ g ∈ b.gindices ∨ ∃ r ∈ rs, Asks g r) := by
  induction rs with
  | nil => intro b hb; exact .inr ⟨by simp, b, rfl, hb, by simp⟩
  | cons r rs ih =>
    intro b hb
    have key : ∀ b1 : ProofBuilder, OSet.Sorted b1.gindices → ¬ Unknown r → (ProofBuilder.register (r :: rs) b : Res ε ProofBuilder) = ProofBuilder.register rs b1 →
        (∀ g, g ∈ b1.gindices ↔ g ∈ b.gindices ∨ Asks g r) →
        ((∃ r' ∈ r :: rs, Unknown r') ∧ (ProofBuilder.register (r :: rs) b : Res ε ProofBuilder) = .panic) ∨
        ((∀ r' ∈ r :: rs, ¬ Unknown r') ∧ ∃ b', (ProofBuilder.register (r :: rs) b : Res ε ProofBuilder) = .ok b' ∧ OSet.Sorted b'.gindices ∧
          ∀ g, g ∈ b'.gindices ↔ g ∈ b.gindices ∨ ∃ r' ∈ r :: rs, Asks g r') := by
      intro b1 h1 hu he hm
      rcases ih b1 h1 with ⟨⟨r', hr', hu'⟩, hp⟩ | ⟨hn, b', hok, hs, hmem⟩
      · exact .inl ⟨⟨r', List.mem_cons_of_mem _ hr', hu'⟩, he.trans hp⟩
      · refine .inr ⟨by simpa using ⟨hu, hn⟩, b', he.trans hok, hs, fun g => ?_⟩
        rw [hmem, hm]; simp [or_assoc]
    cases r with
    | path s q =>
      cases hq : reqIndex s q with
      | none =>
        refine .inl ⟨⟨_, List.mem_cons_self, ?_⟩, ?_⟩
        · intro hp
          have := (reqIndex_isSome_iff s q).2 hp
          rw [hq] at this; cases this
        · simp only [ProofBuilder.register, ProofBuilder.withPath, hq, expect]; rfl
      | some g0 =>
        refine key ⟨b.gindices.insert g0⟩ (OSet.sorted_insert hb g0) ?_ ?_ ?_
        · intro hu
          exact hu ((reqIndex_isSome_iff s q).1 (by rw [hq]; rfl))
        · simp only [ProofBuilder.register, ProofBuilder.withPath, hq, expect]; rfl
        · intro g
          simp only [OSet.mem_insert, Asks, hq, Option.some.injEq]
          constructor
          · rintro (rfl | h)
            · exact .inr rfl
            · exact .inl h
          · rintro (h | rfl)
            · exact .inr h
            · exact .inl rfl
    | gindex g0 =>
      refine key (b.withGindex g0) (OSet.sorted_insert hb g0) (fun h => h) rfl (fun g => ?_)
      simp only [ProofBuilder.withGindex, OSet.mem_insert, Asks, or_comm]
    | gindices gs =>
      refine key (b.withGindices gs) (OSet.sorted_extend hb gs) (fun h => h) rfl (fun g => ?_)
      simp only [ProofBuilder.withGindices, OSet.mem_extend, Asks]

/-- **C95.** Registering a path that the type does not have aborts, and nothing else does; otherwise the builder holds exactly the indices asked for,
each once, in ascending order. -/
theorem C95_registered {ε : Type} (rs : List Registration) :
    ((ProofBuilder.register rs .new : Res ε ProofBuilder) = .panic ↔ ∃ r ∈ rs, Unknown r) ∧
    (∀ e, (ProofBuilder.register rs .new : Res ε ProofBuilder) ≠ .err e) ∧
    ∀ b, (ProofBuilder.register rs .new : Res ε ProofBuilder) = .ok b →
      b.gindices.Pairwise (· < ·) ∧ ∀ g, g ∈ b.gindices ↔ ∃ r ∈ rs, Asks g r := by
  rcases register_eq (ε := ε) rs .new (by simp [ProofBuilder.new, OSet.Sorted]) with ⟨hu, hp⟩ | ⟨hn, b', hok, hs, hm⟩
  · rw [hp]
    exact ⟨⟨fun _ => hu, fun _ => rfl⟩, (by intro e h; cases h), (by intro b h; cases h)⟩
  · rw [hok]
    refine ⟨⟨(by intro h; cases h), ?_⟩, (by intro e h; cases h), ?_⟩
    · rintro ⟨r, hr, hu⟩; exact absurd hu (hn r hr)
    · intro b h
      cases h
      exact ⟨hs, fun g => by rw [hm]; simp [ProofBuilder.new]⟩

/-- **C95.** The order of the calls, repeated calls and whether something is asked for by path or by index make no difference to the proof, nor does
the order in which hash sets are iterated. -/
theorem C95_order {ε : Type} {rs rs' : List Registration} {b b' : ProofBuilder} (h : (ProofBuilder.register rs .new : Res ε ProofBuilder) = .ok b)
    (h' : (ProofBuilder.register rs' .new : Res ε ProofBuilder) = .ok b') (hsame : ∀ g, (∃ r ∈ rs, Asks g r) ↔ ∃ r ∈ rs', Asks g r)
    (X : Ext) (order order' : List Nat → List Nat) (ho : SetOrder order) (ho' : SetOrder order') (T : Tree) :
    b.build X order T = b'.build X order' T := by
  obtain ⟨-, -, k⟩ := C95_registered (ε := ε) rs
  obtain ⟨-, -, k'⟩ := C95_registered (ε := ε) rs'
  obtain ⟨s, m⟩ := k b h
  obtain ⟨s', m'⟩ := k' b' h'
  have : b.gindices = b'.gindices := OSet.eq_of_mem_iff s s' (fun g => by rw [m, m', hsame])
  unfold ProofBuilder.build
  rw [this, build_order X order order' ho ho']

/-- The index of a path with an end is that of the end. -/
theorem reqIndex_ends {s : Schema} {T t : Tree} {q : ReqPath} (h : EndsAt s T q t) : ∃ g, reqIndex s q = some g ∧ T.nodeAt g = some t := by
  cases q with
  | part path =>
    obtain ⟨s', hr⟩ := h
    exact C73_path hr
  | lengthOf path =>
    obtain ⟨limit, elem, chunks, hr⟩ := h
    obtain ⟨g, h1, h2⟩ := C73_path hr
    have hl : ∀ {s T path s' T'}, Reach s T path s' T' → typeAt s path = some s' := by
      intro s T path s' T' h
      induction h with
      | here => rfl
      | down hp _ ih =>
        obtain ⟨d, i, e, -, -⟩ := step_part hp
        simp only [typeAt, e, ih]
    refine ⟨2 * g + 1, by simp only [reqIndex, hl hr, h1, Option.map_some], ?_⟩
    have hg : g ≠ 0 := by rintro rfl; rw [Tree.nodeAt] at h2; simp at h2
    rw [Tree.nodeAt, if_neg (by omega), if_neg (by omega)]
    have : (2 * g + 1) / 2 = g := by omega
    rw [this, h2]
    simp

/-- **C95.** A proof built for registered paths and indices, none of them above another, verifies against the root of the value and holds, for every registered
path, the root of the part at its end. -/
theorem C95_served {ε : Type} (X : Ext) (hcap : 126 ≤ X.stackCapacity) {rs : List Registration} {b : ProofBuilder}
    (h : (ProofBuilder.register rs .new : Res ε ProofBuilder) = .ok b) (T : Tree) (hT : T.Chunked) (hgood : GoodRequest T b.gindices)
    (order : List Nat → List Nat) (ho : SetOrder order) :
    ∃ p, b.build X order T = .ok p ∧ p.verify X (T.root X) = .ok () ∧
      ∀ s q t, .path s q ∈ rs → EndsAt s T q t → ∃ g, reqIndex s q = some g ∧ p.get g = some (t.root X) := by
  obtain ⟨-, -, k⟩ := C95_registered (ε := ε) rs
  obtain ⟨hs, hm⟩ := k b h
  obtain ⟨p, h1, h2⟩ := C28_built_proof_verifies X T hT b.gindices hs hgood order ho hcap
  refine ⟨p, h1, h2, ?_⟩
  intro s q t hr he
  obtain ⟨g, e, hn⟩ := reqIndex_ends he
  obtain ⟨-, -, -, hget⟩ := C29_built_proof_values X T hT b.gindices hs hgood order ho p h1
  exact ⟨g, e, (hget g _).2 ⟨(hm g).2 ⟨_, hr, e⟩, t, hn, rfl⟩⟩

/-! ## The host -/

theorem register_ok {ε : Type} (f : Registration → List Nat) (rs : List Registration)
    (hf : ∀ r ∈ rs, ∃ s q g, r = .path s q ∧ reqIndex s q = some g ∧ f r = [g]) : ∀ b : ProofBuilder,
    (ProofBuilder.register rs b : Res ε ProofBuilder) = .ok ⟨b.gindices.extend (rs.flatMap f)⟩ := by
  induction rs with
  | nil => intro b; rfl
  | cons r rs ih =>
    intro b
    obtain ⟨s, q, g, rfl, hq, hg⟩ := hf _ List.mem_cons_self
    have : (ProofBuilder.register (.path s q :: rs) b : Res ε ProofBuilder) = ProofBuilder.register rs ⟨b.gindices.insert g⟩ := by
      simp only [ProofBuilder.register, ProofBuilder.withPath, hq, expect]; rfl
    rw [this, ih (fun r hr => hf r (List.mem_cons_of_mem _ hr)), List.flatMap_cons, hg]
    rfl

/-- The index of a registered path. -/
def indexOf : Registration → List Nat
  | .path s q => (reqIndex s q).toList
  | .gindex g => [g]
  | .gindices gs => gs

theorem register_paths {ε : Type} (rs : List Registration) (hf : ∀ r ∈ rs, ∃ s q g, r = .path s q ∧ reqIndex s q = some g) :
    (ProofBuilder.register rs .new : Res ε ProofBuilder) = .ok ⟨OSet.extend [] (rs.flatMap indexOf)⟩ :=
  register_ok indexOf rs (fun r hr => by
    obtain ⟨s, q, g, rfl, h⟩ := hf r hr
    exact ⟨s, q, g, rfl, h, by simp [indexOf, h]⟩) .new

/-- A field of a validator. -/
theorem registry_index (i : Nat) (hi : i < 2 ^ 40) :
    reqIndex registrySchema (.part [.index i, .field "public_key", .index 0]) = some (2 * validatorPath i 0) ∧
    reqIndex registrySchema (.part [.index i, .field "public_key", .index 47]) = some (2 * validatorPath i 0 + 1) ∧
    reqIndex registrySchema (.part [.index i, .field "effective_balance"]) = some (validatorPath i 2) ∧
    reqIndex registrySchema (.part [.index i, .field "slashed"]) = some (validatorPath i 3) ∧
    reqIndex registrySchema (.part [.index i, .field "activation_eligibility_epoch"]) = some (validatorPath i 4) ∧
    reqIndex registrySchema (.part [.index i, .field "activation_epoch"]) = some (validatorPath i 5) ∧
    reqIndex registrySchema (.part [.index i, .field "exit_epoch"]) = some (validatorPath i 6) := by
  have hstep : step registrySchema (.index i) = some (41, i, validatorSchema) := by
    have : depthFor (2 ^ 40) = 40 := by decide
    simp only [registrySchema, step, hi, if_true, this]
  have hfrom : ∀ path, reqIndex registrySchema (.part (.index i :: path)) = gindexFrom (2 ^ 41 + i) validatorSchema path := by
    intro path
    simp only [reqIndex, gindex, gindexFrom, hstep, Nat.one_mul]
  have hs : ∀ name d j s', step validatorSchema (.field name) = some (d, j, s') → ∀ root ps,
      gindexFrom root validatorSchema (.field name :: ps) = gindexFrom (root * 2 ^ d + j) s' ps := by
    intro name d j s' h root ps
    simp only [gindexFrom, h]
  have hb : ∀ j d k, step (.bytes 48) (.index j) = some (d, k, .opaque) → ∀ root,
      gindexFrom root (.bytes 48) [.index j] = some (root * 2 ^ d + k) := by
    intro j d k h root
    simp only [gindexFrom, h]
  simp only [hfrom]
  refine ⟨?_, ?_, ?_, ?_, ?_, ?_, ?_⟩
  · rw [hs "public_key" 3 0 (.bytes 48) rfl, hb 0 1 0 rfl]; congr 1; unfold validatorPath; omega
  · rw [hs "public_key" 3 0 (.bytes 48) rfl, hb 47 1 1 rfl]; congr 1; unfold validatorPath; omega
  · rw [hs "effective_balance" 3 2 .opaque rfl, gindexFrom]; rfl
  · rw [hs "slashed" 3 3 .opaque rfl, gindexFrom]; rfl
  · rw [hs "activation_eligibility_epoch" 3 4 .opaque rfl, gindexFrom]; rfl
  · rw [hs "activation_epoch" 3 5 .opaque rfl, gindexFrom]; rfl
  · rw [hs "exit_epoch" 3 6 .opaque rfl, gindexFrom]; rfl

theorem validatorRegistrations_ok (e : Nat) (v : Spec.Validator) (i : Nat) (hi : i < 2 ^ 40) :
    (∀ r ∈ validatorRegistrations e v i, ∃ s q g, r = .path s q ∧ reqIndex s q = some g) ∧
    (validatorRegistrations e v i).flatMap indexOf = validatorRequest e v i := by
  obtain ⟨h0, h1, h2, h3, h4, h5, h6⟩ := registry_index i hi
  unfold validatorRegistrations validatorRequest
  split
  · constructor
    · intro r hr
      simp only [List.mem_cons, List.not_mem_nil, or_false] at hr
      subst hr
      exact ⟨_, _, _, rfl, h6⟩
    · simp only [List.flatMap_cons, List.flatMap_nil, indexOf, h6]; rfl
  · constructor
    · intro r hr
      simp only [List.mem_cons, List.not_mem_nil, or_false] at hr
      rcases hr with rfl | rfl | rfl | rfl | rfl | rfl | rfl
      exacts [⟨_, _, _, rfl, h0⟩, ⟨_, _, _, rfl, h1⟩, ⟨_, _, _, rfl, h2⟩, ⟨_, _, _, rfl, h3⟩, ⟨_, _, _, rfl, h4⟩, ⟨_, _, _, rfl, h5⟩,
        ⟨_, _, _, rfl, h6⟩]
    · simp only [List.flatMap_cons, List.flatMap_nil, indexOf, h0, h1, h2, h3, h4, h5, h6]; rfl

theorem registry_registered {ε : Type} (e : Nat) (vs : List Spec.Validator) (hlen : vs.length ≤ 2 ^ 40) :
    (ProofBuilder.register (registryRegistrations e vs) .new : Res ε ProofBuilder) = .ok ⟨registryRequest e vs⟩ := by
  have hi : ∀ x ∈ vs.zipIdx, x.2 < 2 ^ 40 := by
    intro x hx
    have := (List.mem_zipIdx hx).2.1
    omega
  have hlen : reqIndex registrySchema (.lengthOf []) = some 3 := rfl
  have hall : ∀ r ∈ registryRegistrations e vs, ∃ s q g, r = .path s q ∧ reqIndex s q = some g := by
    intro r hr
    rcases List.mem_cons.1 hr with rfl | hr
    · exact ⟨_, _, _, rfl, hlen⟩
    · obtain ⟨x, hx, hr⟩ := List.mem_flatMap.1 hr
      exact (validatorRegistrations_ok e x.1 x.2 (hi x hx)).1 r hr
  have hflat : ∀ l : List (Spec.Validator × Nat), (∀ x ∈ l, x.2 < 2 ^ 40) →
      (l.flatMap (fun (v, i) => validatorRegistrations e v i)).flatMap indexOf = l.flatMap (fun (v, i) => validatorRequest e v i) := by
    intro l hl
    induction l with
    | nil => rfl
    | cons x l ih =>
      simp only [List.flatMap_cons, List.flatMap_append]
      rw [ih (fun y hy => hl y (List.mem_cons_of_mem _ hy)), (validatorRegistrations_ok e x.1 x.2 (hl x List.mem_cons_self)).2]
  rw [register_paths _ hall]
  unfold registryRegistrations registryRequest
  rw [List.flatMap_cons, hflat _ hi]
  rfl

theorem state_registered {ε : Type} (s : Spec.BeaconState) :
    (ProofBuilder.register (stateRegistrations (schemaOf s)) .new : Res ε ProofBuilder) = .ok ⟨[65, 66, 75, 95, 97, 168, 268, 269, 270]⟩ := by
  unfold schemaOf
  cases s.fulu
  · rfl
  · rfl

/-- **C95.** The paths that the host registers for a header, for a state of Electra or Fulu and for a registry within its limit are all paths of the types,
and what is registered are exactly the indices that the guest reads: the state root and the slot of a header, the nine parts of a state, the number of
validators and for each validator its exit epoch, or all seven parts while it has not exited. -/
theorem C95_host {ε : Type} (s : Spec.BeaconState) (epoch : Nat) (vs : List Spec.Validator) (hlen : vs.length ≤ 2 ^ 40) :
    (ProofBuilder.register blockRegistrations .new : Res ε ProofBuilder) = .ok ⟨[stateRootGindex]⟩ ∧
    (ProofBuilder.register slotRegistrations .new : Res ε ProofBuilder) = .ok ⟨[blockSlotGindex]⟩ ∧
    (∃ b, (ProofBuilder.register (stateRegistrations (schemaOf s)) .new : Res ε ProofBuilder) = .ok b ∧
      ∀ g, g ∈ b.gindices ↔ g ∈ statePaths.map Prod.snd) ∧
    ∃ b, (ProofBuilder.register (registryRegistrations epoch vs) .new : Res ε ProofBuilder) = .ok b ∧
      ∀ g, g ∈ b.gindices ↔ g = 3 ∨ ∃ i v, vs[i]? = some v ∧
        (g = exitEpochGindex i ∨ epoch < v.exitEpoch ∧ g ∈ validatorPaths.map (fun x => x.2 i)) := by
  refine ⟨rfl, rfl, ⟨_, state_registered s, ?_⟩, _, registry_registered epoch vs hlen, ?_⟩
  · intro g
    simp only [statePaths, List.map_cons, List.map_nil, List.mem_cons, List.not_mem_nil, or_false, slotGindex, finalizedCheckpointEpochGindex,
      genesisValidatorsRootGindex, forkPreviousVersionGindex, forkCurrentVersionGindex, forkEpochGindex, validatorsGindex,
      earliestExitEpochGindex, earliestConsolidationEpochGindex]
    omega
  intro g
  have one : ∀ i v, i < 2 ^ 40 → (g ∈ validatorRequest epoch v i ↔ g = exitEpochGindex i ∨ epoch < v.exitEpoch ∧ g ∈ validatorPaths.map (fun x => x.2 i)) := by
    intro i v hi
    have hall := (C50_no_overflow i hi).1
    simp only [validatorGindices, List.cons.injEq, and_true] at hall
    obtain ⟨g0, g1, g2, g3, g4, g5, g6⟩ := hall
    simp only [validatorPaths, List.map_cons, List.map_nil, List.mem_cons, List.not_mem_nil, or_false, g0, g1, g2, g3, g4, g5, g6]
    unfold validatorRequest validatorPath
    split <;> simp only [List.mem_cons, List.not_mem_nil, or_false] <;> omega
  simp only [registryRequest, OSet.mem_extend, List.not_mem_nil, false_or, List.mem_cons, List.mem_flatMap]
  constructor
  · rintro (rfl | ⟨⟨v, i⟩, hx, hg⟩)
    · exact .inl rfl
    · have hv : vs[i]? = some v := by simpa using List.mem_zipIdx_iff_getElem?.1 hx
      have hi := (List.getElem?_eq_some_iff.1 hv).1
      exact .inr ⟨i, v, hv, (one i v (by omega)).1 hg⟩
  · rintro (rfl | ⟨i, v, hv, hg⟩)
    · exact .inl rfl
    · have hi := (List.getElem?_eq_some_iff.1 hv).1
      exact .inr ⟨(v, i), by simpa using List.mem_zipIdx_iff_getElem?.2 hv, (one i v (by omega)).2 hg⟩

/-- **C95.** `to_input` written with the registered paths is `to_input` written with the indices. -/
theorem C95_to_input (X : Ext) (order : List Nat → List Nat) (r : HostReader) (trusted : Checkpoint) (log : PreflightLog)
    (hlen : ∀ st, stateAtCheckpoint X (hostStateOps X) r.spec.slotsPerEpoch r.provider trusted = .ok st → st.beacon.validators.length ≤ 2 ^ 40) :
    toInputByPath X order r trusted log = toInput X order r trusted log := by
  have hblock : ∀ T, proofFor X order blockRegistrations T = (build X order [11] T).mapErr PreflightError.proof := fun T => rfl
  have hslot : slotProofByPath X order r = slotProof X order r := rfl
  have hstate : ∀ (s : Spec.BeaconState) T, proofFor X order (stateRegistrations (schemaOf s)) T =
      (build X order [65, 66, 75, 95, 97, 168, 268, 269, 270] T).mapErr PreflightError.proof := by
    intro s T
    unfold proofFor
    rw [state_registered]
    rfl
  have hreg : ∀ e vs T, vs.length ≤ 2 ^ 40 → proofFor X order (registryRegistrations e vs) T =
      (build X order (registryRequest e vs) T).mapErr PreflightError.proof := by
    intro e vs T h
    unfold proofFor
    rw [registry_registered e vs h]
    rfl
  unfold toInputByPath toInput
  cases hst : stateAtCheckpoint X (hostStateOps X) r.spec.slotsPerEpoch r.provider trusted with
  | err e => rfl
  | panic => rfl
  | ok st =>
    have := hlen st hst
    simp only [hblock, hslot, hstate, hreg _ _ _ this, Res.mapErr, Res.ok_bind]

/-! ## Examples -/

/-- A name that no field has, a byte after the end of a key, the length of something that is no list. -/
example : (ProofBuilder.register [.path headerSchema (.part [.field "slot"]), .path headerSchema (.part [.field "root"])] .new : Res Unit ProofBuilder) = .panic ∧
    (ProofBuilder.register [.path validatorSchema (.part [.field "public_key", .index 48])] .new : Res Unit ProofBuilder) = .panic ∧
    (ProofBuilder.register [.path validatorSchema (.lengthOf [])] .new : Res Unit ProofBuilder) = .panic := ⟨rfl, rfl, rfl⟩

/-- Two bytes of one chunk, the chunk by its index, in different orders: the same proof. -/
example (X : Ext) (order : List Nat → List Nat) (ho : SetOrder order) (T : Tree) :
    (⟨[10, 17]⟩ : ProofBuilder).build X order T = (⟨[10, 17]⟩ : ProofBuilder).build X id T :=
  C95_order (ε := Unit) (rs := [.path validatorSchema (.part [.field "public_key", .index 47]), .path validatorSchema (.part [.field "effective_balance"])])
    (rs' := [.gindices [10, 17, 10], .path validatorSchema (.part [.field "public_key", .index 32])]) rfl rfl
    (by
      intro g
      have h1 : reqIndex validatorSchema (.part [.field "public_key", .index 47]) = some 17 := rfl
      have h2 : reqIndex validatorSchema (.part [.field "effective_balance"]) = some 10 := rfl
      have h3 : reqIndex validatorSchema (.part [.field "public_key", .index 32]) = some 17 := rfl
      simp only [List.mem_cons, List.not_mem_nil, or_false, exists_eq_or_imp, exists_eq_left, Asks, h1, h2, h3, Option.some.injEq]
      omega) X order id ho (fun l => List.Perm.refl l) T

/-- The registrations of the host for every well-formed registry meet the conditions of `C95_served`: the number of validators, and the exit epoch of
each. -/
example (X : Ext) (hcap : 126 ≤ X.stackCapacity) (vs : List Validator) (hw : RegistryWF vs) (epoch : Nat) (order : List Nat → List Nat) (ho : SetOrder order) :
    ∃ p, (⟨registryRequest epoch vs⟩ : ProofBuilder).build X order (registryTree vs) = .ok p ∧ p.verify X ((registryTree vs).root X) = .ok () ∧
      p.get 3 = some (u64Chunk vs.length) ∧ ∀ i v, vs[i]? = some v → p.get (validatorPath i 6) = some (u64Chunk v.exitEpoch) := by
  obtain ⟨-, -, -, -, hgood⟩ := build_registry X vs hw epoch order ho hcap
  obtain ⟨p, h1, h2, h3⟩ := C95_served X hcap (registry_registered (ε := Unit) epoch vs hw.limit) (registryTree vs) (registryTree_chunked hw) hgood order ho
  refine ⟨p, h1, h2, ?_, ?_⟩
  · obtain ⟨g, e, hg⟩ := h3 registrySchema (.lengthOf []) (.leaf (u64Chunk vs.length)) List.mem_cons_self ⟨_, _, _, .here⟩
    cases e
    exact hg
  · intro i v hv
    have hi := (List.getElem?_eq_some_iff.1 hv).1
    have hlim := hw.limit
    obtain ⟨g, e, hg⟩ := h3 registrySchema (.part [.index i, .field "exit_epoch"]) (.leaf (u64Chunk v.exitEpoch))
      (List.mem_cons_of_mem _ (List.mem_flatMap.2 ⟨(v, i), by simpa using List.mem_zipIdx_iff_getElem?.2 hv, by
        show _ ∈ validatorRegistrations epoch v i; unfold validatorRegistrations; split <;> simp⟩)) ⟨.opaque, by
          refine .down (.element (by omega) (depthFor_isDepth (2 ^ 40))) ?_
          simp only [hv]
          exact .down (.field (i := 6) (depthFor_isDepth 8) (by decide) rfl rfl) .here⟩
    rw [(registry_index i (by omega)).2.2.2.2.2.2] at e
    cases e
    exact hg

end Signal
