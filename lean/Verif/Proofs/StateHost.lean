import Verif.Model.StateTree
import Verif.Proofs.StateTree
import Verif.Props.StateSsz

/-!
# Lemmas on what the host reads of a stored state
-/

namespace Signal.StateSsz
open Signal.Spec Gen

set_option maxRecDepth 100000

/-! ## Trees of small values -/

theorem chunk_zero {b : Bytes} {n : Nat} (h : b.length = n) (hn : n ≤ 32) : chunk b 0 = b ++ List.replicate (32 - n) 0 := by
  simp only [chunk, Nat.mul_zero, List.drop_zero]
  rw [List.take_of_length_le (by omega), h]

theorem tree_small {b : Bytes} {n : Nat} (h : b.length = n) (h0 : 0 < n) (hn : n ≤ 32) : valTree (.bytes n) (.bytes b) = .leaf (b ++ List.replicate (32 - n) 0) := by
  have e : (n + 31) / 32 = 1 := by omega
  simp only [valTree, chunksTree, e, show depthFor 1 = 0 by decide, perfect]
  rw [chunk_zero h hn]

theorem tree_root {b : Bytes} (h : b.length = 32) : valTree b32 (.bytes b) = .leaf b := by
  rw [tree_small h (by decide) (by decide)]; simp

theorem tree_u64 {b : Bytes} (h : b.length = 8) : valTree u64 (.bytes b) = .leaf (u64Chunk (ofLE b)) := by
  rw [tree_small h (by decide) (by decide), u64Chunk]
  have := leBytes_ofLE b
  rw [h] at this
  rw [this]

theorem tree_version {b : Bytes} (h : b.length = 4) : valTree (.bytes 4) (.bytes b) = .leaf (versionChunk b) := by
  rw [tree_small h (by decide) (by decide), versionChunk]

theorem tree_pubkey {b : Bytes} (h : b.length = 48) : valTree (.bytes 48) (.bytes b) = Validator.pubkeyTree b := by
  simp only [valTree, chunksTree, show depthFor ((48 + 31) / 32) = 1 by decide, perfect, Validator.pubkeyTree]
  have e0 : chunk b 0 = b.take 32 := by simp [chunk, h]
  have e1 : chunk b (2 ^ 0 + 0) = b.drop 32 ++ List.replicate 16 0 := by
    simp only [chunk, Nat.pow_zero, Nat.add_zero, Nat.mul_one, List.length_drop, h]
    rw [List.take_of_length_le (by simp; omega)]
  rw [e0, e1]

theorem ofLE_lt8 {b : Bytes} (h : b.length = 8) : ofLE b < 2 ^ 64 := by
  have := ofLE_lt b
  rw [h] at this
  exact this

/-! ## Fields of an encodable container -/

theorem fields_cons {t : Typ} {ts : List Typ} {l : List Val} {ps : List (Bool × Bytes)} (h : encodeFields (t :: ts) l = some ps) :
    ∃ v vs b qs, l = v :: vs ∧ encode t v = some b ∧ encodeFields ts vs = some qs := by
  cases l with
  | nil => simp [encodeFields] at h
  | cons v vs =>
    simp only [encodeFields] at h
    obtain ⟨b, h1, h2⟩ := Option.bind_eq_some_iff.1 h
    obtain ⟨qs, h3, _⟩ := Option.bind_eq_some_iff.1 h2
    exact ⟨v, vs, b, qs, rfl, h1, h3⟩

theorem fields_nil {l : List Val} {ps : List (Bool × Bytes)} (h : encodeFields [] l = some ps) : l = [] := by
  cases l with
  | nil => rfl
  | cons v vs => simp [encodeFields] at h

theorem container_fields {ts : List Typ} {v : Val} {b : Bytes} (h : encode (.container ts) v = some b) :
    ∃ l ps, v = .seq l ∧ encodeFields ts l = some ps := by
  cases v with
  | seq l =>
    simp only [encode] at h
    obtain ⟨ps, h1, _⟩ := Option.bind_eq_some_iff.1 h
    exact ⟨l, ps, rfl, h1⟩
  | _ => simp [encode] at h

theorem bool_of_encode {v : Val} {b : Bytes} (h : encode .bool v = some b) : ∃ x, v = .bool x := by
  cases v with
  | bool x => exact ⟨x, rfl⟩
  | _ => simp [encode] at h

theorem tree_bool (x : Bool) : valTree .bool (.bool x) = .leaf (boolChunk x) := rfl

/-- The tree of a validator is that of the specification. -/
theorem tree_validator {v : Val} {b : Bytes} (h : encode validatorTyp v = some b) : valTree validatorTyp v = (validatorOf v).tree ∧ (validatorOf v).WF := by
  obtain ⟨l, ps, rfl, hc⟩ := container_fields h
  clear h
  obtain ⟨v0, l, b0, _, rfl, h0, h⟩ := fields_cons hc
  clear hc
  obtain ⟨v1, l, b1, _, rfl, h1, h⟩ := fields_cons h
  obtain ⟨v2, l, b2, _, rfl, h2, h⟩ := fields_cons h
  obtain ⟨v3, l, b3, _, rfl, h3, h⟩ := fields_cons h
  obtain ⟨v4, l, b4, _, rfl, h4, h⟩ := fields_cons h
  obtain ⟨v5, l, b5, _, rfl, h5, h⟩ := fields_cons h
  obtain ⟨v6, l, b6, _, rfl, h6, h⟩ := fields_cons h
  obtain ⟨v7, l, b7, _, rfl, h7, h⟩ := fields_cons h
  cases fields_nil h
  obtain ⟨rfl, l0⟩ := bytes_of_encode h0
  obtain ⟨rfl, l1⟩ := bytes_of_encode h1
  obtain ⟨rfl, l2⟩ := bytes_of_encode h2
  obtain ⟨x, rfl⟩ := bool_of_encode h3
  obtain ⟨rfl, l4⟩ := bytes_of_encode h4
  obtain ⟨rfl, l5⟩ := bytes_of_encode h5
  obtain ⟨rfl, l6⟩ := bytes_of_encode h6
  obtain ⟨rfl, l7⟩ := bytes_of_encode h7
  constructor
  · simp only [validatorTyp]
    rw [valTree]
    simp only [fieldTrees]
    rw [tree_pubkey l0, tree_root l1, tree_u64 l2, tree_bool, tree_u64 l4, tree_u64 l5, tree_u64 l6, tree_u64 l7]
    rfl
  · exact ⟨l0, l1, ofLE_lt8 l2, ofLE_lt8 l4, ofLE_lt8 l5, ofLE_lt8 l6⟩

theorem list_of_encode {limit : Nat} {t : Typ} {v : Val} {b : Bytes} (h : encode (.list limit t) v = some b) :
    ∃ l, v = .seq l ∧ l.length ≤ limit ∧ ∀ x ∈ l, ∃ c, encode t x = some c := by
  cases v with
  | seq l =>
    simp only [encode] at h
    split at h
    · obtain ⟨bs, h1, _⟩ := Option.bind_eq_some_iff.1 h
      refine ⟨l, rfl, by assumption, fun x hx => ?_⟩
      have hf := mapM_iff.1 h1
      obtain ⟨i, hi, rfl⟩ := List.mem_iff_getElem.1 hx
      exact ⟨_, hf.get hi (hf.length_eq ▸ hi)⟩
    · cases h
  | _ => simp [encode] at h

/-- The tree of the registry is that of the specification. -/
theorem tree_registry {v : Val} {b : Bytes} (h : encode (.list (2 ^ 40) validatorTyp) v = some b) :
    valTree (.list (2 ^ 40) validatorTyp) v = registryTree ((items (some v)).map validatorOf) ∧ RegistryWF ((items (some v)).map validatorOf) := by
  obtain ⟨l, rfl, hl, hx⟩ := list_of_encode h
  constructor
  · rw [valTree]
    simp only [items, registryTree, List.length_map, seriesTree, basicSize, validatorTyp]
    rw [show depthFor (2 ^ 40) = 40 by decide]
    congr 2
    funext i
    rw [List.getElem?_map]
    cases hi : l[i]? with
    | none => rfl
    | some x =>
      obtain ⟨c, hc⟩ := hx x (List.mem_of_getElem? hi)
      exact (tree_validator hc).1
  · refine ⟨by simpa [items] using hl, ?_⟩
    intro w hw
    obtain ⟨x, hx', rfl⟩ := List.mem_map.1 hw
    obtain ⟨c, hc⟩ := hx x hx'
    exact (tree_validator hc).2

theorem tree_fork {v : Val} {b : Bytes} (h : encode forkTyp v = some b) :
    valTree forkTyp v = container 2 [.leaf (versionChunk (raw (items (some v))[0]?)), .leaf (versionChunk (raw (items (some v))[1]?)),
      .leaf (u64Chunk (num (items (some v))[2]?))] ∧ (raw (items (some v))[0]?).length = 4 ∧ (raw (items (some v))[1]?).length = 4 ∧
      num (items (some v))[2]? < 2 ^ 64 := by
  obtain ⟨l, ps, rfl, hc⟩ := container_fields h
  clear h
  obtain ⟨v0, l, b0, _, rfl, h0, h⟩ := fields_cons hc
  clear hc
  obtain ⟨v1, l, b1, _, rfl, h1, h⟩ := fields_cons h
  obtain ⟨v2, l, b2, _, rfl, h2, h⟩ := fields_cons h
  cases fields_nil h
  obtain ⟨rfl, l0⟩ := bytes_of_encode h0
  obtain ⟨rfl, l1⟩ := bytes_of_encode h1
  obtain ⟨rfl, l2⟩ := bytes_of_encode h2
  refine ⟨?_, l0, l1, ofLE_lt8 l2⟩
  simp only [forkTyp]
  rw [valTree]
  simp only [fieldTrees]
  rw [tree_version l0, tree_version l1, tree_u64 l2]
  rfl

theorem tree_checkpoint {v : Val} {b : Bytes} (h : encode checkpointTyp v = some b) :
    valTree checkpointTyp v = container 1 [.leaf (u64Chunk (num (items (some v))[0]?)), .leaf (raw (items (some v))[1]?)] ∧
      num (items (some v))[0]? < 2 ^ 64 ∧ (raw (items (some v))[1]?).length = 32 := by
  obtain ⟨l, ps, rfl, hc⟩ := container_fields h
  clear h
  obtain ⟨v0, l, b0, _, rfl, h0, h⟩ := fields_cons hc
  clear hc
  obtain ⟨v1, l, b1, _, rfl, h1, h⟩ := fields_cons h
  cases fields_nil h
  obtain ⟨rfl, l0⟩ := bytes_of_encode h0
  obtain ⟨rfl, l1⟩ := bytes_of_encode h1
  refine ⟨?_, ofLE_lt8 l0, l1⟩
  simp only [checkpointTyp]
  rw [valTree]
  simp only [fieldTrees]
  rw [tree_u64 l0, tree_root l1]
  rfl

theorem header_wf {v : Val} {b : Bytes} (h : encode headerTyp v = some b) : num (items (some v))[0]? < 2 ^ 64 ∧ num (items (some v))[1]? < 2 ^ 64 ∧
    (raw (items (some v))[2]?).length = 32 ∧ (raw (items (some v))[3]?).length = 32 ∧ (raw (items (some v))[4]?).length = 32 := by
  obtain ⟨l, ps, rfl, hc⟩ := container_fields h
  clear h
  obtain ⟨v0, l, b0, _, rfl, h0, h⟩ := fields_cons hc
  clear hc
  obtain ⟨v1, l, b1, _, rfl, h1, h⟩ := fields_cons h
  obtain ⟨v2, l, b2, _, rfl, h2, h⟩ := fields_cons h
  obtain ⟨v3, l, b3, _, rfl, h3, h⟩ := fields_cons h
  obtain ⟨v4, l, b4, _, rfl, h4, h⟩ := fields_cons h
  cases fields_nil h
  obtain ⟨rfl, l0⟩ := bytes_of_encode h0
  obtain ⟨rfl, l1⟩ := bytes_of_encode h1
  obtain ⟨rfl, l2⟩ := bytes_of_encode h2
  obtain ⟨rfl, l3⟩ := bytes_of_encode h3
  obtain ⟨rfl, l4⟩ := bytes_of_encode h4
  exact ⟨ofLE_lt8 l0, ofLE_lt8 l1, l2, l3, l4⟩

theorem tree_header {v : Val} {b : Bytes} (h : encode headerTyp v = some b) : valTree headerTyp v = (Header.mk (num (items (some v))[0]?)
    (num (items (some v))[1]?) (raw (items (some v))[2]?) (raw (items (some v))[3]?) (raw (items (some v))[4]?)).tree := by
  obtain ⟨l, ps, rfl, hc⟩ := container_fields h
  clear h
  obtain ⟨v0, l, b0, _, rfl, h0, h⟩ := fields_cons hc
  clear hc
  obtain ⟨v1, l, b1, _, rfl, h1, h⟩ := fields_cons h
  obtain ⟨v2, l, b2, _, rfl, h2, h⟩ := fields_cons h
  obtain ⟨v3, l, b3, _, rfl, h3, h⟩ := fields_cons h
  obtain ⟨v4, l, b4, _, rfl, h4, h⟩ := fields_cons h
  cases fields_nil h
  obtain ⟨rfl, l0⟩ := bytes_of_encode h0
  obtain ⟨rfl, l1⟩ := bytes_of_encode h1
  obtain ⟨rfl, l2⟩ := bytes_of_encode h2
  obtain ⟨rfl, l3⟩ := bytes_of_encode h3
  obtain ⟨rfl, l4⟩ := bytes_of_encode h4
  simp only [headerTyp]
  rw [valTree]
  simp only [fieldTrees]
  rw [tree_u64 l0, tree_u64 l1, tree_root l2, tree_root l3, tree_root l4]
  rfl

theorem vector_of_encode {n : Nat} {t : Typ} {v : Val} {b : Bytes} (h : encode (.vector n t) v = some b) :
    ∃ l, v = .seq l ∧ l.length = n ∧ ∀ x ∈ l, ∃ c, encode t x = some c := by
  cases v with
  | seq l =>
    simp only [encode] at h
    split at h
    · obtain ⟨bs, h1, _⟩ := Option.bind_eq_some_iff.1 h
      refine ⟨l, rfl, by assumption, fun x hx => ?_⟩
      have hf := mapM_iff.1 h1
      obtain ⟨i, hi, rfl⟩ := List.mem_iff_getElem.1 hx
      exact ⟨_, hf.get hi (hf.length_eq ▸ hi)⟩
    · cases h
  | _ => simp [encode] at h

/-- The tree of the mixes is that of the list of them. -/
theorem tree_mixes {v : Val} {b : Bytes} (h : encode (.vector 65536 b32) v = some b) : ((items (some v)).map fun v => raw (some v)).length = 65536 ∧
    valTree (.vector 65536 b32) v = perfect 16 fun i => .leaf ((((items (some v)).map fun v => raw (some v))[i]?).getD zeroRoot) := by
  obtain ⟨l, rfl, hl, hx⟩ := vector_of_encode h
  refine ⟨by simpa [items] using hl, ?_⟩
  rw [valTree]
  simp only [items, seriesTree, show basicSize b32 = none from rfl]
  rw [show depthFor 65536 = 16 by decide]
  congr 1
  funext i
  rw [List.getElem?_map]
  cases hi : l[i]? with
  | none => rfl
  | some x =>
    obtain ⟨c, hc⟩ := hx x (List.mem_of_getElem? hi)
    obtain ⟨rfl, hlen⟩ := bytes_of_encode hc
    simp only [Option.map_some, Option.getD_some, raw]
    exact tree_root hlen

theorem u64_of_encode {v : Val} {b : Bytes} (h : encode u64 v = some b) : valTree u64 v = .leaf (u64Chunk (num (some v))) ∧ num (some v) < 2 ^ 64 := by
  obtain ⟨rfl, hl⟩ := bytes_of_encode h
  exact ⟨tree_u64 hl, ofLE_lt8 hl⟩

theorem root_of_encode {v : Val} {b : Bytes} (h : encode b32 v = some b) : valTree b32 v = .leaf (raw (some v)) ∧ (raw (some v)).length = 32 := by
  obtain ⟨rfl, hl⟩ := bytes_of_encode h
  exact ⟨tree_root hl, hl⟩

/-! ## Fields by name -/

theorem names_nodup (f : Variant) : (f.fields.map Prod.fst).Nodup := by
  cases f <;> decide +kernel

theorem findIdx_of_nodup : ∀ {l : List (String × Typ)}, (l.map Prod.fst).Nodup → ∀ {i : Nat} {name : String} {t : Typ}, l[i]? = some (name, t) →
    l.findIdx? (·.1 == name) = some i ∧ l.find? (·.1 == name) = some (name, t) := by
  intro l
  induction l with
  | nil => intro _ i name t h; simp at h
  | cons x l ih =>
    intro hn i name t h
    simp only [List.map_cons, List.nodup_cons] at hn
    cases i with
    | zero =>
      simp only [List.getElem?_cons_zero, Option.some.injEq] at h
      subst h
      simp [List.findIdx?_cons]
    | succ i =>
      simp only [List.getElem?_cons_succ] at h
      obtain ⟨h1, h2⟩ := ih hn.2 h
      have hne : (x.1 == name) = false := by
        simp only [beq_eq_false_iff_ne, ne_eq]
        intro e
        exact hn.1 (List.mem_map.2 ⟨(name, t), List.mem_of_getElem? h, e.symm⟩)
      simp only [List.findIdx?_cons, List.find?_cons, hne, h1, h2]
      exact ⟨rfl, trivial⟩

/-- The value of a field, and that it has the type of the field. -/
theorem field_at {s : State} {b : Bytes} (h : encodeState s = some b) {i : Nat} {name : String} {t : Typ} (hi : s.variant.fields[i]? = some (name, t)) :
    ∃ l v x, s.value = .seq l ∧ l[i]? = some v ∧ s.field name = some v ∧ encode t v = some x ∧ s.fieldTree name = valTree t v := by
  obtain ⟨f, v⟩ := s
  unfold encodeState Variant.typ at h
  obtain ⟨l, ps, rfl, hf⟩ := container_fields h
  dsimp only at hi
  obtain ⟨h1, h2⟩ := findIdx_of_nodup (names_nodup f) hi
  obtain ⟨w, x, hw, hx⟩ := encodeFields_get hf (i := i) (t := t) (by rw [List.getElem?_map, hi]; rfl)
  have hfield : (State.mk f (.seq l)).field name = some w := by
    simp only [State.field, h1, Option.bind_eq_bind, Option.bind_some, hw]
  refine ⟨l, w, x, rfl, hw, hfield, hx, ?_⟩
  simp only [State.fieldTree, h2, hfield]

/-- A state since Electra. -/
def Recent (s : State) : Prop := s.variant = .electra ∨ s.variant = .fulu

theorem recent_field {s : State} (hs : Recent s) {i : Nat} {name : String} {t : Typ} (hi : electraFields[i]? = some (name, t)) :
    s.variant.fields[i]? = some (name, t) := by
  rcases hs with e | e <;> rw [e]
  · exact hi
  · simp only [Variant.fields]
    rw [List.getElem?_append_left (List.getElem?_eq_some_iff.1 hi).1]
    exact hi

/-- The tree of a field that the host's view has. -/
theorem host_field {s : State} {b : Bytes} (h : encodeState s = some b) (hs : Recent s) (name : String) :
    s.host.beacon.field name = s.fieldTree name := by
  have get := fun {i : Nat} {name : String} {t : Typ} (hi : electraFields[i]? = some (name, t)) => field_at h (recent_field hs hi)
  unfold BeaconState.field
  split
  · rename_i e; subst e
    obtain ⟨_, v, x, _, _, h1, h2, h3⟩ := get (i := 1) (name := "genesis_validators_root") (t := b32) rfl
    simp only [State.host, h1]; rw [h3, (root_of_encode h2).1]
  split
  · rename_i e; subst e
    obtain ⟨_, v, x, _, _, h1, h2, h3⟩ := get (i := 2) (name := "slot") (t := u64) rfl
    simp only [State.host, h1]; rw [h3, (u64_of_encode h2).1]
  split
  · rename_i e; subst e
    obtain ⟨_, v, x, _, _, h1, h2, h3⟩ := get (i := 3) (name := "fork") (t := forkTyp) rfl
    simp only [State.host, h1]; rw [h3, (tree_fork h2).1]
  split
  · rename_i e; subst e
    obtain ⟨_, v, x, _, _, h1, h2, h3⟩ := get (i := 11) (name := "validators") (t := .list (2 ^ 40) validatorTyp) rfl
    simp only [State.host, h1]; rw [h3, (tree_registry h2).1]
  split
  · rename_i e; subst e
    obtain ⟨_, v, x, _, _, h1, h2, h3⟩ := get (i := 20) (name := "finalized_checkpoint") (t := checkpointTyp) rfl
    simp only [State.host, h1]; rw [h3, (tree_checkpoint h2).1]
  split
  · rename_i e; subst e
    obtain ⟨_, v, x, _, _, h1, h2, h3⟩ := get (i := 31) (name := "earliest_exit_epoch") (t := u64) rfl
    simp only [State.host, h1]; rw [h3, (u64_of_encode h2).1]
  split
  · rename_i e; subst e
    obtain ⟨_, v, x, _, _, h1, h2, h3⟩ := get (i := 33) (name := "earliest_consolidation_epoch") (t := u64) rfl
    simp only [State.host, h1]; rw [h3, (u64_of_encode h2).1]
  · rfl

theorem fieldTrees_get : ∀ {ts : List Typ} {vs : List Val}, vs.length = ts.length → ∀ i : Nat, (fieldTrees ts vs)[i]? = match ts[i]?, vs[i]? with
    | some t, some v => some (valTree t v)
    | _, _ => none := by
  intro ts
  induction ts with
  | nil => intro vs _ i; simp [fieldTrees]
  | cons t ts ih =>
    intro vs h i
    cases vs with
    | nil => simp at h
    | cons v vs =>
      simp only [fieldTrees]
      cases i with
      | zero => simp
      | succ i => simpa using ih (by simpa using h) i

theorem encodeFields_length {ts : List Typ} {vs : List Val} {ps : List (Bool × Bytes)} (h : encodeFields ts vs = some ps) : vs.length = ts.length :=
  (encodeFields_mark h).2.1

/-- The tree of the state is that of the host's view. -/
theorem host_tree {s : State} {b : Bytes} (h : encodeState s = some b) (hs : Recent s) : s.host.beacon.tree = stateTree s := by
  have hnames : (if s.host.beacon.fulu then fuluFields else Spec.electraFields) = s.variant.fields.map Prod.fst := by
    rcases hs with e | e
    · simp only [State.host, e]; exact C92_names.1.symm
    · simp only [State.host, e]; exact C92_names.2.symm
  have hd : depthFor (s.variant.fields.map Prod.snd).length = 6 := by
    rcases hs with e | e <;> rw [e] <;> decide +kernel
  have h' := h
  unfold encodeState Variant.typ at h'
  obtain ⟨l, ps, hv, hf⟩ := container_fields h'
  rw [BeaconState.tree, hnames, stateTree, Variant.typ, hv, valTree, hd]
  congr 1
  apply List.ext_getElem?
  intro i
  rw [fieldTrees_get (encodeFields_length hf)]
  simp only [List.getElem?_map]
  cases hi : s.variant.fields[i]? with
  | none => rfl
  | some p =>
    obtain ⟨name, t⟩ := p
    obtain ⟨l', v, x, h1, h2, h3, h4, h5⟩ := field_at h hi
    rw [hv] at h1
    cases h1
    simp only [Option.map_some, h2]
    rw [host_field h hs, h5]

theorem host_wf {s : State} {b : Bytes} (h : encodeState s = some b) (hs : Recent s) : s.host.beacon.WF ∧ s.host.latestBlockHeader.WF := by
  have get := fun {i : Nat} {name : String} {t : Typ} (hi : electraFields[i]? = some (name, t)) => field_at h (recent_field hs hi)
  obtain ⟨_, _, _, _, _, a1, a2, _⟩ := get (i := 1) (name := "genesis_validators_root") (t := b32) rfl
  obtain ⟨_, _, _, _, _, b1, b2, _⟩ := get (i := 2) (name := "slot") (t := u64) rfl
  obtain ⟨_, _, _, _, _, c1, c2, _⟩ := get (i := 3) (name := "fork") (t := forkTyp) rfl
  obtain ⟨_, _, _, _, _, d1, d2, _⟩ := get (i := 11) (name := "validators") (t := .list (2 ^ 40) validatorTyp) rfl
  obtain ⟨_, _, _, _, _, e1, e2, _⟩ := get (i := 20) (name := "finalized_checkpoint") (t := checkpointTyp) rfl
  obtain ⟨_, _, _, _, _, f1, f2, _⟩ := get (i := 31) (name := "earliest_exit_epoch") (t := u64) rfl
  obtain ⟨_, _, _, _, _, g1, g2, _⟩ := get (i := 33) (name := "earliest_consolidation_epoch") (t := u64) rfl
  obtain ⟨_, _, _, _, _, i1, i2, _⟩ := get (i := 4) (name := "latest_block_header") (t := headerTyp) rfl
  constructor
  · constructor
    · simp only [State.host, a1]; exact (root_of_encode a2).2
    · simp only [State.host, b1]; exact (u64_of_encode b2).2
    · simp only [State.host, c1]; exact (tree_fork c2).2.1
    · simp only [State.host, c1]; exact (tree_fork c2).2.2.1
    · simp only [State.host, c1]; exact (tree_fork c2).2.2.2
    · simp only [State.host, d1]; exact (tree_registry d2).2
    · simp only [State.host, e1]; exact (tree_checkpoint e2).2.1
    · simp only [State.host, e1]; exact (tree_checkpoint e2).2.2
    · simp only [State.host, f1]; exact (u64_of_encode f2).2
    · simp only [State.host, g1]; exact (u64_of_encode g2).2
    · intro name
      simp only [State.host, State.fieldTree]
      split
      · exact valTree_chunked _ _
      · simp [Tree.Chunked, zeroRoot]
  · have := header_wf i2
    constructor
    · simp only [State.host, i1]; exact this.1
    · simp only [State.host, i1]; exact this.2.2.1
    · simp only [State.host, i1]; exact this.2.2.2.1
    · simp only [State.host, i1]; exact this.2.2.2.2

/-! ## The limits -/

theorem allLimited_append : ∀ (a b : List Typ), Typ.AllLimited (a ++ b) ↔ Typ.AllLimited a ∧ Typ.AllLimited b
  | [], b => by simp [Typ.AllLimited]
  | t :: a, b => by simp [Typ.AllLimited, allLimited_append a b, and_assoc]

theorem payload_limited : Typ.AllLimited payloadFields := by
  simp [payloadFields, Typ.AllLimited, Typ.Limited]

theorem altair_limited : Typ.AllLimited (altairFields.map Prod.snd) := by
  simp [altairFields, commonFields, finalityFields, Typ.AllLimited, Typ.Limited, forkTyp, headerTyp, eth1Typ, validatorTyp, checkpointTyp,
    syncCommitteeTyp]

theorem capella_limited {header : Typ} (h : Typ.Limited header) : Typ.AllLimited ((capellaFields header).map Prod.snd) := by
  rw [capellaFields, List.map_append, allLimited_append]
  exact ⟨altair_limited, by simp [Typ.AllLimited, Typ.Limited, summaryTyp, h]⟩

theorem deneb_header_limited : Typ.Limited denebHeaderTyp := by
  rw [denebHeaderTyp, Typ.Limited, allLimited_append]
  exact ⟨payload_limited, by simp [Typ.AllLimited, Typ.Limited]⟩

theorem electra_limited : Typ.AllLimited (electraFields.map Prod.snd) := by
  rw [electraFields, List.map_append, allLimited_append]
  exact ⟨capella_limited deneb_header_limited, by simp [Typ.AllLimited, Typ.Limited, depositTyp, withdrawalTyp, consolidationTyp]⟩

theorem variant_limited (f : Variant) : Typ.Limited f.typ := by
  cases f with
  | phase0 =>
    simp [Variant.typ, Variant.fields, commonFields, finalityFields, Typ.AllLimited, Typ.Limited, forkTyp, headerTyp, eth1Typ, validatorTyp,
      checkpointTyp, pendingAttestationTyp, attestationDataTyp]
  | altair => exact altair_limited
  | bellatrix =>
    rw [Variant.typ, Variant.fields, Typ.Limited, List.map_append, allLimited_append]
    exact ⟨altair_limited, payload_limited, trivial⟩
  | capella =>
    refine capella_limited (header := capellaHeaderTyp) ?_
    rw [capellaHeaderTyp, Typ.Limited, allLimited_append]
    exact ⟨payload_limited, by simp [Typ.AllLimited, Typ.Limited]⟩
  | deneb => exact capella_limited deneb_header_limited
  | electra => exact electra_limited
  | fulu =>
    rw [Variant.typ, Variant.fields, Typ.Limited, List.map_append, allLimited_append]
    exact ⟨electra_limited, by simp [Typ.AllLimited, Typ.Limited]⟩

end Signal.StateSsz
