import Verif.Spec.Gindices
import Verif.Props.Layout

/-!
# C73: the generator of indices

Specification: `Verif/Spec/Gindices.lean`.
-/

namespace Signal
open Spec Gen

theorem depthFor_isDepth (n : Nat) : IsDepth n (depthFor n) := by
  unfold IsDepth depthFor
  split
  · exact ⟨by simpa using ‹n ≤ 1›, fun d' _ => Nat.zero_le _⟩
  · have hne : n - 1 ≠ 0 := by omega
    have h1 : n - 1 < 2 ^ (Nat.log2 (n - 1) + 1) := Nat.lt_log2_self
    refine ⟨by omega, fun d' hd => ?_⟩
    have h2 : 2 ^ Nat.log2 (n - 1) ≤ n - 1 := Nat.log2_self_le hne
    have h3 : 2 ^ Nat.log2 (n - 1) < 2 ^ d' := by omega
    have := (Nat.pow_lt_pow_iff_right (by omega : 1 < 2)).1 h3
    omega

theorem isDepth_unique {n d d' : Nat} (h : IsDepth n d) (h' : IsDepth n d') : d = d' :=
  Nat.le_antisymm (h.2 _ h'.1) (h'.2 _ h.1)

/-- A step goes to the part. -/
theorem step_part {s s' : Schema} {t t' : Tree} {p : PathElem} (h : Part s t p s' t') :
    ∃ d i, step s p = some (d, i, s') ∧ i < 2 ^ d ∧ t.nodeAt (2 ^ d + i) = some t' := by
  cases h with
  | @field fs ts d i name _ _ hd hn hf ht =>
    obtain ⟨hlt, hfi⟩ := List.getElem?_eq_some_iff.1 hf
    have hidx : fs.findIdx? (fun f => f.1 == name) = some i := by
      rw [List.findIdx?_eq_some_iff_getElem]
      refine ⟨hlt, by rw [hfi]; simp, fun j hj => ?_⟩
      have hjl : j < fs.length := by omega
      have := List.pairwise_iff_getElem.1 hn j i (by simpa using hjl) (by simpa using hlt) hj
      simp only [List.getElem_map, hfi] at this
      simpa using this
    have hdd := isDepth_unique hd (depthFor_isDepth _)
    have hi : i < 2 ^ d := Nat.lt_of_lt_of_le hlt hd.1
    refine ⟨d, i, ?_, hi, nodeAt_container d ts i t' hi ht⟩
    simp [step, hidx, hf, hdd]
  | @byte n d j chunks _ hj hd hc =>
    have hdd := isDepth_unique hd (depthFor_isDepth _)
    have hlt : j / 32 < 2 ^ d := by have := hd.1; omega
    refine ⟨d, j / 32, ?_, hlt, nodeAt_container d chunks _ t' hlt hc⟩
    simp [step, hj, hdd]
  | @element limit d j elem f length hj hd =>
    have hdd := isDepth_unique hd (depthFor_isDepth _)
    have hlt : j < 2 ^ d := Nat.lt_of_lt_of_le hj hd.1
    refine ⟨d + 1, j, by simp [step, hj, hdd], by rw [Nat.pow_succ]; omega, ?_⟩
    have := nodeAt_mul' (by omega) (nodeAt_two (perfect d f) length) d j hlt
    rw [nodeAt_perfect d f j hlt] at this
    rw [← this, Nat.pow_succ, Nat.mul_comm]

theorem gindexFrom_reach {s s' : Schema} {t t' : Tree} {path : List PathElem} (h : Reach s t path s' t') :
    ∀ (T : Tree) (root : Nat), 0 < root → T.nodeAt root = some t →
      ∃ g, gindexFrom root s path = some g ∧ 0 < g ∧ T.nodeAt g = some t' := by
  induction h with
  | here => intro T root hr ht; exact ⟨root, rfl, hr, ht⟩
  | down hp _ ih =>
    intro T root hr ht
    obtain ⟨d, i, h1, h2, h3⟩ := step_part hp
    have hpos : 0 < root * 2 ^ d + i := by
      have : 0 < root * 2 ^ d := Nat.mul_pos hr (Nat.two_pow_pos d)
      omega
    obtain ⟨g, h4, h5, h6⟩ := ih T (root * 2 ^ d + i) hpos ((nodeAt_mul' hr ht d i h2).trans h3)
    exact ⟨g, by simp only [gindexFrom, h1, h4], h5, h6⟩

/-- **C73.** For every type, value and path, the index computed for the path addresses the part of the value at its end. -/
theorem C73_path {s s' : Schema} {t t' : Tree} {path : List PathElem} (h : Reach s t path s' t') :
    ∃ g, gindex s path = some g ∧ t.nodeAt g = some t' := by
  obtain ⟨g, h1, -, h2⟩ := gindexFrom_reach h t 1 (by omega) (nodeAt_one t)
  exact ⟨g, h1, h2⟩

/-- **C73.** The number of chunks of a type is what its tree has room for: every part is in one of the chunks, as deep as so many chunks need, and one deeper in
a list, whose length is beside them. -/
theorem C73_chunks {s s' : Schema} {p : PathElem} {d i : Nat} (h : step s p = some (d, i, s')) :
    i < chunkCount s ∧ IsDepth (chunkCount s) (match s with | .list _ _ => d - 1 | _ => d) := by
  cases s with
  | «opaque» => cases p <;> cases h
  | bytes n =>
    cases p with
    | field name => cases h
    | index j =>
      simp only [step] at h
      split at h <;> cases h
      exact ⟨by simp only [chunkCount]; omega, depthFor_isDepth _⟩
  | container fs =>
    cases p with
    | index j => cases h
    | field name =>
      simp only [step] at h
      obtain ⟨j, h1, h2⟩ := Option.bind_eq_some_iff.1 h
      obtain ⟨f, h3, h4⟩ := Option.bind_eq_some_iff.1 h2
      cases h4
      exact ⟨(List.getElem?_eq_some_iff.1 h3).1, depthFor_isDepth _⟩
  | list limit elem =>
    cases p with
    | field name => cases h
    | index j =>
      simp only [step] at h
      split at h <;> cases h
      exact ⟨by assumption, depthFor_isDepth _⟩

example : step (.bytes 48) (.index 40) = some (1, 1, .opaque) := by rfl

/-- **C73.** The body that the generator writes for a validator's field with index `g = 2^k + r` is right, for a container of `2^m`
chunks at any place but the root, exactly if `r < 2^m`: for the fields themselves and for the first `2^m` places of each lower level. -/
theorem C73_template_iff (base i m k r : Nat) (hb : 1 < base + i) (hk : m ≤ k) (hr : r < 2 ^ k) :
    template base (2 ^ m) (2 ^ k + r) i = (base + i) * 2 ^ k + r ↔ r < 2 ^ m := by
  obtain ⟨j, rfl⟩ := Nat.exists_eq_add_of_le hk
  have hm : 0 < 2 ^ m := Nat.two_pow_pos m
  have e : 2 ^ (m + j) = 2 ^ m * 2 ^ j := Nat.pow_add 2 m j
  have hdiv : (2 ^ (m + j) + r) / 2 ^ m = 2 ^ j + r / 2 ^ m := by rw [e, Nat.mul_add_div hm]
  have hmod : (2 ^ (m + j) + r) % 2 ^ m = r % 2 ^ m := by rw [e, Nat.mul_add_mod]
  unfold template
  rw [hdiv, hmod, e]
  generalize base + i = B at hb
  have hr' := Nat.div_add_mod r (2 ^ m)
  generalize hq : r / 2 ^ m = q at hr'
  generalize r % 2 ^ m = w at hr'
  have hq0 : r < 2 ^ m ↔ q = 0 := by rw [← hq, Nat.div_eq_zero_iff]; omega
  rw [hq0]
  have e1 : B * 2 ^ m * (2 ^ j + q) + w = B * (2 ^ m * 2 ^ j) + (B * (2 ^ m * q) + w) := by ring
  rw [e1, ← hr']
  constructor
  · intro h
    have h : B * (2 ^ m * q) = 2 ^ m * q := by omega
    by_contra hne
    have hpos : 0 < 2 ^ m * q := Nat.mul_pos hm (Nat.pos_of_ne_zero hne)
    have : 2 * (2 ^ m * q) ≤ B * (2 ^ m * q) := Nat.mul_le_mul_right _ hb
    omega
  · rintro rfl
    simp

/-- **C73.** The functions in core/src/guest_gindices.rs are those that the generator makes: the constants for states and headers, and for
every validator below the limit the index of the path through the registry. -/
theorem C73_generated :
    (∀ x ∈ statePaths, gindex (stateSchema electraFields) x.1 = some x.2) ∧
    (∀ x ∈ blockPaths, gindex headerSchema x.1 = some x.2) ∧
    ∀ x ∈ validatorPaths, ∀ i, i < 2 ^ 40 → gindex registrySchema (.index i :: x.1) = some (x.2 i) ∧
      ∃ base g, gindex registrySchema [.index 0] = some base ∧ gindex validatorSchema x.1 = some g ∧
        x.2 i = template base (chunkCount validatorSchema) g i := by
  refine ⟨by decide, by decide, ?_⟩
  intro x hx i hi
  have hstep : step registrySchema (.index i) = some (41, i, validatorSchema) := by
    have : depthFor (2 ^ 40) = 40 := by decide
    simp only [registrySchema, step, hi, if_true, this]
  have hfrom : ∀ path, gindex registrySchema (.index i :: path) = gindexFrom (2 ^ 41 + i) validatorSchema path := by
    intro path
    simp only [gindex, gindexFrom, hstep, Nat.one_mul]
  have h0 : gindex registrySchema [.index 0] = some 2199023255552 := by decide
  obtain ⟨-, hlt⟩ := C50_no_overflow i hi
  have hall := (C50_no_overflow i hi).1
  simp only [validatorGindices, List.cons.injEq, and_true] at hall
  obtain ⟨g0, g1, g2, g3, g4, g5, g6⟩ := hall
  have hs : ∀ name d j s', step validatorSchema (.field name) = some (d, j, s') → ∀ root ps,
      gindexFrom root validatorSchema (.field name :: ps) = gindexFrom (root * 2 ^ d + j) s' ps := by
    intro name d j s' h root ps
    simp only [gindexFrom, h]
  have hb : ∀ j d k, step (.bytes 48) (.index j) = some (d, k, .opaque) → ∀ root,
      gindexFrom root (.bytes 48) [.index j] = some (root * 2 ^ d + k) := by
    intro j d k h root
    simp only [gindexFrom, h]
  rw [hfrom, h0]
  simp only [validatorPaths, List.mem_cons, List.not_mem_nil, or_false] at hx
  rcases hx with rfl | rfl | rfl | rfl | rfl | rfl | rfl
  · refine ⟨?_, _, 16, rfl, by decide, ?_⟩
    · rw [hs "public_key" 3 0 (.bytes 48) rfl, hb 0 1 0 rfl]; dsimp only; rw [g0]; congr 1; omega
    · dsimp only; rw [g0]; simp only [template, chunkCount, validatorSchema, List.length_cons, List.length_nil]; omega
  · refine ⟨?_, _, 17, rfl, by decide, ?_⟩
    · rw [hs "public_key" 3 0 (.bytes 48) rfl, hb 47 1 1 rfl]; dsimp only; rw [g1]; congr 1; omega
    · dsimp only; rw [g1]; simp only [template, chunkCount, validatorSchema, List.length_cons, List.length_nil]; omega
  · refine ⟨?_, _, 10, rfl, by decide, ?_⟩
    · rw [hs "effective_balance" 3 2 .opaque rfl, gindexFrom]; dsimp only; rw [g2]; congr 1; omega
    · dsimp only; rw [g2]; simp only [template, chunkCount, validatorSchema, List.length_cons, List.length_nil]; omega
  · refine ⟨?_, _, 12, rfl, by decide, ?_⟩
    · rw [hs "activation_eligibility_epoch" 3 4 .opaque rfl, gindexFrom]; dsimp only; rw [g4]; congr 1; omega
    · dsimp only; rw [g4]; simp only [template, chunkCount, validatorSchema, List.length_cons, List.length_nil]; omega
  · refine ⟨?_, _, 13, rfl, by decide, ?_⟩
    · rw [hs "activation_epoch" 3 5 .opaque rfl, gindexFrom]; dsimp only; rw [g5]; congr 1; omega
    · dsimp only; rw [g5]; simp only [template, chunkCount, validatorSchema, List.length_cons, List.length_nil]; omega
  · refine ⟨?_, _, 14, rfl, by decide, ?_⟩
    · rw [hs "exit_epoch" 3 6 .opaque rfl, gindexFrom]; dsimp only; rw [g6]; congr 1; omega
    · dsimp only; rw [g6]; simp only [template, chunkCount, validatorSchema, List.length_cons, List.length_nil]; omega
  · refine ⟨?_, _, 11, rfl, by decide, ?_⟩
    · rw [hs "slashed" 3 3 .opaque rfl, gindexFrom]; dsimp only; rw [g3]; congr 1; omega
    · dsimp only; rw [g3]; simp only [template, chunkCount, validatorSchema, List.length_cons, List.length_nil]; omega

/-- **C73.** Fields added at the end of a container leave every index as it is as long as the padded number of fields stays the same; this
is why the indices generated for Electra hold for Fulu. -/
theorem C73_added_fields (fs more : List (String × Schema)) (hd : depthFor (fs ++ more).length = depthFor fs.length)
    (path : List PathElem) (g : Nat) (h : gindex (.container fs) path = some g) : gindex (.container (fs ++ more)) path = some g := by
  cases path with
  | nil => exact h
  | cons p ps =>
    unfold gindex at h ⊢
    unfold gindexFrom at h ⊢
    have key : ∀ x, step (.container fs) p = some x → step (.container (fs ++ more)) p = some x := by
      intro x hx
      cases p with
      | index j => cases hx
      | field name =>
        simp only [step, hd, Option.bind_eq_bind, Option.bind_eq_some_iff, Option.pure_def] at hx ⊢
        obtain ⟨i, h1, f, h2, h3⟩ := hx
        have hlt := (List.getElem?_eq_some_iff.1 h2).1
        exact ⟨i, by rw [List.findIdx?_append, h1]; rfl, f, by rw [List.getElem?_append_left hlt]; exact h2, h3⟩
    cases hs : step (.container fs) p with
    | none => rw [hs] at h; cases h
    | some x => rw [hs] at h; rw [key x hs]; exact h

/-! ## Examples -/

/-- The condition of `C73_template_iff` is needed: the first chunk below the fifth field would get a wrong index. -/
example : template 2199023255552 8 24 5 ≠ (2199023255552 + 5) * 16 + 8 := by decide

/-- So would a field of a container whose number of fields is no power of two: the slot of a header, of five fields, has index 8. -/
example : template 2 5 8 0 ≠ 2 * 8 := by decide

example : ∀ x ∈ statePaths, gindex (stateSchema fuluFields) x.1 = some x.2 := by
  intro x hx
  have h := C73_generated.1 x hx
  have e : stateSchema fuluFields = .container (electraFields.map (fun n => (n, stateFieldSchema n)) ++
      [("proposer_lookahead", stateFieldSchema "proposer_lookahead")]) := by
    unfold stateSchema fuluFields; rw [List.map_append]; rfl
  rw [e]
  exact C73_added_fields _ _ (by decide) _ _ h

/-- A header and its state root are a value and a part in the sense of `Reach`. -/
example (h : Header) : Reach headerSchema h.tree [.field "state_root"] .opaque (.leaf h.stateRoot) :=
  .down (.field (i := 3) (depthFor_isDepth 5) (by decide) rfl rfl) .here

/-- The last byte of the key of validator 5 of any registry that has one, three types deep. -/
example (vs : List Validator) (v : Validator) (h : vs[5]? = some v) :
    Reach registrySchema (registryTree vs) [.index 5, .field "public_key", .index 47] .opaque
      (.leaf (v.pubkey.drop 32 ++ List.replicate 16 0)) := by
  refine .down (.element (by decide) (depthFor_isDepth (2 ^ 40))) ?_
  simp only [h]
  exact .down (.field (i := 0) (depthFor_isDepth 8) (by decide) rfl rfl)
    (.down (.byte (n := 48) (d := 1) (chunks := [.leaf (v.pubkey.take 32), .leaf (v.pubkey.drop 32 ++ List.replicate 16 0)])
      (by decide) (depthFor_isDepth 2) rfl) .here)

end Signal
