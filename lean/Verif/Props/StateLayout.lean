import Verif.Proofs.StateHost
import Verif.Spec.StateLayout
import Mathlib.Tactic.Ring

/-!
# C98: what the host takes from the file of a state
-/

namespace Signal
open Spec StateSsz

set_option maxRecDepth 100000

/-! ## Places -/

theorem bytesAt_left {a c : Bytes} {p n : Nat} (h : p + n ≤ a.length) : bytesAt (a ++ c) p n = bytesAt a p n := by
  unfold bytesAt
  rw [List.drop_append_of_le_length (by omega), List.take_append_of_le_length (by simp; omega)]

theorem bytesAt_right {a c : Bytes} {p n : Nat} : bytesAt (a ++ c) (a.length + p) n = bytesAt c p n := by
  unfold bytesAt
  rw [List.drop_append, List.drop_eq_nil_of_le (by omega), Nat.add_sub_cancel_left]
  rfl

theorem bytesAt_inner {b : Bytes} {p n q m : Nat} (h : q + m ≤ n) : bytesAt (bytesAt b p n) q m = bytesAt b (p + q) m := by
  unfold bytesAt
  rw [List.drop_take, List.take_take, List.drop_drop, Nat.min_eq_left (by omega)]

theorem bytesAt_front {x c : Bytes} : bytesAt (x ++ c) 0 x.length = x := by simp [bytesAt]

theorem heads_fixed {x : Bytes} : ∀ {ps : List (Bool × Bytes)} {off i : Nat}, ps[i]? = some (true, x) →
    bytesAt (heads off ps) (headLength (ps.take i)) x.length = x := by
  intro ps
  induction ps with
  | nil => intro off i h; simp at h
  | cons p ps ih =>
    intro off i h
    obtain ⟨f, b⟩ := p
    cases i with
    | zero => simp at h; obtain ⟨rfl, rfl⟩ := h; exact bytesAt_front
    | succ i =>
      simp only [List.getElem?_cons_succ] at h
      cases f
      · simp only [heads, List.take_succ_cons, headLength]
        have := @bytesAt_right (leBytes 4 off) (heads (off + b.length) ps) (headLength (ps.take i)) x.length
        rw [leBytes_length] at this
        rw [this]
        exact ih h
      · simp only [heads, List.take_succ_cons, headLength]
        rw [bytesAt_right]
        exact ih h

theorem heads_variable {x : Bytes} : ∀ {ps : List (Bool × Bytes)} {off i : Nat}, ps[i]? = some (false, x) →
    bytesAt (heads off ps) (headLength (ps.take i)) 4 = leBytes 4 (off + (tails (ps.take i)).length) := by
  intro ps
  induction ps with
  | nil => intro off i h; simp at h
  | cons p ps ih =>
    intro off i h
    obtain ⟨f, b⟩ := p
    cases i with
    | zero =>
      simp at h; obtain ⟨rfl, rfl⟩ := h
      have := @bytesAt_front (leBytes 4 off) (heads (off + b.length) ps)
      rw [leBytes_length] at this
      exact this
    | succ i =>
      simp only [List.getElem?_cons_succ] at h
      cases f
      · simp only [heads, List.take_succ_cons, headLength, tails, List.length_append]
        have := @bytesAt_right (leBytes 4 off) (heads (off + b.length) ps) (headLength (ps.take i)) 4
        rw [leBytes_length] at this
        rw [this, ih h, Nat.add_assoc]
      · simp only [heads, List.take_succ_cons, headLength, tails]
        rw [bytesAt_right]
        exact ih h

theorem tails_variable {x : Bytes} : ∀ {ps : List (Bool × Bytes)} {i : Nat}, ps[i]? = some (false, x) →
    bytesAt (tails ps) (tails (ps.take i)).length x.length = x := by
  intro ps
  induction ps with
  | nil => intro i h; simp at h
  | cons p ps ih =>
    intro i h
    obtain ⟨f, b⟩ := p
    cases i with
    | zero => simp at h; obtain ⟨rfl, rfl⟩ := h; exact bytesAt_front
    | succ i =>
      simp only [List.getElem?_cons_succ] at h
      cases f
      · simp only [List.take_succ_cons, tails, List.length_append]
        rw [bytesAt_right]
        exact ih h
      · simp only [List.take_succ_cons, tails]
        exact ih h

theorem heads_room {x : Bytes} {f : Bool} : ∀ {ps : List (Bool × Bytes)} {i : Nat}, ps[i]? = some (f, x) →
    headLength (ps.take i) + (if f then x.length else 4) ≤ headLength ps := by
  intro ps
  induction ps with
  | nil => intro i h; simp at h
  | cons p ps ih =>
    intro i h
    obtain ⟨g, b⟩ := p
    cases i with
    | zero => simp at h; obtain ⟨rfl, rfl⟩ := h; cases g <;> simp [headLength]
    | succ i =>
      have := ih (i := i) (by simpa using h)
      cases g <;> simp only [List.take_succ_cons, headLength] <;> omega

theorem encodeFields_part : ∀ {ts : List Typ} {vs : List Val} {ps : List (Bool × Bytes)}, encodeFields ts vs = some ps → ∀ {i : Nat} {t : Typ},
    ts[i]? = some t → ∃ v x, vs[i]? = some v ∧ encode t v = some x ∧ ps[i]? = some (t.size.isSome, x) := by
  intro ts
  induction ts with
  | nil => intro vs ps _ i t h; simp at h
  | cons t ts ih =>
    intro vs ps h i t' ht
    cases vs with
    | nil => simp [encodeFields] at h
    | cons w vs =>
      simp only [encodeFields] at h
      obtain ⟨x, h1, h2⟩ := Option.bind_eq_some_iff.1 h
      obtain ⟨qs, h3, h4⟩ := Option.bind_eq_some_iff.1 h2
      cases h4
      cases i with
      | zero =>
        simp only [List.getElem?_cons_zero, Option.some.injEq] at ht
        subst ht
        exact ⟨w, x, rfl, h1, rfl⟩
      | succ i => exact ih h3 (by simpa using ht)

theorem encodeFields_take : ∀ {ts : List Typ} {vs : List Val} {ps : List (Bool × Bytes)}, encodeFields ts vs = some ps → ∀ i : Nat,
    encodeFields (ts.take i) (vs.take i) = some (ps.take i) := by
  intro ts
  induction ts with
  | nil =>
    intro vs ps h i
    cases vs with
    | nil => simp only [encodeFields] at h; cases h; simp [encodeFields]
    | cons w vs => simp [encodeFields] at h
  | cons t ts ih =>
    intro vs ps h i
    cases vs with
    | nil => simp [encodeFields] at h
    | cons w vs =>
      simp only [encodeFields] at h
      obtain ⟨x, h1, h2⟩ := Option.bind_eq_some_iff.1 h
      obtain ⟨qs, h3, h4⟩ := Option.bind_eq_some_iff.1 h2
      cases h4
      cases i with
      | zero => simp [encodeFields]
      | succ i => simp only [List.take_succ_cons, encodeFields, h1, ih h3 i]; rfl

theorem headLength_parts {ts : List Typ} {vs : List Val} {ps : List (Bool × Bytes)} (h : encodeFields ts vs = some ps) :
    headLength ps = headSize (ts.map Typ.size) := by
  rw [(encodeFields_mark h).1, mark_head (encodeFields_fits ts h)]

/-- The parts of a container with their places. -/
theorem container_at {ts : List Typ} {l : List Val} {b : Bytes} (h : encode (.container ts) (.seq l) = some b) {i : Nat} {t : Typ} (hi : ts[i]? = some t) :
    ∃ v x, l[i]? = some v ∧ encode t v = some x ∧
      (∀ n, t.size = some n → x.length = n ∧ bytesAt b (headSize ((ts.take i).map Typ.size)) n = x) ∧
      (t.size = none → bytesAt b (offsetAt b (headSize ((ts.take i).map Typ.size))) x.length = x ∧
        headSize (ts.map Typ.size) ≤ offsetAt b (headSize ((ts.take i).map Typ.size)) ∧
        ∀ t', ts[i + 1]? = some t' → t'.size = none →
          offsetAt b (headSize ((ts.take (i + 1)).map Typ.size)) = offsetAt b (headSize ((ts.take i).map Typ.size)) + x.length) := by
  simp only [encode] at h
  obtain ⟨ps, h1, h2⟩ := Option.bind_eq_some_iff.1 h
  obtain ⟨hb, hlt⟩ := (assemble_iff _ _).1 h2
  rw [series_eq] at hb
  obtain ⟨v, x, hv, hx, hp⟩ := encodeFields_part h1 hi
  have hh : ∀ j, headLength (ps.take j) = headSize ((ts.take j).map Typ.size) := fun j => headLength_parts (encodeFields_take h1 j)
  have hlen : (heads (headLength ps) ps).length = headLength ps := heads_length _ _
  -- the place that is noted for a part of variable size
  have hoff : ∀ {j : Nat} {y : Bytes}, ps[j]? = some (false, y) →
      offsetAt b (headSize ((ts.take j).map Typ.size)) = headLength ps + (tails (ps.take j)).length ∧ (tails (ps.take j)).length ≤ (tails ps).length := by
    intro j y hj
    have hr := heads_room hj
    have ht : (tails (ps.take j)).length ≤ (tails ps).length := by
      have e : tails ps = tails (ps.take j) ++ tails (ps.drop j) := by
        rw [tails_eq, tails_eq, tails_eq, ← List.flatten_append, ← List.map_append, List.take_append_drop]
      rw [e, List.length_append]
      omega
    have hl : b.length = headLength ps + (tails ps).length := by rw [hb, List.length_append, hlen]
    refine ⟨?_, ht⟩
    unfold offsetAt
    rw [hb, ← hh j, bytesAt_left (by rw [hlen]; simpa using hr), heads_variable hj, ofLE_leBytes]
    apply Nat.mod_eq_of_lt
    have : (256 : Nat) ^ 4 = 2 ^ 32 := by norm_num
    omega
  refine ⟨v, x, hv, hx, ?_, ?_⟩
  · intro n hn
    have hxn := encode_size t hx hn
    rw [hn] at hp
    have hr := heads_room hp
    refine ⟨hxn, ?_⟩
    rw [hb, ← hh i, bytesAt_left (by rw [hlen]; simpa [hxn] using hr), ← hxn]
    exact heads_fixed hp
  · intro hn
    rw [hn] at hp
    obtain ⟨e, _⟩ := hoff hp
    refine ⟨?_, ?_, ?_⟩
    · rw [e]
      rw [hb]
      have := @bytesAt_right (heads (headLength ps) ps) (tails ps) (tails (ps.take i)).length x.length
      rw [hlen] at this
      rw [this]
      exact tails_variable hp
    · rw [e, headLength_parts h1]; omega
    · intro t' ht' hn'
      obtain ⟨v', x', _, _, hp'⟩ := encodeFields_part h1 ht'
      rw [hn'] at hp'
      rw [(hoff hp').1, e, List.take_add_one, hp, tails_eq, tails_eq]
      simp [secondPart, Nat.add_assoc]

/-- The elements of a list or vector with their places. -/
theorem elements_at {t : Typ} {n : Nat} (ht : t.size = some n) {l : List Val} {bs : List Bytes} (h : l.mapM (encode t) = some bs) {b : Bytes}
    (hb : StateSsz.assemble (bs.map (t.size.isSome, ·)) = some b) :
    b.length = n * l.length ∧ ∀ i v, l[i]? = some v → encode t v = some (bytesAt b (n * i) n) := by
  have hf := mapM_iff.1 h
  obtain ⟨rfl, _⟩ := (assemble_iff _ _).1 hb
  simp only [ht, Option.isSome_some]
  rw [series_fixed]
  clear hb h
  induction hf with
  | nil => simp
  | @cons v x l bs hx hf ih =>
    have hxn := encode_size t hx ht
    obtain ⟨ih1, ih2⟩ := ih (by
      have := ‹List.length _ < 2 ^ 32›
      simp only [ht, Option.isSome_some] at this ⊢
      rw [series_fixed] at this ⊢
      simp at this ⊢
      omega)
    refine ⟨by simp only [List.flatten_cons, List.length_append, List.length_cons, hxn, ih1]; ring, fun i w hw => ?_⟩
    cases i with
    | zero =>
      simp only [List.getElem?_cons_zero, Option.some.injEq] at hw
      subst hw
      rw [hx, List.flatten_cons, Nat.mul_zero]
      congr 1
      rw [← hxn]
      exact bytesAt_front.symm
    | succ i =>
      rw [ih2 i w (by simpa using hw), List.flatten_cons]
      congr 1
      have := @bytesAt_right x bs.flatten (n * i) n
      rw [hxn] at this
      rw [← this]
      congr 1
      ring

/-- A field of bytes in a container. -/
theorem inner_bytes {ts : List Typ} {v : Val} {x : Bytes} (h : encode (.container ts) v = some x) (i n q : Nat) (hi : ts[i]? = some (.bytes n))
    (hq : headSize ((ts.take i).map Typ.size) = q) :
    raw (items (some v))[i]? = bytesAt x q n ∧ num (items (some v))[i]? = ofLE (bytesAt x q n) := by
  obtain ⟨l, _, rfl, _⟩ := container_fields h
  obtain ⟨w, y, hw, hy, hf, _⟩ := container_at h hi
  obtain ⟨_, e⟩ := hf n rfl
  obtain ⟨rfl, _⟩ := bytes_of_encode hy
  subst hq
  simp only [items, hw, raw, num, e, and_self]

/-- A truth value in a container. -/
theorem inner_bool {ts : List Typ} {v : Val} {x : Bytes} (h : encode (.container ts) v = some x) (i q : Nat) (hi : ts[i]? = some .bool)
    (hq : headSize ((ts.take i).map Typ.size) = q) : flag (items (some v))[i]? = (bytesAt x q 1 == [1]) := by
  obtain ⟨l, _, rfl, _⟩ := container_fields h
  obtain ⟨w, y, hw, hy, hf, _⟩ := container_at h hi
  obtain ⟨_, e⟩ := hf 1 rfl
  obtain ⟨z, rfl⟩ := bool_of_encode hy
  subst hq
  simp only [encode, Option.some.injEq] at hy
  simp only [items, hw, flag, e, ← hy]
  cases z <;> decide

/-- A validator in its 121 bytes. -/
theorem validator_at {v : Val} {b : Bytes} {p : Nat} (h : encode validatorTyp v = some (bytesAt b p 121)) : validatorOf v = validatorAt b p := by
  have e0 := inner_bytes h 0 48 0 rfl rfl
  have e1 := inner_bytes h 1 32 48 rfl rfl
  have e2 := inner_bytes h 2 8 80 rfl rfl
  have e3 := inner_bool h 3 88 rfl rfl
  have e4 := inner_bytes h 4 8 89 rfl rfl
  have e5 := inner_bytes h 5 8 97 rfl rfl
  have e6 := inner_bytes h 6 8 105 rfl rfl
  have e7 := inner_bytes h 7 8 113 rfl rfl
  rw [bytesAt_inner (by omega)] at e0 e1 e2 e3 e4 e5 e6 e7
  simp only [validatorOf, validatorAt, numAt, e0.1, e1.1, e2.2, e3, e4.2, e5.2, e6.2, e7.2, Nat.add_zero]

/-- Nontrivial: a validator with different values in all fields. -/
example : ∃ x, encode validatorTyp (.seq [.bytes (List.replicate 48 7), .bytes (List.replicate 32 9), .bytes (leBytes 8 32000000000), .bool true,
      .bytes (leBytes 8 5), .bytes (leBytes 8 6), .bytes (leBytes 8 1000), .bytes (leBytes 8 1256)]) = some x ∧ x.length = 121 ∧
    (validatorAt ([1, 2] ++ x ++ [3]) 2).exitEpoch = 1000 ∧ (validatorAt ([1, 2] ++ x ++ [3]) 2).slashed = true ∧
    (validatorAt ([1, 2] ++ x ++ [3]) 2).effectiveBalance = 32000000000 := ⟨_, by rfl, by decide +kernel⟩

/-! ## The layout of all states -/

theorem layout_eq (f : Variant) :
    layout f = f.fields.mapIdx fun i x => (x.1, headSize (((f.fields.map Prod.snd).take i).map Typ.size), x.2.size) := by
  cases f <;> decide +kernel

theorem fixedLength_eq (f : Variant) : headSize ((f.fields.map Prod.snd).map Typ.size) = fixedLength f := by
  cases f <;> decide +kernel

/-- A field of a state and its place. -/
theorem place_at {s : State} {b : Bytes} (h : encodeState s = some b) {i : Nat} {name : String} {t : Typ} {place : Nat} {size : Option Nat}
    (hi : s.variant.fields[i]? = some (name, t)) (hl : (layout s.variant)[i]? = some (name, place, size)) :
    t.size = size ∧ ∃ v x, s.field name = some v ∧ encode t v = some x ∧
      (∀ n, size = some n → x.length = n ∧ bytesAt b place n = x) ∧
      (size = none → bytesAt b (offsetAt b place) x.length = x ∧ fixedLength s.variant ≤ offsetAt b place ∧
        ∀ name' t' place', s.variant.fields[i + 1]? = some (name', t') → (layout s.variant)[i + 1]? = some (name', place', none) →
          offsetAt b place' = offsetAt b place + x.length) := by
  have hplace : ∀ {j : Nat} {name : String} {t : Typ} {place : Nat} {size : Option Nat}, s.variant.fields[j]? = some (name, t) →
      (layout s.variant)[j]? = some (name, place, size) →
      headSize (((s.variant.fields.map Prod.snd).take j).map Typ.size) = place ∧ t.size = size := by
    intro j name t place size hj hl
    rw [layout_eq, List.getElem?_mapIdx, hj] at hl
    simp only [Option.map_some, Option.some.injEq, Prod.mk.injEq, true_and] at hl
    exact hl
  obtain ⟨e1, e2⟩ := hplace hi hl
  obtain ⟨l, v, x, hl', hv, hfield, hx, _⟩ := field_at h hi
  obtain ⟨f, w⟩ := s
  dsimp only at hl'
  subst hl'
  unfold encodeState Variant.typ at h
  obtain ⟨v', x', hv', hx', hfix, hvar⟩ := container_at h (i := i) (t := t) (by rw [List.getElem?_map, hi]; rfl)
  rw [hv] at hv'
  cases hv'
  rw [hx] at hx'
  cases hx'
  dsimp only at e1 hfix hvar
  rw [e1] at hfix hvar
  refine ⟨e2, v, x, hfield, hx, fun n hn => hfix n (e2.trans hn), fun hn => ?_⟩
  obtain ⟨i1, i2, i3⟩ := hvar (e2.trans hn)
  rw [fixedLength_eq] at i2
  refine ⟨i1, i2, fun name' t' place' hi' hl' => ?_⟩
  obtain ⟨e1', e2'⟩ := hplace hi' hl'
  have := i3 t' (by rw [List.getElem?_map, hi']; rfl) e2'
  dsimp only at e1'
  rw [e1'] at this
  exact this

/-- **C98.** The fields of a state are at the places of the layout, in the files of all forks. -/
theorem C98_places {s : State} {b : Bytes} (h : encodeState s = some b) :
    (layout s.variant).map Prod.fst = s.variant.fields.map Prod.fst ∧ fixedLength s.variant ≤ b.length ∧
    ∀ {name : String} {place : Nat} {size : Option Nat}, (name, place, size) ∈ layout s.variant →
      ∃ t v x, (name, t) ∈ s.variant.fields ∧ s.field name = some v ∧ Ssz t v x ∧
        (∀ n, size = some n → x.length = n ∧ bytesAt b place n = x) ∧
        (size = none → bytesAt b (offsetAt b place) x.length = x ∧ fixedLength s.variant ≤ offsetAt b place) := by
  refine ⟨?_, ?_, ?_⟩
  · rw [layout_eq]
    apply List.ext_getElem?
    intro i
    simp only [List.getElem?_map, List.getElem?_mapIdx]
    cases s.variant.fields[i]? <;> rfl
  · obtain ⟨f, w⟩ := s
    have := variant_offset ((variant_iff f (encode_short h)).2 h)
    cases f <;> exact this.2
  · intro name place size hm
    obtain ⟨i, hi⟩ := List.mem_iff_getElem?.1 hm
    have hi' := hi
    rw [layout_eq, List.getElem?_mapIdx] at hi
    cases hf : s.variant.fields[i]? with
    | none => rw [hf] at hi; cases hi
    | some y =>
      obtain ⟨name', t⟩ := y
      rw [hf] at hi
      simp only [Option.map_some, Option.some.injEq, Prod.mk.injEq] at hi
      obtain ⟨rfl, -, -⟩ := hi
      obtain ⟨_, v, x, h1, h2, h3, h4⟩ := place_at h hf hi'
      exact ⟨t, v, x, List.mem_of_getElem? hf, h1, (encode_ssz _ _ _).1 h2, h3, fun hn => ⟨(h4 hn).1, (h4 hn).2.1⟩⟩

/-- **C98.** What the host takes from a state is at these places of the file, in the files of all forks. -/
theorem C98_host {s : State} {b : Bytes} (h : encodeState s = some b) :
    s.host.beacon.genesisValidatorsRoot = bytesAt b 8 32 ∧ s.host.beacon.slot = numAt b 40 ∧
    s.host.beacon.fork = ⟨bytesAt b 48 4, bytesAt b 52 4, numAt b 56⟩ ∧ s.host.latestBlockHeader = headerAt b ∧
    s.host.beacon.validators = validatorsAt b ∧ s.host.randaoMixes = mixesAt b ∧
    s.host.beacon.finalizedEpoch = numAt b 2687337 ∧ s.host.beacon.finalizedRoot = bytesAt b 2687345 32 ∧
    offsetAt b 524464 = fixedLength s.variant ∧ fixedLength s.variant ≤ b.length := by
  have fixed : ∀ (i : Nat) (name : String) (t : Typ) (place n : Nat), s.variant.fields[i]? = some (name, t) →
      (layout s.variant)[i]? = some (name, place, some n) → ∃ v, s.field name = some v ∧ encode t v = some (bytesAt b place n) := by
    intro i name t place n hi hl
    obtain ⟨_, v, x, h1, h2, h3, _⟩ := place_at h hi hl
    exact ⟨v, h1, (h3 n rfl).2 ▸ h2⟩
  have hv : ∀ f : Variant, f.fields[1]? = some ("genesis_validators_root", b32) ∧ (layout f)[1]? = some ("genesis_validators_root", 8, some 32) ∧
      f.fields[2]? = some ("slot", u64) ∧ (layout f)[2]? = some ("slot", 40, some 8) ∧
      f.fields[3]? = some ("fork", forkTyp) ∧ (layout f)[3]? = some ("fork", 48, some 16) ∧
      f.fields[4]? = some ("latest_block_header", headerTyp) ∧ (layout f)[4]? = some ("latest_block_header", 64, some 112) ∧
      f.fields[11]? = some ("validators", .list (2 ^ 40) validatorTyp) ∧ (layout f)[11]? = some ("validators", 524552, none) ∧
      f.fields[12]? = some ("balances", .list (2 ^ 40) u64) ∧ (layout f)[12]? = some ("balances", 524556, none) ∧
      f.fields[13]? = some ("randao_mixes", .vector 65536 b32) ∧ (layout f)[13]? = some ("randao_mixes", 524560, some 2097152) ∧
      f.fields[20]? = some ("finalized_checkpoint", checkpointTyp) ∧ (layout f)[20]? = some ("finalized_checkpoint", 2687337, some 40) := by
    intro f
    cases f <;> exact ⟨rfl, rfl, rfl, rfl, rfl, rfl, rfl, rfl, rfl, rfl, rfl, rfl, rfl, rfl, rfl, rfl⟩
  obtain ⟨f1, l1, f2, l2, f3, l3, f4, l4, f11, l11, f12, l12, f13, l13, f20, l20⟩ := hv s.variant
  refine ⟨?_, ?_, ?_, ?_, ?_, ?_, ?_, ?_, ?_, ?_⟩
  · obtain ⟨v, e, hx⟩ := fixed _ _ _ _ _ f1 l1
    obtain ⟨rfl, _⟩ := bytes_of_encode hx
    simp only [State.host, e, raw]
  · obtain ⟨v, e, hx⟩ := fixed _ _ _ _ _ f2 l2
    obtain ⟨rfl, _⟩ := bytes_of_encode hx
    simp only [State.host, e, num, numAt]
  · obtain ⟨v, e, hx⟩ := fixed _ _ _ _ _ f3 l3
    have e0 := inner_bytes hx 0 4 0 rfl rfl
    have e1 := inner_bytes hx 1 4 4 rfl rfl
    have e2 := inner_bytes hx 2 8 8 rfl rfl
    rw [bytesAt_inner (by omega)] at e0 e1 e2
    simp only [State.host, e, e0.1, e1.1, e2.2, numAt, Nat.add_zero, Nat.reduceAdd]
  · obtain ⟨v, e, hx⟩ := fixed _ _ _ _ _ f4 l4
    have e0 := inner_bytes hx 0 8 0 rfl rfl
    have e1 := inner_bytes hx 1 8 8 rfl rfl
    have e2 := inner_bytes hx 2 32 16 rfl rfl
    have e3 := inner_bytes hx 3 32 48 rfl rfl
    have e4 := inner_bytes hx 4 32 80 rfl rfl
    rw [bytesAt_inner (by omega)] at e0 e1 e2 e3 e4
    simp only [State.host, e, e0.2, e1.2, e2.1, e3.1, e4.1, headerAt, numAt, Nat.add_zero, Nat.reduceAdd]
  · obtain ⟨_, v, x, e, hx, _, hn⟩ := place_at h f11 l11
    obtain ⟨hx', _, hnext⟩ := hn rfl
    have hoff := hnext _ _ _ f12 l12
    obtain ⟨l, rfl, hl, _⟩ := list_of_encode hx
    simp only [encode] at hx
    rw [if_pos hl] at hx
    · obtain ⟨bs, h1, h2⟩ := Option.bind_eq_some_iff.1 hx
      obtain ⟨hlen, hget⟩ := elements_at (n := 121) rfl h1 h2
      simp only [State.host, e, items, validatorsAt]
      rw [hoff, Nat.add_sub_cancel_left, hlen, Nat.mul_div_cancel_left _ (by decide)]
      apply List.ext_getElem?
      intro i
      simp only [List.getElem?_map]
      rcases Nat.lt_or_ge i l.length with hi | hi
      · rw [List.getElem?_eq_getElem hi, List.getElem?_range hi]
        simp only [Option.map_some, Option.some.injEq]
        apply validator_at
        rw [hget i _ (List.getElem?_eq_getElem hi), ← hx', bytesAt_inner (by rw [hlen]; omega)]
      · rw [List.getElem?_eq_none hi, List.getElem?_eq_none (by simpa using hi)]
        rfl
  · obtain ⟨v, e, hx⟩ := fixed _ _ _ _ _ f13 l13
    obtain ⟨l, rfl, hl, _⟩ := vector_of_encode hx
    simp only [encode] at hx
    rw [if_pos hl] at hx
    obtain ⟨bs, h1, h2⟩ := Option.bind_eq_some_iff.1 hx
    obtain ⟨_, hget⟩ := elements_at (n := 32) rfl h1 h2
    simp only [State.host, e, items, mixesAt]
    apply List.ext_getElem?
    intro i
    simp only [List.getElem?_map]
    rcases Nat.lt_or_ge i 65536 with hi | hi
    · have hi' : i < l.length := by omega
      rw [List.getElem?_eq_getElem hi', List.getElem?_range hi]
      simp only [Option.map_some, Option.some.injEq]
      have := hget i _ (List.getElem?_eq_getElem hi')
      obtain ⟨e', _⟩ := bytes_of_encode this
      rw [e', bytesAt_inner (by omega)]
      rfl
    · rw [List.getElem?_eq_none (by omega), List.getElem?_eq_none (by simpa using hi)]
      rfl
  · obtain ⟨v, e, hx⟩ := fixed _ _ _ _ _ f20 l20
    have e0 := inner_bytes hx 0 8 0 rfl rfl
    rw [bytesAt_inner (by omega)] at e0
    simp only [State.host, e, e0.2, numAt, Nat.add_zero]
  · obtain ⟨v, e, hx⟩ := fixed _ _ _ _ _ f20 l20
    have e0 := inner_bytes hx 1 32 8 rfl rfl
    rw [bytesAt_inner (by omega)] at e0
    simp only [State.host, e, e0.1, Nat.reduceAdd]
  · obtain ⟨f, w⟩ := s
    have := variant_offset ((variant_iff f (encode_short h)).2 h)
    cases f <;> exact this.1
  · exact (C98_places h).2.1

/-- The hypothesis is met: a state of Electra with a given slot and any number of pending consolidations. -/
example (slot n : Nat) (hn : n ≤ 2 ^ 18) : ∃ b, encodeState (plainState slot n) = some b ∧ b.length = 2737297 + 16 * n ∧
    (plainState slot n).host.beacon.slot = numAt b 40 := by
  obtain ⟨b, h, hl⟩ := plain_encodes slot hn
  exact ⟨b, h, hl, (C98_host (s := plainState slot n) h).2.1⟩

/-- The same holds of any bytes that are read as a state: what the host uses is what stands at the places of the fork as which they are read. -/
theorem C98_read {order : List Variant} {b : Bytes} (hb : b.length < 2 ^ 32) {s : State} (h : decodeState order b = some s) :
    s.host.beacon.genesisValidatorsRoot = bytesAt b 8 32 ∧ s.host.beacon.slot = numAt b 40 ∧
    s.host.beacon.fork = ⟨bytesAt b 48 4, bytesAt b 52 4, numAt b 56⟩ ∧ s.host.latestBlockHeader = headerAt b ∧
    s.host.beacon.validators = validatorsAt b ∧ s.host.randaoMixes = mixesAt b ∧
    s.host.beacon.finalizedEpoch = numAt b 2687337 ∧ s.host.beacon.finalizedRoot = bytesAt b 2687345 32 ∧
    offsetAt b 524464 = fixedLength s.variant ∧ fixedLength s.variant ≤ b.length :=
  C98_host ((variant_iff _ hb).1 (decodeState_iff.1 h).2)

example (slot n : Nat) (hn : n ≤ 2 ^ 18) : ∃ b, b.length = 2737297 + 16 * n ∧ b.length < 2 ^ 32 ∧
    decodeState [.phase0, .electra] b = some (plainState slot n) := by
  obtain ⟨b, h, hl⟩ := plain_encodes slot hn
  exact ⟨b, hl, by omega, decodeState_iff.2 ⟨by simp [plainState], (variant_iff _ (encode_short h)).2 h⟩⟩

/-- **C98**, since Electra: the earliest epochs for exits and consolidations. -/
theorem C98_exits {s : State} {b : Bytes} (h : encodeState s = some b) (hs : s.variant = .electra ∨ s.variant = .fulu) :
    s.host.beacon.earliestExitEpoch = numAt b 2736677 ∧ s.host.beacon.earliestConsolidationEpoch = numAt b 2736693 ∧
      s.host.beacon.fulu = (s.variant == .fulu) := by
  have fixed : ∀ (i : Nat) (name : String) (place : Nat), s.variant.fields[i]? = some (name, u64) →
      (layout s.variant)[i]? = some (name, place, some 8) → num (s.field name) = numAt b place := by
    intro i name place hi hl
    obtain ⟨_, v, x, h1, h2, h3, _⟩ := place_at h hi hl
    obtain ⟨rfl, _⟩ := bytes_of_encode h2
    rw [h1, numAt, (h3 8 rfl).2]
    rfl
  refine ⟨?_, ?_, rfl⟩
  · exact fixed 31 _ _ (by rcases hs with e | e <;> rw [e] <;> rfl) (by rcases hs with e | e <;> rw [e] <;> rfl)
  · exact fixed 33 _ _ (by rcases hs with e | e <;> rw [e] <;> rfl) (by rcases hs with e | e <;> rw [e] <;> rfl)

end Signal
