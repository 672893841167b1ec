import Verif.Proofs.StateFile
import Verif.Model.Providers
import Verif.Spec.Providers
import Verif.Spec.Ssz

/-!
# C92: the bytes of stored states
-/

namespace Signal
open Spec StateSsz

/-- A value is written as the SSZ specification says, or not at all. -/
theorem C92_serialize (t : Typ) (v : Val) (b : Bytes) : encode t v = some b ↔ Ssz t v b := encode_ssz t v b

example : encode (.container [.bytes 1, .list 4 (.bytes 2), .bool]) (.seq [.bytes [7], .seq [.bytes [1, 2], .bytes [3, 4]], .bool true]) =
    some [7, 6, 0, 0, 0, 1, 1, 2, 3, 4] := by decide +kernel

/-- Bytes are read as the value that is written so, and as nothing if there is none. -/
theorem C92_deserialize {t : Typ} (ht : Typ.WF t) {b : Bytes} (hb : b.length < 2 ^ 32) (v : Val) : decode t b = some v ↔ Ssz t v b :=
  (decode_iff t ht v b hb).trans (encode_ssz t v b)

example : Typ.WF (.container [.bytes 1, .list 4 (.list 3 .bool), .bitlist 9, .vector 2 (.bitvector 5)]) := by simp [Typ.WF, Typ.WFs, Typ.size]

/-- The types of the states are such types. -/
theorem C92_types (f : Variant) : Typ.WF f.typ := variant_wf f

/-- The names of the fields are those that the proofs are about, in the same order. -/
theorem C92_names : Variant.electra.fields.map Prod.fst = Spec.electraFields ∧ Variant.fulu.fields.map Prod.fst = Spec.fuluFields := by
  constructor <;> decide +kernel

/-- No two states are written as the same bytes, not even states of different forks. -/
theorem C92_forks {s s' : State} {b : Bytes} (h : encodeState s = some b) (h' : encodeState s' = some b) : s = s' := by
  obtain ⟨f, v⟩ := s
  obtain ⟨f', v'⟩ := s'
  have hb : b.length < 2 ^ 32 := encode_short h
  have d := (variant_iff f hb).2 h
  have d' := (variant_iff f' hb).2 h'
  have e := variant_unique d d'
  subst e
  rw [d] at d'
  cases d'
  rfl

/-- In whatever order the forks are tried, a file is read as the state that is written so, and as nothing if there is none. -/
theorem C92_any_order {order : List Variant} (horder : ∀ f, f ∈ order) {b : Bytes} (hb : b.length < 2 ^ 32) (s : State) :
    decodeState order b = some s ↔ Ssz s.variant.typ s.value b := by
  rw [decodeState_iff]
  exact ⟨fun h => (C92_deserialize (variant_wf _) hb _).1 h.2, fun h => ⟨horder _, (C92_deserialize (variant_wf _) hb _).2 h⟩⟩

/-- A state that is written is read again. -/
theorem C92_roundtrip {order : List Variant} {s : State} (horder : s.variant ∈ order) {b : Bytes} (h : encodeState s = some b) :
    decodeState order b = some s := decodeState_iff.2 ⟨horder, (variant_iff _ (encode_short h)).2 h⟩

/-- The slot of a state is in the same place of its file for all forks. -/
theorem C92_slot {s : State} {b : Bytes} (h : encodeState s = some b) : ofLE ((b.drop 40).take 8) = s.slot := by
  obtain ⟨g, r, sl, vs, rest, hv, hg, hr, hs, rfl⟩ := state_front h
  obtain ⟨f, v⟩ := s
  dsimp only at hv
  subst hv
  rw [State.slot, field_front]
  dsimp only
  congr 1
  have : (g ++ (r ++ (sl ++ rest))).drop 40 = sl ++ rest := by
    rw [List.drop_append, List.drop_of_length_le (by omega), hg, List.nil_append, List.drop_append, List.drop_of_length_le (by omega), hr,
      List.nil_append]
    rfl
  rw [this, List.take_append, hs, List.take_of_length_le (by omega)]
  simp

/-- The fields that are read of a state, by name. -/
def readFields : List String :=
  ["genesis_validators_root", "slot", "fork", "latest_block_header", "state_roots", "historical_roots", "validators", "balances", "randao_mixes",
   "previous_justified_checkpoint", "current_justified_checkpoint", "finalized_checkpoint"]

theorem findIdx_get : ∀ {l : List (String × Typ)} {name : String} {i : Nat}, l.findIdx? (·.1 == name) = some i → ∃ t, l[i]? = some (name, t) := by
  intro l name i h
  obtain ⟨hi, h1, _⟩ := List.findIdx?_eq_some_iff_getElem.1 h
  refine ⟨(l[i]).2, ?_⟩
  rw [List.getElem?_eq_getElem hi]
  simp only [beq_iff_eq] at h1
  rw [← h1]

theorem encodeFields_get : ∀ {ts : List Typ} {vs : List Val} {parts : List (Bool × Bytes)}, encodeFields ts vs = some parts → ∀ {i : Nat} {t : Typ},
    ts[i]? = some t → ∃ v x, vs[i]? = some v ∧ encode t v = some x := by
  intro ts
  induction ts with
  | nil => intro vs parts _ i t h; simp at h
  | cons t ts ih =>
    intro vs parts h i t' ht
    cases vs with
    | nil => simp [encodeFields] at h
    | cons w vs =>
      simp only [encodeFields] at h
      obtain ⟨x, h1, h2⟩ := Option.bind_eq_some_iff.1 h
      obtain ⟨ps, h3, h4⟩ := Option.bind_eq_some_iff.1 h2
      cases i with
      | zero =>
        simp only [List.getElem?_cons_zero, Option.some.injEq] at ht
        subst ht
        exact ⟨w, x, rfl, h1⟩
      | succ i => exact ih h3 (by simpa using ht)

/-- Every such field is there in the states of all forks, at the same place. -/
theorem readFields_index {name : String} (h : name ∈ readFields) (f : Variant) :
    ∃ i, f.fields.findIdx? (·.1 == name) = some i ∧ Variant.electra.fields.findIdx? (·.1 == name) = some i := by
  simp only [readFields, List.mem_cons, List.mem_nil_iff, or_false] at h
  rcases h with rfl | rfl | rfl | rfl | rfl | rfl | rfl | rfl | rfl | rfl | rfl | rfl <;> cases f <;> exact ⟨_, rfl, rfl⟩

/-- Every field that is read of a state is there, whatever its fork, and is what its type says. -/
theorem C92_fields {s : State} {b : Bytes} (h : encodeState s = some b) {name : String} (hname : name ∈ readFields) :
    ∃ t v x, (name, t) ∈ s.variant.fields ∧ s.field name = some v ∧ Ssz t v x := by
  obtain ⟨f, v⟩ := s
  unfold encodeState Variant.typ at h
  cases v with
  | seq l =>
    simp only [encode] at h
    obtain ⟨parts, h1, _⟩ := Option.bind_eq_some_iff.1 h
    obtain ⟨i, hi, _⟩ := readFields_index hname f
    obtain ⟨t, ht⟩ := findIdx_get hi
    obtain ⟨w, x, hw, hx⟩ := encodeFields_get h1 (i := i) (t := t) (by rw [List.getElem?_map, ht]; rfl)
    refine ⟨t, w, x, List.mem_of_getElem? ht, ?_, (encode_ssz _ _ _).1 hx⟩
    simp only [State.field, hi, Option.bind_eq_bind, Option.bind_some, hw]
  | _ => simp [encode] at h

/-- The first bytes of the file of a state of Electra or Fulu are read as a state exactly if what is missing are pending consolidations, sixteen bytes
each, and then as the state without these. -/
theorem C92_cut {order : List Variant} {s : State} (hs : s.variant = .electra ∨ s.variant = .fulu) (horder : s.variant ∈ order) {b : Bytes}
    (h : encodeState s = some b) {k : Nat} (hk : k ≤ b.length) (s' : State) :
    decodeState order (b.take k) = some s' ↔ ∃ j, k + 16 * j = b.length ∧ LacksConsolidations j s s' := by
  have hb : b.length < 2 ^ 32 := encode_short h
  have hd := (variant_iff _ hb).2 h
  have hcons : Typ.WF consolidationTyp ∧ consolidationTyp.size = some 16 := ⟨by simp [consolidationTyp, Typ.WF, Typ.WFs], by decide⟩
  have hl36 : ((Variant.electra.fields.map Prod.snd).take 36).length = 36 := by rfl
  have key : ∃ va l vc, s.value = .seq (va ++ .seq l :: vc) ∧ va.length = 36 ∧ ∀ v',
      decode s.variant.typ (b.take k) = some v' ↔ ∃ j ≤ l.length, k + 16 * j = b.length ∧ v' = .seq (va ++ .seq (l.take (l.length - j)) :: vc) := by
    rcases hs with hs | hs
    · rw [hs] at hd ⊢
      unfold Variant.typ at hd ⊢
      rw [electra_split] at hd ⊢
      obtain ⟨va, l, vc, h1, h2, _, h3⟩ := container_cut hcons.1 hcons.2 (by decide) (by simp) hb hd
      exact ⟨va, l, vc, h1, by rw [h2, hl36], h3 k hk⟩
    · rw [hs] at hd ⊢
      unfold Variant.typ at hd ⊢
      rw [fulu_split] at hd ⊢
      obtain ⟨va, l, vc, h1, h2, _, h3⟩ := container_cut hcons.1 hcons.2 (by decide) (by simp [Typ.size]) hb hd
      exact ⟨va, l, vc, h1, by rw [h2, hl36], h3 k hk⟩
  obtain ⟨va, l, vc, hv, hva, hcut⟩ := key
  rw [decodeState_iff]
  constructor
  · rintro ⟨_, hd'⟩
    have hvar : s'.variant = s.variant := by
      obtain ⟨o1, o2⟩ := variant_offset hd
      obtain ⟨o1', o2'⟩ := variant_offset hd'
      have hge : 2687377 ≤ headLen s'.variant := by cases s'.variant <;> decide
      have hsame : (((b.take k).drop 524464).take 4) = ((b.drop 524464).take 4) := by
        rw [List.length_take] at o2'
        rw [List.drop_take, List.take_take, Nat.min_eq_left (by omega)]
      rw [hsame, o1] at o1'
      rcases headLen_inj o1' with e | ⟨e, _⟩ | ⟨e, _⟩
      · exact e.symm
      · rcases hs with hs | hs <;> rw [hs] at e <;> cases e
      · rcases hs with hs | hs <;> rw [hs] at e <;> cases e
    rw [hvar] at hd'
    obtain ⟨j, hj, hkj, hv'⟩ := (hcut _).1 hd'
    exact ⟨j, hkj, va, l, vc, hv, hva, hj, hvar, hv'⟩
  · rintro ⟨j, hkj, va', l', vc', hv1, hva', hj, hvar, hv'⟩
    rw [hv] at hv1
    have e := Val.seq.inj hv1
    have e1 := List.append_inj_left e (by rw [hva, hva'])
    have e2 := List.append_inj_right e (by rw [hva, hva'])
    subst e1
    obtain ⟨e3, e4⟩ := List.cons.inj e2
    cases e3
    subst e4
    exact ⟨hvar ▸ horder, hvar ▸ (hcut _).2 ⟨j, hj, hkj, hv'⟩⟩

example {n : Nat} (hn : n ≤ 2 ^ 18) (slot : Nat) : (plainState slot n).variant = .electra ∧ ∃ b, encodeState (plainState slot n) = some b ∧
    b.length = 2737297 + 16 * n := ⟨rfl, plain_encodes slot hn⟩

/-- If the first byte of a file is zero where another one should be, the file is read as another state: the time of genesis is another one, and all else is
as it should be. -/
theorem C92_hole {order : List Variant} {s : State} (horder : s.variant ∈ order) {byte : UInt8} {rest : Bytes}
    (h : encodeState s = some (byte :: rest)) (hbyte : byte ≠ 0) :
    ∃ s', decodeState order (0 :: rest) = some s' ∧ s' ≠ s ∧ s'.variant = s.variant ∧ s'.slot = s.slot ∧
      ∀ name, name ≠ "genesis_time" → s'.field name = s.field name := by
  obtain ⟨g, r, sl, vs, tl, hv, hg, _, _, hb⟩ := state_front h
  obtain ⟨f, v⟩ := s
  dsimp only at hv horder
  subst hv
  obtain ⟨fr, hf⟩ := variant_fields f
  have he := h
  unfold encodeState Variant.typ at he
  simp only [hf, List.map_cons] at he
  obtain ⟨hg', rest', hb', hall⟩ := encode_first he
  cases g with
  | nil => simp at hg
  | cons g0 g =>
    obtain ⟨rfl, hrest⟩ := List.cons.inj hb'
    subst hrest
    have h0 := hall (0 :: g) (by simpa using hg)
    have h0' : encodeState ⟨f, .seq (.bytes (0 :: g) :: .bytes r :: .bytes sl :: vs)⟩ = some (0 :: (g ++ rest')) := by
      unfold encodeState Variant.typ
      simp only [hf, List.map_cons]
      exact h0
    refine ⟨_, C92_roundtrip (order := order) horder h0', ?_, rfl, ?_, fun name hn => field_other hn⟩
    · intro e
      simp only [State.mk.injEq, Val.seq.injEq, List.cons.injEq, Val.bytes.injEq, true_and, and_true] at e
      exact hbyte e.symm
    · rw [State.slot, State.slot, field_front, field_front]

/-- A state whose time of genesis is not zero, and so is its first byte. -/
example : ∃ s b, encodeState s = some (1 :: b) := by
  obtain ⟨b, h, _⟩ := plain_encodes 5 (n := 0) (by decide)
  have hf : Variant.electra.typ = .container (.bytes 8 :: (Variant.electra.fields.map Prod.snd).tail) := rfl
  rw [hf] at h
  obtain ⟨_, rest, _, hall⟩ := encode_first h
  exact ⟨⟨.electra, _⟩, [0, 0, 0, 0, 0, 0, 0] ++ rest, by rw [encodeState, hf]; exact hall [1, 0, 0, 0, 0, 0, 0, 0] rfl⟩

/-! ## The providers -/

/-- What the providers use of states, with this way to write and to read them; the rest is left open. -/
def sszOps (order : List Variant) (genesis : State → Root) (header : State → Spec.Header) (root : State → Root) : StateOps State where
  slot := State.slot
  genesisValidatorsRoot := genesis
  latestBlockHeader := header
  hashTreeRoot := root
  serialize s := (encodeState s).getD []
  deserialize := decodeState order

/-- What the properties of the providers ask of the states holds of every chain of states that can be written. -/
theorem C92_providers {order : List Variant} (horder : ∀ f, f ∈ order) {genesis : State → Root} {header : State → Spec.Header} {root : State → Root}
    {chain : Nat → State} (hslot : ∀ slot < 2 ^ 64, (chain slot).slot = slot) (hchain : ∀ slot < 2 ^ 64, (encodeState (chain slot)).isSome) :
    RoundTrip (sszOps order genesis header root) chain where
  slot := hslot
  read slot hu := by
    obtain ⟨b, hb⟩ := Option.isSome_iff_exists.1 (hchain slot hu)
    simp only [sszOps, hb, Option.getD_some]
    exact C92_roundtrip (horder _) hb

/-- On such a chain, of the states since Electra, cut off files are never taken for states exactly if no state has a pending consolidation. -/
theorem C92_prefix {order : List Variant} (horder : ∀ f, f ∈ order) {genesis : State → Root} {header : State → Spec.Header} {root : State → Root}
    {chain : Nat → State} (hfork : ∀ slot < 2 ^ 64, (chain slot).variant = .electra ∨ (chain slot).variant = .fulu)
    (hchain : ∀ slot < 2 ^ 64, (encodeState (chain slot)).isSome) :
    NoWrongPrefix (sszOps order genesis header root) chain ↔ ∀ slot < 2 ^ 64, (chain slot).field "pending_consolidations" = some (.seq []) := by
  have hfield : ∀ slot < 2 ^ 64, ∀ va l vc, (chain slot).value = .seq (va ++ .seq l :: vc) → va.length = 36 →
      (chain slot).field "pending_consolidations" = some (.seq l) := by
    intro slot hu va l vc hv hva
    have hi : (chain slot).variant.fields.findIdx? (·.1 == "pending_consolidations") = some 36 := by
      rcases hfork slot hu with e | e <;> rw [e] <;> rfl
    simp only [State.field, hv, hi, Option.bind_eq_bind, Option.bind_some]
    rw [List.getElem?_append_right (by omega), hva]
    rfl
  have hshape : ∀ slot (hu : slot < 2 ^ 64), ∃ b va l vc, encodeState (chain slot) = some b ∧ (chain slot).value = .seq (va ++ .seq l :: vc) ∧
      va.length = 36 := by
    intro slot hu
    obtain ⟨b, hb⟩ := Option.isSome_iff_exists.1 (hchain slot hu)
    have := (C92_cut (hfork slot hu) (horder _) hb (Nat.le_refl _) (chain slot)).1 (by
      rw [List.take_of_length_le (Nat.le_refl _)]; exact C92_roundtrip (horder _) hb)
    obtain ⟨_, _, va, l, vc, h1, h2, _⟩ := this
    exact ⟨b, va, l, vc, hb, h1, h2⟩
  constructor
  · intro h slot hu
    obtain ⟨b, va, l, vc, hb, hv, hva⟩ := hshape slot hu
    rw [hfield slot hu va l vc hv hva]
    rcases Nat.eq_zero_or_pos l.length with h0 | h0
    · rw [List.length_eq_zero_iff.1 h0]
    · exfalso
      have hd := (variant_iff _ (encode_short hb)).2 hb
      have hlong : 16 ≤ b.length := by
        have := (variant_offset hd).2
        have : 2687377 ≤ headLen (chain slot).variant := by cases (chain slot).variant <;> decide
        omega
      have hcut := (C92_cut (hfork slot hu) (horder _) hb (k := b.length - 16) (by omega)
        ⟨(chain slot).variant, .seq (va ++ .seq (l.take (l.length - 1)) :: vc)⟩).2 ⟨1, by omega, va, l, vc, hv, hva, h0, rfl, rfl⟩
      have := h slot hu (b.length - 16) _ (by simp only [sszOps, hb, Option.getD_some]; exact hcut)
      have e := congrArg State.value this
      rw [hv] at e
      have e2 := List.append_cancel_left (Val.seq.inj e)
      have e3 := Val.seq.inj (List.cons.inj e2).1
      have := congrArg List.length e3
      rw [List.length_take] at this
      omega
  · intro h slot hu k s hs
    obtain ⟨b, va, l, vc, hb, hv, hva⟩ := hshape slot hu
    have hl := h slot hu
    rw [hfield slot hu va l vc hv hva] at hl
    cases hl
    simp only [sszOps, hb, Option.getD_some] at hs
    by_cases hk : k ≤ b.length
    · obtain ⟨j, hj, va', l', vc', h1, h2, h3, h4, h5⟩ := (C92_cut (hfork slot hu) (horder _) hb hk s).1 hs
      rw [hv] at h1
      have e := Val.seq.inj h1
      have e1 := List.append_inj_left e (by omega)
      have e2 := List.append_inj_right e (by omega)
      subst e1
      obtain ⟨e3, e4⟩ := List.cons.inj e2
      cases e3
      subst e4
      obtain ⟨f, v⟩ := s
      dsimp only at h4 h5
      rw [h4, h5]
      cases hc : chain slot
      rw [hc] at hv
      dsimp only at hv
      rw [hv]
      simp
    · rw [List.take_of_length_le (by omega), C92_roundtrip (horder _) hb] at hs
      exact (Option.some.inj hs).symm

/-- There are such chains, without pending consolidations and with them. -/
example (n : Nat) (hn : n ≤ 2 ^ 18) : (∀ slot < 2 ^ 64, (plainState slot n).slot = slot) ∧
    (∀ slot < 2 ^ 64, (plainState slot n).variant = .electra ∨ (plainState slot n).variant = .fulu) ∧
    ∀ slot < 2 ^ 64, (encodeState (plainState slot n)).isSome := by
  refine ⟨?_, fun _ _ => .inl rfl, ?_⟩
  · intro slot hu
    rw [State.slot, plainState, field_front]
    dsimp only
    rw [ofLE_leBytes, Nat.mod_eq_of_lt]
    exact Nat.lt_of_lt_of_le hu (by decide)
  · intro slot _
    obtain ⟨b, hb, _⟩ := plain_encodes slot hn
    exact Option.isSome_iff_exists.2 ⟨b, hb⟩

end Signal
