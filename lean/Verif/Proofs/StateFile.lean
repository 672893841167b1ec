import Verif.Proofs.StateSsz

/-!
# Lemmas on the stored states
-/

namespace Signal.StateSsz
open Signal.Spec

set_option maxRecDepth 100000

/-! ## The types -/

theorem payload_wf : Typ.WFs payloadFields := by
  simp [payloadFields, Typ.WFs, Typ.WF, Typ.size]

theorem wfs_append : ∀ (a b : List Typ), Typ.WFs (a ++ b) ↔ Typ.WFs a ∧ Typ.WFs b
  | [], b => by simp [Typ.WFs]
  | t :: a, b => by simp [Typ.WFs, wfs_append a b, and_assoc]

theorem altair_wf : Typ.WFs (altairFields.map Prod.snd) := by
  simp [altairFields, commonFields, finalityFields, Typ.WFs, Typ.WF, Typ.size, Typ.sizes, forkTyp, headerTyp, eth1Typ, validatorTyp, checkpointTyp,
    syncCommitteeTyp]

theorem capella_wf {header : Typ} (h : Typ.WF header) : Typ.WFs ((capellaFields header).map Prod.snd) := by
  rw [capellaFields, List.map_append, wfs_append]
  exact ⟨altair_wf, by simp [Typ.WFs, Typ.WF, Typ.size, Typ.sizes, summaryTyp, h]⟩

theorem deneb_header_wf : Typ.WF denebHeaderTyp := by
  rw [denebHeaderTyp, Typ.WF, wfs_append]
  exact ⟨payload_wf, by simp [Typ.WFs, Typ.WF]⟩

theorem electra_wf : Typ.WFs (electraFields.map Prod.snd) := by
  rw [electraFields, List.map_append, wfs_append]
  exact ⟨capella_wf deneb_header_wf,
    by simp [Typ.WFs, Typ.WF, Typ.size, Typ.sizes, depositTyp, withdrawalTyp, consolidationTyp]⟩

theorem variant_wf (f : Variant) : Typ.WF f.typ := by
  cases f with
  | phase0 =>
    simp [Variant.typ, Variant.fields, commonFields, finalityFields, Typ.WFs, Typ.WF, Typ.size, Typ.sizes, forkTyp, headerTyp, eth1Typ, validatorTyp,
      checkpointTyp, pendingAttestationTyp, attestationDataTyp]
  | altair => exact altair_wf
  | bellatrix =>
    rw [Variant.typ, Variant.fields, Typ.WF, List.map_append, wfs_append]
    exact ⟨altair_wf, payload_wf, trivial⟩
  | capella =>
    refine capella_wf (header := capellaHeaderTyp) ?_
    rw [capellaHeaderTyp, Typ.WF, wfs_append]
    exact ⟨payload_wf, by simp [Typ.WFs, Typ.WF]⟩
  | deneb => exact capella_wf deneb_header_wf
  | electra => exact electra_wf
  | fulu =>
    rw [Variant.typ, Variant.fields, Typ.WF, List.map_append, wfs_append]
    exact ⟨electra_wf, by simp [Typ.WFs, Typ.WF]⟩

/-- The sizes of the fields. -/
def Variant.sizes (f : Variant) : List (Option Nat) := (f.fields.map Prod.snd).map Typ.size

/-- The sizes of the fields before the first list. -/
def frontSizes : List (Option Nat) := [some 8, some 32, some 8, some 16, some 112, some 262144, some 262144]

theorem variant_front (f : Variant) : f.sizes.take 8 = frontSizes ++ [none] := by
  cases f <;> decide +kernel

theorem variant_sizes (f : Variant) : f.sizes = frontSizes ++ none :: f.sizes.drop 8 := by
  have h := List.take_append_drop 8 f.sizes
  rw [variant_front] at h
  rw [List.append_assoc] at h
  exact h.symm

/-- The length of the first part of a state. -/
def headLen : Variant → Nat
  | .phase0 => 2687377
  | .altair => 2736629
  | .bellatrix => 2736633
  | .capella => 2736653
  | .deneb => 2736653
  | .electra => 2736713
  | .fulu => 2737225

theorem headLen_eq (f : Variant) : headSize f.sizes = headLen f := by
  cases f <;> decide +kernel

theorem decode_head {ts : List Typ} {b : Bytes} {v : Val} (h : decode (.container ts) b = some v) : headSize (ts.map Typ.size) ≤ b.length := by
  simp only [decode] at h
  obtain ⟨parts, h1, _⟩ := Option.bind_eq_some_iff.1 h
  unfold split at h1
  obtain ⟨ps, h2, _⟩ := Option.bind_eq_some_iff.1 h1
  exact (readHeads_inv h2).2.1

/-- The bytes that tell the forks apart. -/
theorem variant_offset {f : Variant} {b : Bytes} {v : Val} (h : decode f.typ b = some v) :
    ofLE ((b.drop 524464).take 4) = headLen f ∧ headLen f ≤ b.length := by
  rw [← headLen_eq]
  refine ⟨?_, decode_head h⟩
  have := container_offset (pre := frontSizes) (post := f.sizes.drop 8) h (variant_sizes f) (by decide)
  rwa [show headSize frontSizes = 524464 by decide] at this

theorem headLen_inj {f f' : Variant} (h : headLen f = headLen f') :
    f = f' ∨ f = .capella ∧ f' = .deneb ∨ f = .deneb ∧ f' = .capella := by
  cases f <;> cases f' <;> simp_all [headLen]

theorem capella_sizes : Variant.capella.sizes = Variant.deneb.sizes := by decide +kernel

theorem capella_header : (Variant.capella.fields.map Prod.snd)[24]? = some capellaHeaderTyp := by rfl
theorem deneb_header : (Variant.deneb.fields.map Prod.snd)[24]? = some denebHeaderTyp := by rfl

/-- The sizes of the fields of the header before the list. -/
def headerFront : List (Option Nat) := [some 32, some 20, some 32, some 32, some 256, some 32, some 8, some 8, some 8, some 8]

theorem capella_deneb {b : Bytes} {v v' : Val} (h : decode Variant.capella.typ b = some v) (h' : decode Variant.deneb.typ b = some v') : False := by
  simp only [Variant.typ, decode] at h h'
  obtain ⟨parts, h1, h2⟩ := Option.bind_eq_some_iff.1 h
  obtain ⟨parts', h1', h2'⟩ := Option.bind_eq_some_iff.1 h'
  have e : parts = parts' := by
    have hs := capella_sizes
    unfold Variant.sizes at hs
    rw [hs, h1'] at h1
    exact (Option.some.inj h1).symm
  subst e
  obtain ⟨l, h3, _⟩ := Option.bind_eq_some_iff.1 h2
  obtain ⟨l', h3', _⟩ := Option.bind_eq_some_iff.1 h2'
  obtain ⟨x, w, h4, h5⟩ := decodeFields_get h3 capella_header
  obtain ⟨x', w', h4', h5'⟩ := decodeFields_get h3' deneb_header
  rw [h4] at h4'
  cases h4'
  have e1 := container_offset (pre := headerFront) (post := [some 32, some 32, some 32, some 32]) h5 (by decide +kernel) (by decide)
  have e2 := container_offset (pre := headerFront) (post := [some 32, some 32, some 32, some 32, some 8, some 8]) h5' (by decide +kernel) (by decide)
  rw [e1] at e2
  exact absurd e2 (by decide +kernel)

/-- Bytes are a state of one fork at most. -/
theorem variant_unique {f f' : Variant} {b : Bytes} {v v' : Val} (h : decode f.typ b = some v) (h' : decode f'.typ b = some v') : f = f' := by
  have e := (variant_offset h).1.symm.trans (variant_offset h').1
  rcases headLen_inj e with h1 | ⟨rfl, rfl⟩ | ⟨rfl, rfl⟩
  · exact h1
  · exact (capella_deneb h h').elim
  · exact (capella_deneb h' h).elim

theorem encode_short {ts : List Typ} {v : Val} {b : Bytes} (h : encode (.container ts) v = some b) : b.length < 2 ^ 32 := by
  cases v with
  | seq l =>
    simp only [encode] at h
    obtain ⟨parts, _, h2⟩ := Option.bind_eq_some_iff.1 h
    exact ((assemble_iff _ _).1 h2).2
  | _ => simp [encode] at h

theorem variant_iff (f : Variant) {v : Val} {b : Bytes} (hb : b.length < 2 ^ 32) : decode f.typ b = some v ↔ encode f.typ v = some b :=
  decode_iff _ (variant_wf f) v b hb

theorem decodeState_iff {order : List Variant} {b : Bytes} {s : State} : decodeState order b = some s ↔ s.variant ∈ order ∧ decode s.variant.typ b = some s.value := by
  induction order with
  | nil => simp [decodeState]
  | cons f fs ih =>
    simp only [decodeState]
    cases hd : decode f.typ b with
    | none =>
      simp only [List.mem_cons]
      rw [ih]
      constructor
      · rintro ⟨h1, h2⟩; exact ⟨.inr h1, h2⟩
      · rintro ⟨h1 | h1, h2⟩
        · rw [h1, hd] at h2; cases h2
        · exact ⟨h1, h2⟩
    | some v =>
      simp only [Option.some.injEq, List.mem_cons]
      constructor
      · rintro rfl; exact ⟨.inl rfl, hd⟩
      · rintro ⟨_, h2⟩
        have e := variant_unique hd h2
        obtain ⟨f', v'⟩ := s
        dsimp only at e h2
        subst e
        rw [hd] at h2
        cases h2
        rfl

/-! ## Cut off files -/

/-- The first bytes of a container whose last list has elements of fixed size. -/
theorem container_cut {A C : List Typ} {limit e : Nat} {t : Typ} (hw : Typ.WF t) (he : t.size = some e) (h0 : e ≠ 0)
    (hC : ∀ u ∈ C, u.size.isSome) {b : Bytes} (hb : b.length < 2 ^ 32) {v : Val} (h : decode (.container (A ++ .list limit t :: C)) b = some v) :
    ∃ va l vc, v = .seq (va ++ .seq l :: vc) ∧ va.length = A.length ∧ e * l.length ≤ b.length ∧ ∀ k ≤ b.length, ∀ v',
      decode (.container (A ++ .list limit t :: C)) (b.take k) = some v' ↔
        ∃ j ≤ l.length, k + e * j = b.length ∧ v' = .seq (va ++ .seq (l.take (l.length - j)) :: vc) := by
  have hsz : (A ++ .list limit t :: C).map Typ.size = A.map Typ.size ++ none :: C.map Typ.size := by simp [Typ.size]
  simp only [decode, hsz] at h
  obtain ⟨bs, h1, h2⟩ := Option.bind_eq_some_iff.1 h
  obtain ⟨vs, h3, h4⟩ := Option.bind_eq_some_iff.1 h2
  cases h4
  obtain ⟨xs, x, ys, rfl, hxs, hys, hxb, hk⟩ := split_take (fun s hs => by
    obtain ⟨u, hu, rfl⟩ := List.mem_map.1 hs; exact hC u hu) h1
  rw [List.length_map] at hxs
  obtain ⟨va, w, vc, rfl, h5, h6, h7⟩ := (decodeFields_append hxs).1 h3
  have hlen : ∀ {ts : List Typ} {zs : List Bytes} {us : List Val}, decodeFields ts zs = some us → us.length = ts.length := by
    intro ts
    induction ts with
    | nil => intro zs us h; cases zs <;> simp [decodeFields] at h; subst h; rfl
    | cons t ts ih =>
      intro zs us h
      cases zs with
      | nil => simp [decodeFields] at h
      | cons z zs =>
        simp only [decodeFields] at h
        obtain ⟨u, _, h2⟩ := Option.bind_eq_some_iff.1 h
        obtain ⟨us', h3, h4⟩ := Option.bind_eq_some_iff.1 h2
        cases h4
        simp [ih h3]
  have hw' : ∃ l, w = .seq l := by
    simp only [decode] at h6
    obtain ⟨n, _, h8⟩ := Option.bind_eq_some_iff.1 h6
    split at h8
    · cases h8
    · obtain ⟨ps, _, h9⟩ := Option.bind_eq_some_iff.1 h8
      obtain ⟨l, _, h10⟩ := Option.bind_eq_some_iff.1 h9
      cases h10
      exact ⟨l, rfl⟩
  obtain ⟨l, rfl⟩ := hw'
  obtain ⟨hxl, htk⟩ := decode_list_take hw he h0 (by omega) h6
  refine ⟨va, l, vc, rfl, hlen h5, by omega, ?_⟩
  intro k hkb v'
  simp only [decode, hsz]
  rw [hk k hkb]
  have hepos : 0 < e := Nat.pos_of_ne_zero h0
  constructor
  · intro hd
    split at hd
    · rename_i hle
      obtain ⟨bs', h8, h9⟩ := Option.bind_eq_some_iff.1 hd
      cases h8
      obtain ⟨vs', h10, h11⟩ := Option.bind_eq_some_iff.1 h9
      cases h11
      obtain ⟨va', w', vc', rfl, i1, i2, i3⟩ := (decodeFields_append hxs).1 h10
      rw [h5] at i1; cases i1
      rw [h7] at i3; cases i3
      rw [htk _ (by omega)] at i2
      split at i2
      · rename_i hm
        cases i2
        obtain ⟨q, hq⟩ := Nat.dvd_of_mod_eq_zero hm
        have hql : q ≤ l.length := by
          have : e * q ≤ e * l.length := by omega
          exact Nat.le_of_mul_le_mul_left this hepos
        refine ⟨l.length - q, by omega, ?_, ?_⟩
        · rw [Nat.mul_sub]; omega
        · rw [hq, Nat.mul_div_cancel_left _ hepos, show l.length - (l.length - q) = q by omega]
      · cases i2
    · cases hd
  · rintro ⟨j, hj, hkj, rfl⟩
    have hmul : e * (l.length - j) = e * l.length - e * j := Nat.mul_sub _ _ _
    have hle : e * j ≤ e * l.length := Nat.mul_le_mul_left _ hj
    rw [if_pos (by omega)]
    have hk' : k - (b.length - x.length) = e * (l.length - j) := by omega
    rw [hk']
    have h8 := htk (e * (l.length - j)) (by omega)
    rw [if_pos (Nat.mul_mod_right _ _), Nat.mul_div_cancel_left _ hepos] at h8
    simp only [Option.bind_eq_bind, Option.bind_some]
    rw [(decodeFields_append hxs).2 ⟨va, _, vc, rfl, h5, h8, h7⟩]
    rfl

theorem electra_split : Variant.electra.fields.map Prod.snd =
    (Variant.electra.fields.map Prod.snd).take 36 ++ .list (2 ^ 18) consolidationTyp :: [] := by rfl

theorem fulu_split : Variant.fulu.fields.map Prod.snd =
    (Variant.electra.fields.map Prod.snd).take 36 ++ .list (2 ^ 18) consolidationTyp :: [.vector 64 u64] := by rfl

/-! ## Bytes that are zero -/

theorem encode_first {n : Nat} {ts : List Typ} {vs : List Val} {g : Bytes} {b : Bytes}
    (h : encode (.container (.bytes n :: ts)) (.seq (.bytes g :: vs)) = some b) :
    g.length = n ∧ ∃ rest, b = g ++ rest ∧ ∀ g' : Bytes, g'.length = n → encode (.container (.bytes n :: ts)) (.seq (.bytes g' :: vs)) = some (g' ++ rest) := by
  simp only [encode, encodeFields] at h
  split at h
  · rename_i hg
    simp only [Option.bind_eq_bind, Option.bind_some] at h
    obtain ⟨parts, h1, h2⟩ := Option.bind_eq_some_iff.1 h
    obtain ⟨ps, h3, h4⟩ := Option.bind_eq_some_iff.1 h1
    cases h4
    have hasm : ∀ x : Bytes, x.length = n → assemble ((true, x) :: ps) =
        if (n + headLength ps + (tails ps).length < 2 ^ 32) then some (x ++ (heads (n + headLength ps) ps ++ tails ps)) else none := by
      intro x hx
      simp only [assemble, heads, headLength, tails, List.length_append, heads_length, hx, List.append_assoc, Nat.add_assoc]
    change assemble ((true, g) :: ps) = some b at h2
    rw [hasm g hg] at h2
    split at h2
    · rename_i hlt
      cases h2
      refine ⟨hg, _, rfl, ?_⟩
      intro g' hg'
      simp only [encode, encodeFields, if_pos hg', Option.bind_eq_bind, Option.bind_some, h3]
      change assemble ((true, g') :: ps) = _
      rw [hasm g' hg', if_pos hlt]
    · cases h2
  · simp at h

theorem variant_fields (f : Variant) : ∃ rest, f.fields = ("genesis_time", u64) :: ("genesis_validators_root", b32) :: ("slot", u64) :: rest := by
  cases f <;> exact ⟨_, rfl⟩

theorem bytes_of_encode {n : Nat} {v : Val} {b : Bytes} (h : encode (.bytes n) v = some b) : v = .bytes b ∧ b.length = n := by
  cases v with
  | bytes x =>
    simp only [encode] at h
    split at h
    · cases h; exact ⟨rfl, by assumption⟩
    · cases h
  | _ => simp [encode] at h

/-- The fields before the list, in a state that has bytes. -/
theorem state_front {s : State} {b : Bytes} (h : encodeState s = some b) :
    ∃ g r sl vs rest, s.value = .seq (.bytes g :: .bytes r :: .bytes sl :: vs) ∧ g.length = 8 ∧ r.length = 32 ∧ sl.length = 8 ∧
      b = g ++ (r ++ (sl ++ rest)) := by
  obtain ⟨f, v⟩ := s
  unfold encodeState Variant.typ at h
  obtain ⟨fr, hf⟩ := variant_fields f
  simp only [hf, List.map_cons] at h
  cases v with
  | seq l =>
    simp only [encode] at h
    obtain ⟨parts, h1, h2⟩ := Option.bind_eq_some_iff.1 h
    have hstep : ∀ {n : Nat} {ts : List Typ} {l : List Val} {parts : List (Bool × Bytes)}, encodeFields (.bytes n :: ts) l = some parts →
        ∃ g vs ps, l = .bytes g :: vs ∧ g.length = n ∧ parts = (true, g) :: ps ∧ encodeFields ts vs = some ps := by
      intro n ts l parts h
      cases l with
      | nil => simp [encodeFields] at h
      | cons w vs =>
        simp only [encodeFields] at h
        obtain ⟨g, h1, h2⟩ := Option.bind_eq_some_iff.1 h
        obtain ⟨ps, h3, h4⟩ := Option.bind_eq_some_iff.1 h2
        cases h4
        obtain ⟨rfl, hl⟩ := bytes_of_encode h1
        exact ⟨g, vs, ps, rfl, hl, rfl, h3⟩
    obtain ⟨g, l1, p1, rfl, hg, rfl, h3⟩ := hstep h1
    obtain ⟨r, l2, p2, rfl, hr, rfl, h4⟩ := hstep h3
    obtain ⟨sl, l3, p3, rfl, hs, rfl, _⟩ := hstep h4
    obtain ⟨hb, _⟩ := (assemble_iff _ _).1 h2
    rw [series_eq] at hb
    simp only [heads, List.append_assoc] at hb
    exact ⟨g, r, sl, l3, _, rfl, hg, hr, hs, hb⟩
  | _ => simp [encode] at h

theorem field_front {f : Variant} {g r sl : Val} {vs : List Val} : (State.mk f (.seq (g :: r :: sl :: vs))).field "slot" = some sl := by
  obtain ⟨fr, hf⟩ := variant_fields f
  simp [State.field, hf, List.findIdx?_cons]

theorem field_other {f : Variant} {g g' : Val} {vs : List Val} {name : String} (h : name ≠ "genesis_time") :
    (State.mk f (.seq (g :: vs))).field name = (State.mk f (.seq (g' :: vs))).field name := by
  obtain ⟨fr, hf⟩ := variant_fields f
  have hne : ("genesis_time" == name) = false := by simpa using fun e => h e.symm
  simp only [State.field, hf, List.findIdx?_cons, hne]
  simp only [Bool.false_eq_true, if_false, Option.bind_eq_bind]
  rw [Option.bind_map, Option.bind_map]
  rfl

/-! ## States that have bytes -/

/-- The value has bytes, so many of them. -/
def Encodes (t : Typ) (v : Val) (n : Nat) : Prop := ∃ b, encode t v = some b ∧ b.length = n

/-- The fields have bytes, so many of them with the offsets. -/
def EncodesAll (ts : List Typ) (vs : List Val) (n : Nat) : Prop :=
  ∃ parts, encodeFields ts vs = some parts ∧ headLength parts + (tails parts).length = n

theorem EncodesAll.nil : EncodesAll [] [] 0 := ⟨[], rfl, rfl⟩

theorem EncodesAll.cons {t : Typ} {v : Val} {n m : Nat} {ts : List Typ} {vs : List Val} (h : Encodes t v n) (h' : EncodesAll ts vs m) :
    EncodesAll (t :: ts) (v :: vs) ((if t.size.isSome then n else 4 + n) + m) := by
  obtain ⟨b, h1, rfl⟩ := h
  obtain ⟨parts, h2, rfl⟩ := h'
  refine ⟨(t.size.isSome, b) :: parts, ?_, ?_⟩
  · simp only [encodeFields, h1, h2, Option.bind_eq_bind, Option.bind_some]; rfl
  · cases t.size.isSome
    · simp [headLength, tails]; omega
    · simp [headLength, tails]; omega

theorem Encodes.container {ts : List Typ} {vs : List Val} {n : Nat} (h : EncodesAll ts vs n) (hn : n < 2 ^ 32) : Encodes (.container ts) (.seq vs) n := by
  obtain ⟨parts, h1, h2⟩ := h
  refine ⟨heads (headLength parts) parts ++ tails parts, ?_, ?_⟩
  · simp only [encode, h1, Option.bind_eq_bind, Option.bind_some, assemble]
    rw [if_pos (by rw [List.length_append, heads_length]; omega)]
  · rw [List.length_append, heads_length]; omega

theorem Encodes.bytes {n : Nat} {b : Bytes} (h : b.length = n) : Encodes (.bytes n) (.bytes b) n := ⟨b, by simp [encode, h], h⟩

theorem replicate_parts {t : Typ} {b : Bytes} {k : Nat} : headLength (List.replicate k (t.size.isSome, b)) + (tails (List.replicate k (t.size.isSome, b))).length =
    k * (if t.size.isSome then b.length else 4 + b.length) := by
  induction k with
  | zero => simp [headLength, tails]
  | succ k ih =>
    rw [List.replicate_succ, Nat.succ_mul, ← ih]
    cases t.size.isSome
    · simp [headLength, tails]; omega
    · simp [headLength, tails]; omega

theorem mapM_replicate {t : Typ} {v : Val} {b : Bytes} (h : encode t v = some b) (k : Nat) :
    (List.replicate k v).mapM (encode t) = some (List.replicate k b) := by
  rw [mapM_iff]
  induction k with
  | zero => exact .nil
  | succ k ih => exact .cons h ih

theorem Encodes.vector {t : Typ} {v : Val} {m k : Nat} (h : Encodes t v m) (hk : k * (if t.size.isSome then m else 4 + m) < 2 ^ 32) :
    Encodes (.vector k t) (.seq (List.replicate k v)) (k * (if t.size.isSome then m else 4 + m)) := by
  obtain ⟨b, h1, rfl⟩ := h
  have h2 := replicate_parts (t := t) (b := b) (k := k)
  refine ⟨heads (headLength (List.replicate k (t.size.isSome, b))) (List.replicate k (t.size.isSome, b)) ++
    tails (List.replicate k (t.size.isSome, b)), ?_, ?_⟩
  · simp only [encode, List.length_replicate, if_true, mapM_replicate h1, Option.bind_eq_bind, Option.bind_some, List.map_replicate, assemble]
    rw [if_pos (by rw [List.length_append, heads_length]; omega)]
  · rw [List.length_append, heads_length]; omega

theorem Encodes.list {t : Typ} {v : Val} {m k limit : Nat} (h : Encodes t v m) (hl : k ≤ limit)
    (hk : k * (if t.size.isSome then m else 4 + m) < 2 ^ 32) :
    Encodes (.list limit t) (.seq (List.replicate k v)) (k * (if t.size.isSome then m else 4 + m)) := by
  obtain ⟨b, h1, rfl⟩ := h
  have h2 := replicate_parts (t := t) (b := b) (k := k)
  refine ⟨heads (headLength (List.replicate k (t.size.isSome, b))) (List.replicate k (t.size.isSome, b)) ++
    tails (List.replicate k (t.size.isSome, b)), ?_, ?_⟩
  · simp only [encode, List.length_replicate, if_pos hl, mapM_replicate h1, Option.bind_eq_bind, Option.bind_some, List.map_replicate, assemble]
    rw [if_pos (by rw [List.length_append, heads_length]; omega)]
  · rw [List.length_append, heads_length]; omega

mutual
/-- The value whose bytes are zero and whose lists are empty. -/
def zero : Typ → Val
  | .bytes n => .bytes (List.replicate n 0)
  | .bool => .bool false
  | .bitvector n => .bits (List.replicate n false)
  | .bitlist _ => .bits []
  | .vector n elem => .seq (List.replicate n (zero elem))
  | .list _ _ => .seq []
  | .container fields => .seq (zeros fields)

/-- All of them. -/
def zeros : List Typ → List Val
  | [] => []
  | t :: ts => zero t :: zeros ts
end

mutual
/-- The length of `zero`. -/
def zeroLen : Typ → Nat
  | .bytes n => n
  | .bool => 1
  | .bitvector n => (n + 7) / 8
  | .bitlist _ => 1
  | .vector n elem => n * (if elem.size.isSome then zeroLen elem else 4 + zeroLen elem)
  | .list _ _ => 0
  | .container fields => zeroLens fields

/-- The length of `zeros`, with the offsets. -/
def zeroLens : List Typ → Nat
  | [] => 0
  | t :: ts => (if t.size.isSome then zeroLen t else 4 + zeroLen t) + zeroLens ts
end

mutual
theorem encodes_zero : ∀ (t : Typ), zeroLen t < 2 ^ 32 → Encodes t (zero t) (zeroLen t)
  | .bytes n, _ => Encodes.bytes (by simp)
  | .bool, _ => ⟨[0], rfl, rfl⟩
  | .bitvector n, _ => ⟨leBytes ((n + 7) / 8) (Ssz.bitsNat (List.replicate n false)), by simp [encode, zero], leBytes_length _ _⟩
  | .bitlist limit, _ => ⟨Ssz.encodeBitlist [], by simp [encode, zero], by simp only [zeroLen]; decide⟩
  | .vector n elem, h => by
    simp only [zeroLen] at h ⊢
    rcases Nat.eq_zero_or_pos n with rfl | hn
    · refine ⟨[], by simp [encode, zero, assemble, heads, tails, headLength], by simp⟩
    · have : zeroLen elem ≤ n * (if elem.size.isSome then zeroLen elem else 4 + zeroLen elem) := by
        refine Nat.le_trans ?_ (Nat.le_mul_of_pos_left _ hn)
        split <;> omega
      exact Encodes.vector (encodes_zero elem (by omega)) h
  | .list limit elem, _ => ⟨[], by simp [encode, zero, assemble, heads, tails, headLength], rfl⟩
  | .container fields, h => Encodes.container (encodes_zeros fields h) h

theorem encodes_zeros : ∀ (ts : List Typ), zeroLens ts < 2 ^ 32 → EncodesAll ts (zeros ts) (zeroLens ts)
  | [], _ => EncodesAll.nil
  | t :: ts, h => by
    simp only [zeroLens] at h ⊢
    have h1 : zeroLen t < 2 ^ 32 := by split at h <;> omega
    exact EncodesAll.cons (encodes_zero t h1) (encodes_zeros ts (by omega))
end

theorem EncodesAll.append {ts : List Typ} {vs : List Val} {n : Nat} {ts' : List Typ} {vs' : List Val} {m : Nat} (h : EncodesAll ts vs n)
    (h' : EncodesAll ts' vs' m) : EncodesAll (ts ++ ts') (vs ++ vs') (n + m) := by
  obtain ⟨ps, h1, rfl⟩ := h
  obtain ⟨ps', h2, rfl⟩ := h'
  refine ⟨ps ++ ps', ?_, ?_⟩
  · induction ts generalizing vs ps with
    | nil =>
      cases vs with
      | nil => cases h1; exact h2
      | cons v vs => simp [encodeFields] at h1
    | cons t ts ih =>
      cases vs with
      | nil => simp [encodeFields] at h1
      | cons v vs =>
        simp only [encodeFields] at h1
        obtain ⟨b, h3, h4⟩ := Option.bind_eq_some_iff.1 h1
        obtain ⟨qs, h5, h6⟩ := Option.bind_eq_some_iff.1 h4
        cases h6
        simp only [List.cons_append, encodeFields, h3, ih _ h5, Option.bind_eq_bind, Option.bind_some]
        rfl
  · clear h1 h2
    induction ps with
    | nil => simp [headLength, tails]
    | cons p ps ih =>
      obtain ⟨fx, b⟩ := p
      cases fx <;> simp [headLength, tails] at ih ⊢ <;> omega

/-- A state of Electra in which everything is zero but the slot and the number of pending consolidations, which are zero each. -/
def plainState (slot n : Nat) : State :=
  ⟨.electra, .seq (.bytes (List.replicate 8 0) :: .bytes (List.replicate 32 0) :: .bytes (leBytes 8 slot) ::
    (zeros (((Variant.electra.fields.map Prod.snd).take 36).drop 3) ++ [.seq (List.replicate n (zero consolidationTyp))]))⟩

theorem plain_encodes (slot : Nat) {n : Nat} (hn : n ≤ 2 ^ 18) : Encodes Variant.electra.typ (plainState slot n).value (2737297 + 16 * n) := by
  have hz : zeroLens (((Variant.electra.fields.map Prod.snd).take 36).drop 3) = 2737245 := by decide +kernel
  have hc := encodes_zero consolidationTyp (by decide)
  have hs : consolidationTyp.size = some 16 := by decide
  have hl : zeroLen consolidationTyp = 16 := by decide
  have h1 := (encodes_zeros (((Variant.electra.fields.map Prod.snd).take 36).drop 3) (by rw [hz]; decide)).append
    (EncodesAll.cons (Encodes.list (limit := 2 ^ 18) hc hn (by rw [hs, hl]; simp; omega)) EncodesAll.nil)
  have h2 := EncodesAll.cons (Encodes.bytes (List.length_replicate (n := 8) (a := 0)))
    (EncodesAll.cons (Encodes.bytes (List.length_replicate (n := 32) (a := 0))) (EncodesAll.cons (Encodes.bytes (leBytes_length 8 slot)) h1))
  have h3 := Encodes.container h2 (by
    rw [hz, hs, hl]
    simp [Typ.size]; omega)
  have ht : Variant.electra.typ = .container (.bytes 8 :: .bytes 32 :: .bytes 8 :: (((Variant.electra.fields.map Prod.snd).take 36).drop 3 ++
      [.list (2 ^ 18) consolidationTyp])) := by rfl
  rw [ht]
  unfold plainState
  obtain ⟨b, h4, h5⟩ := h3
  refine ⟨b, h4, ?_⟩
  rw [h5, hz, hs, hl]
  simp [Typ.size]
  omega

end Signal.StateSsz
