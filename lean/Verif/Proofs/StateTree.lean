import Verif.Spec.StateTree
import Verif.Proofs.StateFile
import Verif.Proofs.Signing
import Verif.Props.Gindices

/-!
# Lemmas on the trees of SSZ values
-/

namespace Signal.StateSsz
open Signal.Spec Gen

variable (X : Ext)

/-! ## Perfect trees -/

theorem hashed_perfect {d : Nat} : ∀ {f : Nat → Tree} {i : Nat}, i < 2 ^ d → ∀ x ∈ (f i).hashed X, x ∈ (perfect d f).hashed X := by
  induction d with
  | zero =>
    intro f i hi x hx
    have : i = 0 := by simpa using hi
    subst this
    exact hx
  | succ d ih =>
    intro f i hi x hx
    rw [Nat.pow_succ] at hi
    simp only [perfect, Tree.hashed, List.mem_cons, List.mem_append]
    by_cases h : i < 2 ^ d
    · exact .inr (.inl (ih h x hx))
    · refine .inr (.inr (ih (f := fun j => f (2 ^ d + j)) (i := i - 2 ^ d) (by omega) x ?_))
      rwa [show 2 ^ d + (i - 2 ^ d) = i by omega]

theorem perfect_roots {S : List Bytes} (hS : NoCollisionOn X S) {d : Nat} : ∀ {f g : Nat → Tree}, (∀ i, (f i).Chunked) → (∀ i, (g i).Chunked) →
    (∀ x ∈ (perfect d f).hashed X, x ∈ S) → (∀ x ∈ (perfect d g).hashed X, x ∈ S) → (perfect d f).root X = (perfect d g).root X →
    ∀ i < 2 ^ d, (f i).root X = (g i).root X := by
  induction d with
  | zero =>
    intro f g _ _ _ _ h i hi
    have : i = 0 := by simpa using hi
    subst this
    exact h
  | succ d ih =>
    intro f g hf hg hfS hgS h i hi
    rw [Nat.pow_succ] at hi
    simp only [perfect, Tree.root, Tree.hashed, List.mem_cons, List.mem_append] at h hfS hgS
    have e := hS _ (hfS _ (.inl rfl)) _ (hgS _ (.inl rfl)) h
    obtain ⟨e1, e2⟩ := append_inj_32 (Tree.root_length X (perfect_chunked d f hf)) (Tree.root_length X (perfect_chunked d g hg)) e
    by_cases hlt : i < 2 ^ d
    · exact ih hf hg (fun x hx => hfS x (.inr (.inl hx))) (fun x hx => hgS x (.inr (.inl hx))) e1 i hlt
    · have := ih (fun j => hf (2 ^ d + j)) (fun j => hg (2 ^ d + j)) (fun x hx => hfS x (.inr (.inr hx))) (fun x hx => hgS x (.inr (.inr hx))) e2
        (i - 2 ^ d) (by omega)
      rwa [show 2 ^ d + (i - 2 ^ d) = i by omega] at this

theorem le_depthFor (n : Nat) : n ≤ 2 ^ depthFor n := (depthFor_isDepth n).1

/-! ## Chunks -/

theorem chunk_length (b : Bytes) (i : Nat) : (chunk b i).length = 32 := by
  simp only [chunk, List.length_append, List.length_take, List.length_replicate]
  omega

theorem chunk_get (b : Bytes) (j : Nat) (h : j < b.length) : (chunk b (j / 32))[j % 32]? = b[j]? := by
  have h1 := Nat.div_add_mod j 32
  have h2 := Nat.mod_lt j (show 32 > 0 by decide)
  rw [chunk, List.getElem?_append_left (by rw [List.length_take, List.length_drop]; omega), List.getElem?_take_of_lt h2, List.getElem?_drop, h1]

theorem chunks_inj {b b' : Bytes} {m : Nat} (h : ∀ i < m, chunk b i = chunk b' i) (hl : b.length = b'.length) (hm : b.length ≤ 32 * m) : b = b' := by
  apply List.ext_getElem? 
  intro j
  by_cases hj : j < b.length
  · rw [← chunk_get b j hj, ← chunk_get b' j (hl ▸ hj), h (j / 32) (by omega)]
  · rw [List.getElem?_eq_none (by omega), List.getElem?_eq_none (by omega)]

theorem chunksTree_chunked (m : Nat) (b : Bytes) : (chunksTree m b).Chunked := perfect_chunked _ _ fun i => chunk_length b i

theorem chunksTree_inj {S : List Bytes} (hS : NoCollisionOn X S) {m : Nat} {b b' : Bytes} (hl : b.length = b'.length) (hm : b.length ≤ 32 * m)
    (h1 : ∀ x ∈ (chunksTree m b).hashed X, x ∈ S) (h2 : ∀ x ∈ (chunksTree m b').hashed X, x ∈ S)
    (h : (chunksTree m b).root X = (chunksTree m b').root X) : b = b' :=
  chunks_inj (fun i hi => perfect_roots X hS (f := fun i => .leaf (chunk b i)) (g := fun i => .leaf (chunk b' i)) (fun i => chunk_length b i) (fun i => chunk_length b' i) h1 h2 h i
    (Nat.lt_of_lt_of_le hi (le_depthFor m))) hl hm

/-! ## All trees have chunks as their leaves -/

theorem seriesTree_chunked {limit : Nat} {basic : Option Nat} {f : Val → Tree} (hf : ∀ v, (f v).Chunked) (l : List Val) :
    (seriesTree limit basic f l).Chunked := by
  unfold seriesTree
  cases basic with
  | some k => exact chunksTree_chunked _ _
  | none =>
    refine perfect_chunked _ _ fun i => ?_
    cases l[i]? with
    | none => simp [Tree.Chunked, zeroRoot]
    | some v => exact hf v

mutual
theorem valTree_chunked : ∀ (t : Typ) (v : Val), (valTree t v).Chunked
  | .bytes n, v => by
    cases v with
    | bytes b => exact chunksTree_chunked _ _
    | _ => simp [valTree, Tree.Chunked, zeroRoot]
  | .bool, v => by
    cases v with
    | bool b => exact boolChunk_length b
    | _ => simp [valTree, Tree.Chunked, zeroRoot]
  | .bitvector n, v => by
    cases v with
    | bits l => exact chunksTree_chunked _ _
    | _ => simp [valTree, Tree.Chunked, zeroRoot]
  | .bitlist n, v => by
    cases v with
    | bits l => exact ⟨chunksTree_chunked _ _, u64Chunk_length _⟩
    | _ => simp [valTree, Tree.Chunked, zeroRoot]
  | .vector n t, v => by
    cases v with
    | seq l => exact seriesTree_chunked (valTree_chunked t) l
    | _ => simp [valTree, Tree.Chunked, zeroRoot]
  | .list n t, v => by
    cases v with
    | seq l => exact ⟨seriesTree_chunked (valTree_chunked t) l, u64Chunk_length _⟩
    | _ => simp [valTree, Tree.Chunked, zeroRoot]
  | .container ts, v => by
    cases v with
    | seq l => exact container_chunked _ _ (fieldTrees_chunked ts l)
    | _ => simp [valTree, Tree.Chunked, zeroRoot]

theorem fieldTrees_chunked : ∀ (ts : List Typ) (vs : List Val), ∀ t ∈ fieldTrees ts vs, t.Chunked
  | [], vs => by simp [fieldTrees]
  | t :: ts, vs => by
    cases vs with
    | nil => simp [fieldTrees]
    | cons v vs =>
      simp only [fieldTrees, List.mem_cons]
      rintro u (rfl | hu)
      · exact valTree_chunked t v
      · exact fieldTrees_chunked ts vs u hu
end

/-! ## The root of a value binds the value -/

theorem basicBytes_length {t : Typ} {k : Nat} (ht : basicSize t = some k) {v : Val} {b : Bytes} (h : encode t v = some b) :
    basicBytes v = b ∧ b.length = k := by
  cases t with
  | bytes n =>
    simp only [basicSize] at ht
    split at ht <;> cases ht
    obtain ⟨rfl, hl⟩ := bytes_of_encode h
    exact ⟨rfl, hl⟩
  | bool =>
    cases ht
    cases v with
    | bool x => simp only [encode] at h; cases h; exact ⟨rfl, rfl⟩
    | _ => simp [encode] at h
  | _ => cases ht

theorem basic_inj {t : Typ} {k : Nat} (ht : basicSize t = some k) {v v' : Val} {b : Bytes} (h : encode t v = some b) (h' : encode t v' = some b) : v = v' := by
  cases t with
  | bytes n => rw [(bytes_of_encode h).1, (bytes_of_encode h').1]
  | bool =>
    cases v with
    | bool x =>
      cases v' with
      | bool y =>
        simp only [encode] at h h'
        rw [← h'] at h
        cases x <;> cases y <;> first | rfl | (simp at h)
      | _ => simp [encode] at h'
    | _ => simp [encode] at h
  | _ => cases ht

theorem flatMap_basic {t : Typ} {k : Nat} (ht : basicSize t = some k) {l : List Val} {bs : List Bytes}
    (h : List.Forall₂ (fun v b => encode t v = some b) l bs) : l.flatMap basicBytes = bs.flatten ∧ (l.flatMap basicBytes).length = l.length * k := by
  induction h with
  | nil => simp
  | cons h1 _ ih =>
    obtain ⟨e, hl⟩ := basicBytes_length ht h1
    simp only [List.flatMap_cons, List.flatten_cons, List.length_append, List.length_cons]
    rw [e, ih.1]
    refine ⟨rfl, ?_⟩
    rw [← ih.1, ih.2, hl, Nat.succ_mul]
    omega

theorem series_basic_inj {t : Typ} {k : Nat} (ht : basicSize t = some k) : ∀ {l l' : List Val} {bs bs' : List Bytes},
    List.Forall₂ (fun v b => encode t v = some b) l bs → List.Forall₂ (fun v b => encode t v = some b) l' bs' → l.length = l'.length →
    l.flatMap basicBytes = l'.flatMap basicBytes → l = l' := by
  intro l
  induction l with
  | nil => intro l' bs bs' _ _ hl _; exact (List.length_eq_zero_iff.1 hl.symm).symm
  | cons v l ih =>
    intro l' bs bs' h h' hl e
    cases l' with
    | nil => simp at hl
    | cons v' l' =>
      cases h with
      | cons h1 h2 =>
        cases h' with
        | cons h1' h2' =>
          simp only [List.flatMap_cons] at e
          obtain ⟨e1, hk1⟩ := basicBytes_length ht h1
          obtain ⟨e2, hk2⟩ := basicBytes_length ht h1'
          obtain ⟨e3, e4⟩ := List.append_inj e (by rw [e1, e2, hk1, hk2])
          rw [ih h2 h2' (by simpa using hl) e4]
          rw [e1, e2] at e3
          subst e3
          rw [basic_inj ht h1 h1']

theorem series_inj {S : List Bytes} (hS : NoCollisionOn X S) {t : Typ}
    (ih : ∀ v v' b b', encode t v = some b → encode t v' = some b' → (∀ x ∈ (valTree t v).hashed X, x ∈ S) → (∀ x ∈ (valTree t v').hashed X, x ∈ S) →
      (valTree t v).root X = (valTree t v').root X → v = v')
    {limit : Nat} {l l' : List Val} {bs bs' : List Bytes} (h : List.Forall₂ (fun v b => encode t v = some b) l bs)
    (h' : List.Forall₂ (fun v b => encode t v = some b) l' bs') (hlen : l.length = l'.length) (hl : l.length ≤ limit)
    (h1 : ∀ x ∈ (seriesTree limit (basicSize t) (valTree t) l).hashed X, x ∈ S)
    (h2 : ∀ x ∈ (seriesTree limit (basicSize t) (valTree t) l').hashed X, x ∈ S)
    (e : (seriesTree limit (basicSize t) (valTree t) l).root X = (seriesTree limit (basicSize t) (valTree t) l').root X) : l = l' := by
  cases hb : basicSize t with
  | some k =>
    rw [hb] at h1 h2 e
    simp only [seriesTree] at h1 h2 e
    refine series_basic_inj hb h h' hlen ?_
    have hm : l.length * k ≤ limit * k := Nat.mul_le_mul_right k hl
    exact chunksTree_inj X hS (by rw [(flatMap_basic hb h).2, (flatMap_basic hb h').2, hlen]) (by rw [(flatMap_basic hb h).2]; omega) h1 h2 e
  | none =>
    rw [hb] at h1 h2 e
    simp only [seriesTree] at h1 h2 e
    have hch : ∀ (m : List Val) (i : Nat), (match m[i]? with | some v => valTree t v | none => Tree.leaf zeroRoot).Chunked := by
      intro m i
      cases m[i]? with
      | none => simp [Tree.Chunked, zeroRoot]
      | some v => exact valTree_chunked t v
    have key := perfect_roots X hS (hch l) (hch l') h1 h2 e
    apply List.ext_getElem?
    intro i
    by_cases hi : i < l.length
    · have hi' : i < l'.length := by omega
      have hlt : i < 2 ^ depthFor limit := Nat.lt_of_lt_of_le (by omega) (le_depthFor limit)
      have k1 := key i hlt
      have s1 := fun x hx => h1 x (hashed_perfect X hlt x hx)
      have s2 := fun x hx => h2 x (hashed_perfect X hlt x hx)
      have g1 : l[i]? = some l[i] := List.getElem?_eq_getElem hi
      have g2 : l'[i]? = some l'[i] := List.getElem?_eq_getElem hi'
      simp only [g1, g2] at k1 s1 s2 ⊢
      have hget : ∀ {m : List Val} {cs : List Bytes}, List.Forall₂ (fun v b => encode t v = some b) m cs → ∀ (hm : i < m.length), ∃ b, encode t m[i] = some b := by
        intro m cs hf hm
        exact ⟨_, hf.get hm (hf.length_eq ▸ hm)⟩
      obtain ⟨b, hb1⟩ := hget h hi
      obtain ⟨b', hb2⟩ := hget h' hi'
      rw [ih _ _ b b' hb1 hb2 s1 s2 k1]
    · rw [List.getElem?_eq_none (by omega), List.getElem?_eq_none (by omega)]

theorem bits_inj {l l' : List Bool} (hl : l.length = l'.length) (h : bitBytes l = bitBytes l') : l = l' := by
  unfold bitBytes at h
  rw [hl] at h
  have hb : ∀ m : List Bool, m.length = l'.length → Ssz.bitsNat m < 256 ^ ((l'.length + 7) / 8) := by
    intro m hm
    rw [Ssz.pow256]
    exact Nat.lt_of_lt_of_le (Ssz.bitsNat_lt m) (Nat.pow_le_pow_right (by decide) (by omega))
  have e := leBytes_inj (hb l hl) (hb l' rfl) h
  rw [← range_bitsNat l, ← range_bitsNat l', e, hl]

theorem bitBytes_length (l : List Bool) : (bitBytes l).length = (l.length + 7) / 8 := leBytes_length _ _

mutual
/-- Values of one type with the same root are the same, unless there is a collision. -/
theorem val_inj : ∀ (t : Typ), Typ.Limited t → ∀ {S : List Bytes}, NoCollisionOn X S → ∀ v v' b b', encode t v = some b → encode t v' = some b' →
    (∀ x ∈ (valTree t v).hashed X, x ∈ S) → (∀ x ∈ (valTree t v').hashed X, x ∈ S) → (valTree t v).root X = (valTree t v').root X → v = v'
  | .bytes n, _, S, hS => by
    intro v v' b b' h h' h1 h2 e
    obtain ⟨rfl, hl⟩ := bytes_of_encode h
    obtain ⟨rfl, hl'⟩ := bytes_of_encode h'
    simp only [valTree] at h1 h2 e
    rw [chunksTree_inj X hS (by rw [hl, hl']) (by omega) h1 h2 e]
  | .bool, _, S, hS => by
    intro v v' b b' h h' h1 h2 e
    cases v with
    | bool x =>
      cases v' with
      | bool y =>
        simp only [valTree, Tree.root, boolChunk] at e
        cases x <;> cases y <;> first | rfl | (simp at e)
      | _ => simp [encode] at h'
    | _ => simp [encode] at h
  | .bitvector n, _, S, hS => by
    intro v v' b b' h h' h1 h2 e
    cases v with
    | bits l =>
      cases v' with
      | bits l' =>
        simp only [encode] at h h'
        split at h
        · split at h'
          · rename_i hl hl'
            simp only [valTree] at h1 h2 e
            rw [bits_inj (by omega) (chunksTree_inj X hS (by rw [bitBytes_length, bitBytes_length, hl, hl']) (by rw [bitBytes_length]; omega) h1 h2 e)]
          · cases h'
        · cases h
      | _ => simp [encode] at h'
    | _ => simp [encode] at h
  | .bitlist limit, hlim, S, hS => by
    intro v v' b b' h h' h1 h2 e
    cases v with
    | bits l =>
      cases v' with
      | bits l' =>
        simp only [encode] at h h'
        split at h
        · split at h'
          · rename_i hl hl'
            simp only [Typ.Limited] at hlim
            simp only [valTree, Tree.root, Tree.hashed, List.mem_cons, List.mem_append] at h1 h2 e
            have e' := hS _ (h1 _ (.inl rfl)) _ (h2 _ (.inl rfl)) e
            obtain ⟨e1, e2⟩ := append_inj_32 (Tree.root_length X (chunksTree_chunked _ _)) (Tree.root_length X (chunksTree_chunked _ _)) e'
            have hll := u64Chunk_inj (by omega) (by omega) e2
            rw [bits_inj hll (chunksTree_inj X hS (by rw [bitBytes_length, bitBytes_length, hll]) (by rw [bitBytes_length]; omega)
              (fun x hx => h1 x (.inr (.inl hx))) (fun x hx => h2 x (.inr (.inl hx))) e1)]
          · cases h'
        · cases h
      | _ => simp [encode] at h'
    | _ => simp [encode] at h
  | .vector n t, hlim, S, hS => by
    intro v v' b b' h h' h1 h2 e
    cases v with
    | seq l =>
      cases v' with
      | seq l' =>
        simp only [encode] at h h'
        split at h
        · split at h'
          · rename_i hl hl'
            obtain ⟨bs, g1, _⟩ := Option.bind_eq_some_iff.1 h
            obtain ⟨bs', g2, _⟩ := Option.bind_eq_some_iff.1 h'
            simp only [Typ.Limited] at hlim
            simp only [valTree] at h1 h2 e
            rw [series_inj X hS (val_inj t hlim hS) (mapM_iff.1 g1) (mapM_iff.1 g2) (by omega) (by omega) h1 h2 e]
          · cases h'
        · cases h
      | _ => simp [encode] at h'
    | _ => simp [encode] at h
  | .list limit t, hlim, S, hS => by
    intro v v' b b' h h' h1 h2 e
    cases v with
    | seq l =>
      cases v' with
      | seq l' =>
        simp only [encode] at h h'
        split at h
        · split at h'
          · rename_i hl hl'
            obtain ⟨bs, g1, _⟩ := Option.bind_eq_some_iff.1 h
            obtain ⟨bs', g2, _⟩ := Option.bind_eq_some_iff.1 h'
            simp only [Typ.Limited] at hlim
            simp only [valTree, Tree.root, Tree.hashed, List.mem_cons, List.mem_append] at h1 h2 e
            have e' := hS _ (h1 _ (.inl rfl)) _ (h2 _ (.inl rfl)) e
            obtain ⟨e1, e2⟩ := append_inj_32 (Tree.root_length X (seriesTree_chunked (valTree_chunked t) _))
              (Tree.root_length X (seriesTree_chunked (valTree_chunked t) _)) e'
            have hll := u64Chunk_inj (by omega) (by omega) e2
            rw [series_inj X hS (val_inj t hlim.2 hS) (mapM_iff.1 g1) (mapM_iff.1 g2) hll hl
              (fun x hx => h1 x (.inr (.inl hx))) (fun x hx => h2 x (.inr (.inl hx))) e1]
          · cases h'
        · cases h
      | _ => simp [encode] at h'
    | _ => simp [encode] at h
  | .container ts, hlim, S, hS => by
    intro v v' b b' h h' h1 h2 e
    cases v with
    | seq l =>
      cases v' with
      | seq l' =>
        simp only [encode] at h h'
        obtain ⟨ps, g1, _⟩ := Option.bind_eq_some_iff.1 h
        obtain ⟨ps', g2, _⟩ := Option.bind_eq_some_iff.1 h'
        simp only [Typ.Limited] at hlim
        simp only [valTree, container] at h1 h2 e
        have hch : ∀ (m : List Val) (i : Nat), ((fieldTrees ts m).getD i (.leaf zeroRoot)).Chunked := by
          intro m i
          rw [List.getD_eq_getElem?_getD]
          cases hg : (fieldTrees ts m)[i]? with
          | none => simp [Tree.Chunked, zeroRoot]
          | some u => exact fieldTrees_chunked ts m u (List.mem_of_getElem? hg)
        have key := perfect_roots X hS (hch l) (hch l') h1 h2 e
        rw [fields_inj ts hlim hS l l' ps ps' g1 g2 (fun i hi => ?_)]
        have hlt : i < 2 ^ depthFor ts.length := Nat.lt_of_lt_of_le hi (le_depthFor _)
        exact ⟨key i hlt, fun x hx => h1 x (hashed_perfect X hlt x hx), fun x hx => h2 x (hashed_perfect X hlt x hx)⟩
      | _ => simp [encode] at h'
    | _ => simp [encode] at h

theorem fields_inj : ∀ (ts : List Typ), Typ.AllLimited ts → ∀ {S : List Bytes}, NoCollisionOn X S → ∀ vs vs' ps ps', encodeFields ts vs = some ps →
    encodeFields ts vs' = some ps' → (∀ i < ts.length, ((fieldTrees ts vs).getD i (.leaf zeroRoot)).root X = ((fieldTrees ts vs').getD i (.leaf zeroRoot)).root X ∧
      (∀ x ∈ ((fieldTrees ts vs).getD i (.leaf zeroRoot)).hashed X, x ∈ S) ∧ (∀ x ∈ ((fieldTrees ts vs').getD i (.leaf zeroRoot)).hashed X, x ∈ S)) →
    vs = vs'
  | [], _, S, hS => by
    intro vs vs' ps ps' h h' _
    cases vs with
    | nil =>
      cases vs' with
      | nil => rfl
      | cons v' vs' => simp [encodeFields] at h'
    | cons v vs => simp [encodeFields] at h
  | t :: ts, hlim, S, hS => by
    intro vs vs' ps ps' h h' hall
    cases vs with
    | nil => simp [encodeFields] at h
    | cons v vs =>
      cases vs' with
      | nil => simp [encodeFields] at h'
      | cons v' vs' =>
        simp only [encodeFields] at h h'
        obtain ⟨b, g1, g2⟩ := Option.bind_eq_some_iff.1 h
        obtain ⟨qs, g3, _⟩ := Option.bind_eq_some_iff.1 g2
        obtain ⟨b', g1', g2'⟩ := Option.bind_eq_some_iff.1 h'
        obtain ⟨qs', g3', _⟩ := Option.bind_eq_some_iff.1 g2'
        simp only [fieldTrees] at hall
        simp only [Typ.AllLimited] at hlim
        obtain ⟨a1, a2, a3⟩ := hall 0 (by simp)
        rw [val_inj t hlim.1 hS v v' b b' g1 g1' (by simpa using a2) (by simpa using a3) (by simpa using a1),
          fields_inj ts hlim.2 hS vs vs' qs qs' g3 g3' (fun i hi => by
            have := hall (i + 1) (by simpa using hi)
            simpa using this)]
end

end Signal.StateSsz
