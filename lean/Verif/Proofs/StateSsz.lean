import Verif.Spec.StateSsz
import Verif.Proofs.AttestationSsz

/-! Helper lemmas: the byte form of states. -/

namespace Signal.StateSsz
open Spec Ssz

/-! ## Sequences of parts -/

theorem heads_length (ps : List (Bool × Bytes)) : ∀ off, (heads off ps).length = headLength ps := by
  induction ps with
  | nil => intro off; rfl
  | cons p ps ih =>
    intro off
    obtain ⟨f, b⟩ := p
    cases f <;> simp [heads, headLength, ih]

theorem headLength_eq (ps : List (Bool × Bytes)) : headLength ps = (ps.map firstLength).sum := by
  induction ps with
  | nil => rfl
  | cons p ps ih =>
    obtain ⟨f, b⟩ := p
    cases f <;> simp [headLength, firstLength, ih]

theorem tails_eq (ps : List (Bool × Bytes)) : tails ps = (ps.map secondPart).flatten := by
  induction ps with
  | nil => rfl
  | cons p ps ih =>
    obtain ⟨f, b⟩ := p
    cases f <;> simp [tails, secondPart, ih]

theorem heads_eq (ps : List (Bool × Bytes)) : ∀ off,
    heads off ps = (ps.mapIdx fun i p => if p.1 then p.2 else leBytes 4 (off + ((ps.take i).map fun q => (secondPart q).length).sum)).flatten := by
  induction ps with
  | nil => intro off; rfl
  | cons p ps ih =>
    intro off
    obtain ⟨f, b⟩ := p
    rw [List.mapIdx_cons]
    cases f
    · simp only [heads, Bool.false_eq_true, if_false, List.flatten_cons, List.take_zero, List.map_nil, List.sum_nil, Nat.add_zero]
      rw [ih]
      congr 3
      funext i p
      simp [secondPart, Nat.add_assoc]
    · simp only [heads, if_true, List.flatten_cons]
      rw [ih]
      congr 3
      funext i p
      simp [secondPart]

theorem series_eq (ps : List (Bool × Bytes)) : series ps = heads (headLength ps) ps ++ tails ps := by
  rw [series, heads_eq, tails_eq, headLength_eq]

theorem assemble_iff (ps : List (Bool × Bytes)) (b : Bytes) : assemble ps = some b ↔ b = series ps ∧ b.length < 2 ^ 32 := by
  unfold assemble
  rw [← series_eq]
  constructor
  · intro h
    dsimp only at h
    split at h
    · cases h; exact ⟨rfl, by assumption⟩
    · cases h
  · rintro ⟨rfl, h⟩
    simp only [h, if_true]

/-- A part has the size of its type. -/
def Fits (size : Option Nat) (x : Bytes) : Prop := ∀ n, size = some n → x.length = n

/-- The parts with the question whether they are fixed. -/
def mark (sizes : List (Option Nat)) (bs : List Bytes) : List (Bool × Bytes) := List.zipWith (fun s x => (s.isSome, x)) sizes bs

theorem mark_head {sizes : List (Option Nat)} {bs : List Bytes} (h : List.Forall₂ Fits sizes bs) : headLength (mark sizes bs) = headSize sizes := by
  induction h with
  | nil => rfl
  | @cons s x ss xs hx _ ih =>
    cases s with
    | none => simp [mark, headLength, headSize] at *; omega
    | some n => have := hx n rfl; simp [mark, headLength, headSize] at *; omega

/-- What the heads say when the parts begin at `off`. -/
def pieces (off : Nat) : List (Bool × Bytes) → List (Bytes ⊕ Nat)
  | [] => []
  | (true, b) :: ps => .inl b :: pieces off ps
  | (false, b) :: ps => .inr off :: pieces (off + b.length) ps

theorem readHeads_heads {sizes : List (Option Nat)} {bs : List Bytes} (h : List.Forall₂ Fits sizes bs) (r : Bytes) : ∀ off,
    off + (tails (mark sizes bs)).length < 2 ^ 32 →
    readHeads sizes (heads off (mark sizes bs) ++ r) = some (pieces off (mark sizes bs)) := by
  induction h with
  | nil => intro off _; rfl
  | @cons s x ss xs hx _ ih =>
    intro off hoff
    cases s with
    | some n =>
      have hn := hx n rfl
      simp only [mark, List.zipWith_cons_cons, Option.isSome_some, heads, tails, pieces, readHeads] at *
      rw [if_neg (by simp; omega), List.append_assoc, ← hn, List.drop_left, List.take_left, ih off hoff]
      rfl
    | none =>
      simp only [mark, List.zipWith_cons_cons, Option.isSome_none, heads, tails, pieces, readHeads, List.length_append] at *
      have hl := leBytes_length 4 off
      rw [if_neg (by simp; omega), List.append_assoc, List.drop_left' hl, List.take_left' hl, ih (off + x.length) (by omega), ofLE_leBytes,
        Nat.mod_eq_of_lt (by omega)]
      rfl

theorem readTails_pieces (whole : Bytes) (ps : List (Bool × Bytes)) : ∀ off, off ≤ whole.length → whole.drop off = tails ps →
    readTails whole (pieces off ps) = some (ps.map Prod.snd, off) := by
  induction ps with
  | nil =>
    intro off h1 h2
    simp only [tails, List.drop_eq_nil_iff] at h2
    simp only [pieces, readTails, List.map_nil]
    rw [show whole.length = off by omega]
  | cons p ps ih =>
    intro off h1 h2
    obtain ⟨f, b⟩ := p
    cases f
    · simp only [tails] at h2
      have hl : off + b.length ≤ whole.length := by
        have := congrArg List.length h2
        simp at this; omega
      simp only [pieces, readTails, List.map_cons]
      rw [ih (off + b.length) hl (by rw [← List.drop_drop, h2, List.drop_left])]
      simp only [Option.bind_eq_bind, Option.bind_some]
      rw [if_pos (by omega), h2, Nat.add_sub_cancel_left, List.take_left]
      rfl
    · simp only [tails] at h2
      simp only [pieces, readTails, List.map_cons]
      rw [ih off h1 h2]
      rfl

theorem mark_snd {sizes : List (Option Nat)} {bs : List Bytes} (h : List.Forall₂ Fits sizes bs) : (mark sizes bs).map Prod.snd = bs := by
  induction h with
  | nil => rfl
  | cons _ _ ih => simp only [mark, List.zipWith_cons_cons, List.map_cons] at *; rw [ih]

theorem split_of {sizes : List (Option Nat)} {bs : List Bytes} (h : List.Forall₂ Fits sizes bs) {b : Bytes}
    (hb : assemble (mark sizes bs) = some b) : split sizes b = some bs := by
  obtain ⟨rfl, hlt⟩ := (assemble_iff _ _).1 hb
  rw [series_eq] at hlt ⊢
  rw [List.length_append, heads_length] at hlt
  unfold split
  rw [readHeads_heads h _ _ hlt]
  simp only [Option.bind_eq_bind, Option.bind_some]
  rw [readTails_pieces _ _ _ (by simp [heads_length]) (by rw [List.drop_left' (heads_length _ _)])]
  simp only [Option.bind_some, mark_head h, if_true, mark_snd h]
  rfl

/-- The bytes of what the heads say. -/
def pieceBytes : List (Bytes ⊕ Nat) → Bytes
  | [] => []
  | .inl x :: ps => x ++ pieceBytes ps
  | .inr o :: ps => leBytes 4 o ++ pieceBytes ps

/-- What the heads say fits the sizes. -/
inductive PieceFits : Option Nat → Bytes ⊕ Nat → Prop
  | fixed (x : Bytes) : PieceFits (some x.length) (.inl x)
  | offset (o : Nat) : PieceFits none (.inr o)

theorem readHeads_inv : ∀ {sizes : List (Option Nat)} {b : Bytes} {ps : List (Bytes ⊕ Nat)}, readHeads sizes b = some ps →
    List.Forall₂ PieceFits sizes ps ∧ headSize sizes ≤ b.length ∧ b = pieceBytes ps ++ b.drop (headSize sizes) := by
  intro sizes
  induction sizes with
  | nil =>
    intro b ps h
    cases h
    exact ⟨.nil, by simp [headSize], by simp [pieceBytes, headSize]⟩
  | cons s ss ih =>
    intro b ps h
    cases s with
    | some n =>
      simp only [readHeads] at h
      split at h
      · cases h
      · rename_i hl
        obtain ⟨rest, h1, h2⟩ := Option.bind_eq_some_iff.1 h
        cases h2
        obtain ⟨i1, i2, i3⟩ := ih h1
        have hn : (b.take n).length = n := by simp; omega
        have hs : headSize (some n :: ss) = n + headSize ss := by simp [headSize]
        refine ⟨.cons (by conv => lhs; rw [← hn]
                          exact .fixed _) i1, ?_, ?_⟩
        · rw [hs]; rw [List.length_drop] at i2; omega
        · rw [hs, pieceBytes, List.append_assoc, ← List.drop_drop, ← i3, List.take_append_drop]
    | none =>
      simp only [readHeads] at h
      split at h
      · cases h
      · rename_i hl
        obtain ⟨rest, h1, h2⟩ := Option.bind_eq_some_iff.1 h
        cases h2
        obtain ⟨i1, i2, i3⟩ := ih h1
        have hn : (b.take 4).length = 4 := by simp; omega
        have hs : headSize (none :: ss) = 4 + headSize ss := by simp [headSize]
        refine ⟨.cons (.offset _) i1, ?_, ?_⟩
        · rw [hs]; rw [List.length_drop] at i2; omega
        · rw [hs, pieceBytes]
          have := leBytes_ofLE (b.take 4)
          rw [hn] at this
          rw [this, List.append_assoc, ← List.drop_drop, ← i3, List.take_append_drop]

theorem readTails_inv : ∀ {sizes : List (Option Nat)} {ps : List (Bytes ⊕ Nat)}, List.Forall₂ PieceFits sizes ps → ∀ {b : Bytes} {l : List Bytes}
    {start : Nat}, readTails b ps = some (l, start) → List.Forall₂ Fits sizes l ∧ start ≤ b.length ∧ b.drop start = tails (mark sizes l) ∧
      pieceBytes ps = heads start (mark sizes l) := by
  intro sizes ps hf
  induction hf with
  | nil =>
    intro b l start h
    cases h
    exact ⟨.nil, Nat.le_refl _, by simp [mark, tails], rfl⟩
  | cons hp _ ih =>
    intro b l start h
    cases hp with
    | fixed x =>
      simp only [readTails] at h
      obtain ⟨⟨l', stop⟩, h1, h2⟩ := Option.bind_eq_some_iff.1 h
      cases h2
      obtain ⟨i1, i2, i3, i4⟩ := ih h1
      refine ⟨.cons (fun n hn => by cases hn; rfl) i1, i2, ?_, ?_⟩
      · simpa [mark, tails] using i3
      · simp only [mark, List.zipWith_cons_cons, Option.isSome_some, heads, pieceBytes] at *
        rw [i4]
    | offset o =>
      simp only [readTails] at h
      obtain ⟨⟨l', stop⟩, h1, h2⟩ := Option.bind_eq_some_iff.1 h
      obtain ⟨i1, i2, i3, i4⟩ := ih h1
      dsimp only at h2
      split at h2
      · rename_i hle
        cases h2
        refine ⟨.cons (fun n hn => by cases hn) i1, by omega, ?_, ?_⟩
        · simp only [mark, List.zipWith_cons_cons, Option.isSome_none, tails] at *
          rw [← i3]
          have : b.drop stop = (b.drop start).drop (stop - start) := by rw [List.drop_drop]; congr 1; omega
          rw [this, List.take_append_drop]
        · simp only [mark, List.zipWith_cons_cons, Option.isSome_none, heads, pieceBytes] at *
          rw [i4]
          congr 2
          simp; omega
      · cases h2

theorem split_inv {sizes : List (Option Nat)} {b : Bytes} {bs : List Bytes} (hb : b.length < 2 ^ 32) (h : split sizes b = some bs) :
    List.Forall₂ Fits sizes bs ∧ assemble (mark sizes bs) = some b := by
  unfold split at h
  obtain ⟨ps, h1, h2⟩ := Option.bind_eq_some_iff.1 h
  obtain ⟨⟨l, start⟩, h3, h4⟩ := Option.bind_eq_some_iff.1 h2
  dsimp only at h4
  split at h4
  · rename_i hs
    cases h4
    obtain ⟨i1, i2, i3⟩ := readHeads_inv h1
    obtain ⟨j1, j2, j3, j4⟩ := readTails_inv i1 h3
    refine ⟨j1, (assemble_iff _ _).2 ⟨?_, hb⟩⟩
    rw [series_eq, mark_head j1, ← hs, ← j3, ← j4, hs, ← i3]
  · cases h4

theorem split_iff {sizes : List (Option Nat)} {b : Bytes} {bs : List Bytes} (hb : b.length < 2 ^ 32) :
    split sizes b = some bs ↔ List.Forall₂ Fits sizes bs ∧ assemble (mark sizes bs) = some b :=
  ⟨split_inv hb, fun h => split_of h.1 h.2⟩

theorem mem_le_series {ps : List (Bool × Bytes)} {p : Bool × Bytes} (h : p ∈ ps) : p.2.length ≤ (series ps).length := by
  rw [series_eq, List.length_append, heads_length]
  induction ps with
  | nil => cases h
  | cons q ps ih =>
    obtain ⟨f, b⟩ := q
    rcases List.mem_cons.1 h with rfl | h
    · cases f <;> simp [headLength, tails] <;> omega
    · have := ih h
      cases f <;> simp [headLength, tails] <;> omega

/-! ## Types -/

mutual
theorem isFixed_eq : ∀ t : Typ, t.size.isSome = isFixed t
  | .bytes _ => rfl
  | .bool => rfl
  | .bitvector _ => rfl
  | .bitlist _ => rfl
  | .vector n t => by simp only [Typ.size, isFixed, Option.isSome_map, isFixed_eq t]
  | .list _ _ => rfl
  | .container ts => by simp only [Typ.size, isFixed, areFixed_eq ts]

theorem areFixed_eq : ∀ ts : List Typ, (Typ.sizes ts).isSome = areFixed ts
  | [] => rfl
  | t :: ts => by
    have h1 := isFixed_eq t
    have h2 := areFixed_eq ts
    simp only [Typ.sizes, areFixed, ← h1, ← h2]
    cases t.size <;> cases Typ.sizes ts <;> rfl
end

theorem mapM_iff {α β : Type} {f : α → Option β} : ∀ {l : List α} {bs : List β}, l.mapM f = some bs ↔ List.Forall₂ (fun a b => f a = some b) l bs := by
  intro l
  induction l with
  | nil => intro bs; cases bs <;> simp
  | cons a l ih =>
    intro bs
    rw [List.mapM_cons]
    constructor
    · intro h
      obtain ⟨b, h1, h2⟩ := Option.bind_eq_some_iff.1 h
      obtain ⟨bs', h3, h4⟩ := Option.bind_eq_some_iff.1 h2
      cases h4
      exact .cons h1 (ih.1 h3)
    · intro h
      cases h with
      | cons h1 h2 => rw [h1, ih.2 h2]; rfl

/-- All parts are of fixed size. -/
theorem headSize_sizes : ∀ {ts : List Typ} {n : Nat}, Typ.sizes ts = some n → headSize (ts.map Typ.size) = n ∧ ∀ s ∈ ts.map Typ.size, s.isSome := by
  intro ts
  induction ts with
  | nil => intro n h; cases h; exact ⟨rfl, by simp⟩
  | cons t ts ih =>
    intro n h
    simp only [Typ.sizes] at h
    obtain ⟨a, h1, h2⟩ := Option.bind_eq_some_iff.1 h
    obtain ⟨c, h3, h4⟩ := Option.bind_eq_some_iff.1 h2
    cases h4
    obtain ⟨i1, i2⟩ := ih h3
    constructor
    · simp only [headSize, List.map_cons, List.sum_cons, h1, Option.getD_some] at *
      rw [i1]
    · intro s hs
      rcases List.mem_cons.1 hs with rfl | hs
      · simp [h1]
      · exact i2 s hs

theorem tails_fixed {sizes : List (Option Nat)} (h : ∀ s ∈ sizes, s.isSome) (bs : List Bytes) : tails (mark sizes bs) = [] := by
  induction sizes generalizing bs with
  | nil => simp [mark, tails]
  | cons s ss ih =>
    cases bs with
    | nil => simp [mark, tails]
    | cons x bs =>
      have : s.isSome = true := h s List.mem_cons_self
      simp only [mark, List.zipWith_cons_cons, this, tails]
      exact ih (fun s hs => h s (List.mem_cons_of_mem _ hs)) bs

/-- A composite value of parts of fixed size has the sum of the sizes. -/
theorem assemble_fixed_length {sizes : List (Option Nat)} (hs : ∀ s ∈ sizes, s.isSome) {bs : List Bytes} (h : List.Forall₂ Fits sizes bs) {b : Bytes}
    (hb : assemble (mark sizes bs) = some b) : b.length = headSize sizes := by
  obtain ⟨rfl, _⟩ := (assemble_iff _ _).1 hb
  rw [series_eq, List.length_append, heads_length, tails_fixed hs, mark_head h]
  rfl

theorem forall₂_replicate {R : Option Nat → Bytes → Prop} {s : Option Nat} : ∀ {bs : List Bytes}, (∀ x ∈ bs, R s x) →
    List.Forall₂ R (List.replicate bs.length s) bs := by
  intro bs
  induction bs with
  | nil => intro _; exact .nil
  | cons x bs ih =>
    intro h
    exact .cons (h x List.mem_cons_self) (ih fun y hy => h y (List.mem_cons_of_mem _ hy))

theorem mark_replicate (s : Option Nat) (bs : List Bytes) : mark (List.replicate bs.length s) bs = bs.map (s.isSome, ·) := by
  induction bs with
  | nil => rfl
  | cons x bs ih => simp only [mark, List.length_cons, List.replicate_succ, List.zipWith_cons_cons, List.map_cons] at *; rw [ih]

theorem headSize_replicate (n : Nat) (s : Option Nat) : headSize (List.replicate n s) = n * s.getD 4 := by
  simp [headSize]

theorem forall₂_right {α β : Type} {R : α → β → Prop} {P : β → Prop} {l : List α} {bs : List β} (h : List.Forall₂ R l bs)
    (hP : ∀ a b, R a b → P b) : ∀ b ∈ bs, P b := by
  induction h with
  | nil => intro b hb; cases hb
  | cons h1 _ ih =>
    intro b hb
    rcases List.mem_cons.1 hb with rfl | hb
    · exact hP _ _ h1
    · exact ih b hb

theorem encodeFields_mark : ∀ {ts : List Typ} {vs : List Val} {parts : List (Bool × Bytes)}, encodeFields ts vs = some parts →
    parts = mark (ts.map Typ.size) (parts.map Prod.snd) ∧ vs.length = ts.length ∧ parts.length = ts.length := by
  intro ts
  induction ts with
  | nil =>
    intro vs parts h
    cases vs with
    | nil => simp only [encodeFields] at h; cases h; exact ⟨rfl, rfl, rfl⟩
    | cons v vs => simp [encodeFields] at h
  | cons t ts ih =>
    intro vs parts h
    cases vs with
    | nil => simp [encodeFields] at h
    | cons v vs =>
      simp only [encodeFields] at h
      obtain ⟨b, h1, h2⟩ := Option.bind_eq_some_iff.1 h
      obtain ⟨rest, h3, h4⟩ := Option.bind_eq_some_iff.1 h2
      cases h4
      obtain ⟨i1, i2, i3⟩ := ih h3
      refine ⟨?_, by simp [i2], by simp [i3]⟩
      simp only [List.map_cons, mark, List.zipWith_cons_cons] at i1 ⊢
      rw [← i1]

mutual
/-- An encoding has the size of its type. -/
theorem encode_size : ∀ (t : Typ) {v : Val} {b : Bytes} {n : Nat}, encode t v = some b → t.size = some n → b.length = n
  | .bytes m, v, b, n, h, hn => by
    cases v <;> simp only [encode, reduceCtorEq] at h
    split at h <;> cases h
    cases hn
    assumption
  | .bool, v, b, n, h, hn => by
    cases v <;> simp only [encode, reduceCtorEq] at h
    cases h; cases hn; rfl
  | .bitvector m, v, b, n, h, hn => by
    cases v <;> simp only [encode, reduceCtorEq] at h
    split at h <;> cases h
    cases hn
    exact leBytes_length _ _
  | .bitlist m, v, b, n, h, hn => by cases hn
  | .vector m t, v, b, n, h, hn => by
    cases v <;> simp only [encode, reduceCtorEq] at h
    split at h
    · obtain ⟨bs, h1, h2⟩ := Option.bind_eq_some_iff.1 h
      rename_i l hl
      simp only [Typ.size, Option.map_eq_some_iff] at hn
      obtain ⟨k, hk, rfl⟩ := hn
      have hf := mapM_iff.1 h1
      have hfits : ∀ x ∈ bs, Fits t.size x := forall₂_right hf fun a x hx n hn => encode_size t hx hn
      rw [← mark_replicate] at h2
      have := assemble_fixed_length (by intro s hs; rw [List.eq_of_mem_replicate hs, hk]; rfl) (forall₂_replicate hfits) h2
      rw [this, headSize_replicate, hk, ← hf.length_eq, hl]
      rfl
    · cases h
  | .list m t, v, b, n, h, hn => by cases hn
  | .container ts, v, b, n, h, hn => by
    cases v <;> simp only [encode, reduceCtorEq] at h
    obtain ⟨parts, h1, h2⟩ := Option.bind_eq_some_iff.1 h
    obtain ⟨hm, _, _⟩ := encodeFields_mark h1
    simp only [Typ.size] at hn
    obtain ⟨i1, i2⟩ := headSize_sizes hn
    rw [hm] at h2
    rw [assemble_fixed_length i2 (encodeFields_fits ts h1) h2, i1]

/-- The parts of a container have the sizes of their types. -/
theorem encodeFields_fits : ∀ (ts : List Typ) {vs : List Val} {parts : List (Bool × Bytes)}, encodeFields ts vs = some parts →
    List.Forall₂ Fits (ts.map Typ.size) (parts.map Prod.snd)
  | [], vs, parts, h => by
    cases vs with
    | nil => simp only [encodeFields] at h; cases h; exact .nil
    | cons v vs => simp [encodeFields] at h
  | t :: ts, vs, parts, h => by
    cases vs with
    | nil => simp [encodeFields] at h
    | cons v vs =>
      simp only [encodeFields] at h
      obtain ⟨b, h1, h2⟩ := Option.bind_eq_some_iff.1 h
      obtain ⟨rest, h3, h4⟩ := Option.bind_eq_some_iff.1 h2
      cases h4
      exact .cons (fun n hn => encode_size t h1 hn) (encodeFields_fits ts h3)
end

/-! ## Bits -/

theorem bitsNat_range {x n : Nat} (h : x < 2 ^ n) : bitsNat ((List.range n).map x.testBit) = x := by
  apply Nat.eq_of_testBit_eq
  intro i
  rw [bitsNat_testBit, List.getD_eq_getElem?_getD]
  by_cases hi : i < n
  · simp [hi]
  · have : x.testBit i = false := Nat.testBit_lt_two_pow (Nat.lt_of_lt_of_le h (Nat.pow_le_pow_right (by decide) (by omega)))
    simp [hi, this]

theorem range_bitsNat (l : List Bool) : (List.range l.length).map (bitsNat l).testBit = l := by
  apply List.ext_getElem (by simp)
  intro i h1 h2
  simp [bitsNat_testBit, List.getD_eq_getElem?_getD, h2]

theorem bitvector_iff (n : Nat) (l : List Bool) (b : Bytes) : decode (.bitvector n) b = some (.bits l) ↔ encode (.bitvector n) (.bits l) = some b := by
  simp only [decode, encode]
  constructor
  · intro h
    split at h
    · rename_i hb
      cases h
      rw [if_pos (by simp), bitsNat_range hb.2, ← hb.1, leBytes_ofLE]
    · cases h
  · intro h
    split at h
    · rename_i hl
      cases h
      have hlt : bitsNat l < 2 ^ n := hl ▸ bitsNat_lt l
      have : ofLE (leBytes ((n + 7) / 8) (bitsNat l)) = bitsNat l := by
        rw [ofLE_leBytes, Nat.mod_eq_of_lt]
        rw [pow256]
        exact Nat.lt_of_lt_of_le hlt (Nat.pow_le_pow_right (by decide) (by omega))
      rw [this, if_pos ⟨leBytes_length _ _, hlt⟩]
      subst hl
      rw [range_bitsNat]
    · cases h

theorem bitlist_iff (limit : Nat) (l : List Bool) (b : Bytes) : decode (.bitlist limit) b = some (.bits l) ↔ encode (.bitlist limit) (.bits l) = some b := by
  simp only [decode, encode, Option.map_eq_some_iff]
  constructor
  · rintro ⟨l', h1, h2⟩
    cases h2
    have h := (decodeBitlist_iff limit b l).1 h1
    rw [if_pos h.limit, SszBitlist.unique h (encodeBitlist_spec l h.limit)]
  · intro h
    split at h
    · rename_i hl
      cases h
      exact ⟨l, (decodeBitlist_iff limit _ l).2 (encodeBitlist_spec l hl), rfl⟩
    · cases h

/-! ## Lists -/

theorem count_of {t : Typ} (hw : t.size ≠ some 0) {bs : List Bytes} (hf : ∀ x ∈ bs, Fits t.size x) {b : Bytes}
    (h : assemble (bs.map (t.size.isSome, ·)) = some b) : count t b = some bs.length := by
  unfold count
  cases hs : t.size with
  | some k =>
    rw [hs] at hw
    have hk : k ≠ 0 := fun h => hw (by rw [h])
    rw [← mark_replicate] at h
    have hl := assemble_fixed_length (by intro s hs'; rw [List.eq_of_mem_replicate hs', hs]; rfl) (forall₂_replicate hf) h
    rw [headSize_replicate, hs, Option.getD_some] at hl
    have : ¬ (k = 0 ∨ b.length % k ≠ 0) := by rw [hl]; simp [hk]
    simp only [this, if_false]
    rw [hl, Nat.mul_div_cancel _ (Nat.pos_of_ne_zero hk)]
  | none =>
    rw [hs] at h
    obtain ⟨rfl, hlt⟩ := (assemble_iff _ _).1 h
    cases bs with
    | nil => rfl
    | cons x xs =>
      have hl : headLength ((x :: xs).map ((none : Option Nat).isSome, ·)) = 4 * (xs.length + 1) := by
        have : ∀ ys : List Bytes, headLength (ys.map ((none : Option Nat).isSome, ·)) = 4 * ys.length := by
          intro ys
          induction ys with
          | nil => rfl
          | cons y ys ih => simp only [List.map_cons, Option.isSome_none, headLength, List.length_cons] at *; rw [ih]; omega
        exact this _
      rw [series_eq, hl] at hlt ⊢
      rw [List.length_append, heads_length, hl] at hlt
      have htake : (heads (4 * (xs.length + 1)) ((x :: xs).map ((none : Option Nat).isSome, ·)) ++
          tails ((x :: xs).map ((none : Option Nat).isSome, ·))).take 4 = leBytes 4 (4 * (xs.length + 1)) := by
        simp only [List.map_cons, Option.isSome_none, heads, List.append_assoc]
        rw [List.take_left' (leBytes_length _ _)]
      have hv : ofLE (leBytes 4 (4 * (xs.length + 1))) = 4 * (xs.length + 1) := by
        rw [ofLE_leBytes, Nat.mod_eq_of_lt (by omega)]
      have hlen := congrArg List.length htake
      rw [List.length_take, leBytes_length] at hlen
      simp only
      rw [if_neg, if_neg, htake, hv]
      · simp
      · rw [htake, hv]; omega
      · intro h0; rw [h0] at hlen; simp at hlen

/-! ## Decoding is the inverse of encoding -/

theorem forall₂_decode {t : Typ} (ih : ∀ v x, x.length < 2 ^ 32 → (decode t x = some v ↔ encode t v = some x)) :
    ∀ {l : List Val} {bs : List Bytes}, (∀ x ∈ bs, x.length < 2 ^ 32) → (bs.mapM (decode t) = some l ↔ l.mapM (encode t) = some bs) := by
  intro l bs hb
  rw [mapM_iff, mapM_iff]
  constructor
  · intro h
    induction h with
    | nil => exact .nil
    | cons h1 _ ih' => exact .cons ((ih _ _ (hb _ List.mem_cons_self)).1 h1) (ih' fun x hx => hb x (List.mem_cons_of_mem _ hx))
  · intro h
    induction h with
    | nil => exact .nil
    | cons h1 _ ih' => exact .cons ((ih _ _ (hb _ List.mem_cons_self)).2 h1) (ih' fun x hx => hb x (List.mem_cons_of_mem _ hx))

theorem part_short {sizes : List (Option Nat)} {bs : List Bytes} (hf : List.Forall₂ Fits sizes bs) {b : Bytes} (hb : b.length < 2 ^ 32)
    (h : assemble (mark sizes bs) = some b) : ∀ x ∈ bs, x.length < 2 ^ 32 := by
  intro x hx
  obtain ⟨rfl, _⟩ := (assemble_iff _ _).1 h
  rw [← mark_snd hf] at hx
  obtain ⟨p, hp, rfl⟩ := List.mem_map.1 hx
  exact Nat.lt_of_le_of_lt (mem_le_series hp) hb

theorem seq_iff {t : Typ} (ih : ∀ v x, x.length < 2 ^ 32 → (decode t x = some v ↔ encode t v = some x)) {n : Nat} {l : List Val} {b : Bytes}
    (hb : b.length < 2 ^ 32) :
    (∃ parts, split (List.replicate n t.size) b = some parts ∧ parts.mapM (decode t) = some l) ↔
    l.length = n ∧ ∃ bs, l.mapM (encode t) = some bs ∧ assemble (bs.map (t.size.isSome, ·)) = some b := by
  constructor
  · rintro ⟨parts, h1, h2⟩
    obtain ⟨hf, ha⟩ := (split_iff hb).1 h1
    have hn : n = parts.length := by have := hf.length_eq; simpa using this
    subst hn
    have hs := part_short hf hb ha
    rw [mark_replicate] at ha
    have he := (forall₂_decode ih hs).1 h2
    exact ⟨(mapM_iff.1 he).length_eq, parts, he, ha⟩
  · rintro ⟨rfl, bs, h1, h2⟩
    have hf := mapM_iff.1 h1
    have hfits : ∀ x ∈ bs, Fits t.size x := forall₂_right hf fun a x hx n hn => encode_size t hx hn
    have hr := forall₂_replicate hfits
    rw [← mark_replicate] at h2
    have hs := part_short hr hb h2
    rw [hf.length_eq]
    exact ⟨bs, (split_iff hb).2 ⟨hr, h2⟩, (forall₂_decode ih hs).2 h1⟩

mutual
/-- Decoding is the inverse of encoding. -/
theorem decode_iff : ∀ (t : Typ), Typ.WF t → ∀ (v : Val) (b : Bytes), b.length < 2 ^ 32 → (decode t b = some v ↔ encode t v = some b)
  | .bytes n, _, v, b, _ => by
    cases v <;> simp only [decode, encode]
    · rename_i x
      constructor
      · intro h; split at h <;> cases h; rename_i hl; rw [if_pos hl]
      · intro h; split at h <;> cases h; rename_i hl; rw [if_pos hl]
    all_goals
      constructor
      · intro h; split at h <;> cases h
      · intro h; cases h
  | .bool, _, v, b, _ => by
    simp only [decode]
    by_cases h0 : b = [0]
    · subst h0
      cases v with
      | bool x => cases x <;> simp [encode]
      | _ => simp [encode]
    · by_cases h1 : b = [1]
      · subst h1
        cases v with
        | bool x => cases x <;> simp [encode]
        | _ => simp [encode]
      · rw [if_neg h0, if_neg h1]
        cases v with
        | bool x => cases x <;> simp [encode, Ne.symm h0, Ne.symm h1]
        | _ => simp [encode]
  | .bitvector n, _, v, b, _ => by
    cases v with
    | bits l => exact bitvector_iff n l b
    | _ =>
      simp only [decode, encode]
      constructor
      · intro h; split at h <;> cases h
      · intro h; cases h
  | .bitlist n, _, v, b, _ => by
    cases v with
    | bits l => exact bitlist_iff n l b
    | _ =>
      simp only [decode, encode]
      constructor
      · intro h; obtain ⟨_, _, h⟩ := Option.map_eq_some_iff.1 h; cases h
      · intro h; cases h
  | .vector n t, hw, v, b, hb => by
    have key := fun l => seq_iff (decode_iff t hw) (n := n) (l := l) hb
    cases v with
    | seq l =>
      simp only [decode, encode]
      constructor
      · intro h
        obtain ⟨parts, h1, h2⟩ := Option.bind_eq_some_iff.1 h
        obtain ⟨l', h3, h4⟩ := Option.bind_eq_some_iff.1 h2
        cases h4
        obtain ⟨k1, bs, k2, k3⟩ := (key l).1 ⟨parts, h1, h3⟩
        rw [if_pos k1, k2]; exact k3
      · intro h
        split at h
        · rename_i hl
          obtain ⟨bs, h1, h2⟩ := Option.bind_eq_some_iff.1 h
          obtain ⟨parts, k1, k2⟩ := (key l).2 ⟨hl, bs, h1, h2⟩
          rw [k1]
          simp only [Option.bind_eq_bind, Option.bind_some]
          rw [k2]; rfl
        · cases h
    | _ =>
      simp only [decode, encode]
      constructor
      · intro h
        obtain ⟨parts, h1, h2⟩ := Option.bind_eq_some_iff.1 h
        obtain ⟨l', h3, h4⟩ := Option.bind_eq_some_iff.1 h2
        cases h4
      · intro h; cases h
  | .list limit t, hw, v, b, hb => by
    cases v with
    | seq l =>
      simp only [decode, encode]
      constructor
      · intro h
        obtain ⟨n, h0, h⟩ := Option.bind_eq_some_iff.1 h
        split at h
        · cases h
        · obtain ⟨parts, h1, h2⟩ := Option.bind_eq_some_iff.1 h
          obtain ⟨l', h3, h4⟩ := Option.bind_eq_some_iff.1 h2
          cases h4
          obtain ⟨k1, bs, k2, k3⟩ := (seq_iff (decode_iff t hw.2) (n := n) (l := l) hb).1 ⟨parts, h1, h3⟩
          rw [if_pos (by omega), k2]; exact k3
      · intro h
        split at h
        · rename_i hl
          obtain ⟨bs, h1, h2⟩ := Option.bind_eq_some_iff.1 h
          have hf := mapM_iff.1 h1
          have hc := count_of hw.1 (forall₂_right hf fun a x hx n hn => encode_size t hx hn) h2
          obtain ⟨parts, k1, k2⟩ := (seq_iff (decode_iff t hw.2) (n := l.length) (l := l) hb).2 ⟨rfl, bs, h1, h2⟩
          rw [hc, ← hf.length_eq]
          simp only [Option.bind_eq_bind, Option.bind_some]
          rw [if_neg (by omega), k1]
          simp only [Option.bind_some]
          rw [k2]; rfl
        · cases h
    | _ =>
      simp only [decode, encode]
      constructor
      · intro h
        obtain ⟨n, h0, h⟩ := Option.bind_eq_some_iff.1 h
        split at h
        · cases h
        · obtain ⟨parts, h1, h2⟩ := Option.bind_eq_some_iff.1 h
          obtain ⟨l', h3, h4⟩ := Option.bind_eq_some_iff.1 h2
          cases h4
      · intro h; cases h
  | .container ts, hw, v, b, hb => by
    cases v with
    | seq l =>
      simp only [decode, encode]
      constructor
      · intro h
        obtain ⟨parts, h1, h2⟩ := Option.bind_eq_some_iff.1 h
        obtain ⟨l', h3, h4⟩ := Option.bind_eq_some_iff.1 h2
        cases h4
        obtain ⟨hf, ha⟩ := (split_iff hb).1 h1
        rw [(decodeFields_iff ts hw l parts (by simpa using hf.length_eq.symm) (part_short hf hb ha)).1 h3]
        exact ha
      · intro h
        obtain ⟨parts, h1, h2⟩ := Option.bind_eq_some_iff.1 h
        obtain ⟨hm, _, hlen⟩ := encodeFields_mark h1
        have hf := encodeFields_fits ts h1
        rw [hm] at h2
        rw [(split_iff hb).2 ⟨hf, h2⟩]
        simp only [Option.bind_eq_bind, Option.bind_some]
        rw [(decodeFields_iff ts hw l (parts.map Prod.snd) (by simpa using hlen) (part_short hf hb h2)).2 (by rw [← hm]; exact h1)]
        rfl
    | _ =>
      simp only [decode, encode]
      constructor
      · intro h
        obtain ⟨parts, h1, h2⟩ := Option.bind_eq_some_iff.1 h
        obtain ⟨l', h3, h4⟩ := Option.bind_eq_some_iff.1 h2
        cases h4
      · intro h; cases h

theorem decodeFields_iff : ∀ (ts : List Typ), Typ.WFs ts → ∀ (vs : List Val) (bs : List Bytes), bs.length = ts.length → (∀ x ∈ bs, x.length < 2 ^ 32) →
    (decodeFields ts bs = some vs ↔ encodeFields ts vs = some (mark (ts.map Typ.size) bs))
  | [], _, vs, bs, hl, _ => by
    cases bs with
    | cons x bs => simp at hl
    | nil =>
      cases vs with
      | nil => simp [decodeFields, encodeFields, mark]
      | cons v vs => simp [decodeFields, encodeFields, mark]
  | t :: ts, hw, vs, bs, hl, hb => by
    cases bs with
    | nil => simp at hl
    | cons x bs =>
      have hlx := hb x List.mem_cons_self
      have key := decodeFields_iff ts hw.2
      cases vs with
      | nil =>
        simp only [decodeFields, encodeFields]
        constructor
        · intro h
          obtain ⟨v, h1, h2⟩ := Option.bind_eq_some_iff.1 h
          obtain ⟨l', h3, h4⟩ := Option.bind_eq_some_iff.1 h2
          cases h4
        · intro h; cases h
      | cons v vs =>
        have key := decodeFields_iff ts hw.2 vs bs (by simpa using hl) (fun y hy => hb y (List.mem_cons_of_mem _ hy))
        simp only [decodeFields, encodeFields]
        constructor
        · intro h
          obtain ⟨v', h1, h2⟩ := Option.bind_eq_some_iff.1 h
          obtain ⟨vs', h3, h4⟩ := Option.bind_eq_some_iff.1 h2
          cases h4
          rw [(decode_iff t hw.1 v x hlx).1 h1, key.1 h3]
          rfl
        · intro h
          obtain ⟨b, h1, h2⟩ := Option.bind_eq_some_iff.1 h
          obtain ⟨rest, h3, h4⟩ := Option.bind_eq_some_iff.1 h2
          simp only [List.map_cons, mark, List.zipWith_cons_cons] at h4
          injection h4 with h4
          injection h4 with h5 h6
          injection h5 with _ h5
          subst h5
          rw [(decode_iff t hw.1 v b hlx).2 h1]
          have := key.2 (by rw [h3, h6]; rfl)
          simp only [Option.bind_eq_bind, Option.bind_some]
          rw [this]; rfl
end

/-! ## Encoding is the relation of the specification -/

theorem bitvector_ssz (n : Nat) (l : List Bool) (b : Bytes) : encode (.bitvector n) (.bits l) = some b ↔ Ssz (.bitvector n) (.bits l) b := by
  simp only [encode, Ssz]
  constructor
  · intro h
    split at h
    · rename_i hl
      cases h
      have hlt : bitsNat l < 2 ^ n := hl ▸ bitsNat_lt l
      have hv : ofLE (leBytes ((n + 7) / 8) (bitsNat l)) = bitsNat l := by
        rw [ofLE_leBytes, Nat.mod_eq_of_lt]
        rw [pow256]
        exact Nat.lt_of_lt_of_le hlt (Nat.pow_le_pow_right (by decide) (by omega))
      refine ⟨hl, leBytes_length _ _, ?_, ?_⟩
      · intro i hi
        rw [bitAt_eq, hv, bitsNat_testBit, List.getD_eq_getElem?_getD]
        simp [hi]
      · intro i hi
        rw [bitAt_eq, hv, bitsNat_testBit, List.getD_eq_getElem?_getD, List.getElem?_eq_none (by omega)]
        rfl
    · cases h
  · rintro ⟨hl, hb, h1, h2⟩
    rw [if_pos hl]
    congr 1
    have hlt : bitsNat l < 2 ^ n := hl ▸ bitsNat_lt l
    have hv : ofLE (leBytes ((n + 7) / 8) (bitsNat l)) = bitsNat l := by
      rw [ofLE_leBytes, Nat.mod_eq_of_lt]
      rw [pow256]
      exact Nat.lt_of_lt_of_le hlt (Nat.pow_le_pow_right (by decide) (by omega))
    apply eq_of_bits (by rw [hb, leBytes_length])
    intro i
    rw [bitAt_eq, hv, bitsNat_testBit, List.getD_eq_getElem?_getD]
    by_cases hi : i < l.length
    · rw [h1 i hi]; simp [hi]
    · rw [h2 i (by omega), List.getElem?_eq_none (by omega)]; rfl

theorem bitlist_ssz (limit : Nat) (l : List Bool) (b : Bytes) : encode (.bitlist limit) (.bits l) = some b ↔ Ssz (.bitlist limit) (.bits l) b := by
  simp only [encode, Ssz]
  constructor
  · intro h
    split at h
    · rename_i hl
      cases h
      exact encodeBitlist_spec l hl
    · cases h
  · intro h
    rw [if_pos h.limit, SszBitlist.unique h (encodeBitlist_spec l h.limit)]

theorem forall₂_congr {α β : Type} {R S : α → β → Prop} (h : ∀ a b, R a b ↔ S a b) {l : List α} {bs : List β} :
    List.Forall₂ R l bs ↔ List.Forall₂ S l bs := by
  have : R = S := by funext a b; exact propext (h a b)
  rw [this]

mutual
theorem encode_ssz : ∀ (t : Typ) (v : Val) (b : Bytes), encode t v = some b ↔ Ssz t v b
  | .bytes n, v, b => by
    cases v with
    | bytes x =>
      simp only [encode, Ssz]
      constructor
      · intro h; split at h <;> cases h; exact ⟨by assumption, rfl⟩
      · rintro ⟨h, rfl⟩; rw [if_pos h]
    | _ => simp [encode, Ssz]
  | .bool, v, b => by
    cases v with
    | bool x => simp only [encode, Ssz, Option.some.injEq]; exact eq_comm
    | _ => simp [encode, Ssz]
  | .bitvector n, v, b => by
    cases v with
    | bits l => exact bitvector_ssz n l b
    | _ => simp [encode, Ssz]
  | .bitlist n, v, b => by
    cases v with
    | bits l => exact bitlist_ssz n l b
    | _ => simp [encode, Ssz]
  | .vector n t, v, b => by
    cases v with
    | seq l =>
      have key := fun bs => forall₂_congr (encode_ssz t) (l := l) (bs := bs)
      simp only [encode, Ssz, ← isFixed_eq]
      constructor
      · intro h
        split at h
        · obtain ⟨bs, h1, h2⟩ := Option.bind_eq_some_iff.1 h
          exact ⟨by assumption, bs, (key bs).1 (mapM_iff.1 h1), (assemble_iff _ _).1 h2⟩
        · cases h
      · rintro ⟨hl, bs, h1, h2⟩
        rw [if_pos hl, mapM_iff.2 ((key bs).2 h1)]
        exact (assemble_iff _ _).2 h2
    | _ => simp [encode, Ssz]
  | .list n t, v, b => by
    cases v with
    | seq l =>
      have key := fun bs => forall₂_congr (encode_ssz t) (l := l) (bs := bs)
      simp only [encode, Ssz, ← isFixed_eq]
      constructor
      · intro h
        split at h
        · obtain ⟨bs, h1, h2⟩ := Option.bind_eq_some_iff.1 h
          exact ⟨by assumption, bs, (key bs).1 (mapM_iff.1 h1), (assemble_iff _ _).1 h2⟩
        · cases h
      · rintro ⟨hl, bs, h1, h2⟩
        rw [if_pos hl, mapM_iff.2 ((key bs).2 h1)]
        exact (assemble_iff _ _).2 h2
    | _ => simp [encode, Ssz]
  | .container ts, v, b => by
    cases v with
    | seq l =>
      simp only [encode, Ssz]
      constructor
      · intro h
        obtain ⟨parts, h1, h2⟩ := Option.bind_eq_some_iff.1 h
        exact ⟨parts, (encodeFields_ssz ts l parts).1 h1, (assemble_iff _ _).1 h2⟩
      · rintro ⟨parts, h1, h2⟩
        rw [(encodeFields_ssz ts l parts).2 h1]
        exact (assemble_iff _ _).2 h2
    | _ => simp [encode, Ssz]

theorem encodeFields_ssz : ∀ (ts : List Typ) (vs : List Val) (parts : List (Bool × Bytes)), encodeFields ts vs = some parts ↔ SszFields ts vs parts
  | [], vs, parts => by
    cases vs with
    | nil => simp only [encodeFields, SszFields, Option.some.injEq]; exact eq_comm
    | cons v vs => simp [encodeFields, SszFields]
  | t :: ts, vs, parts => by
    cases vs with
    | nil => simp [encodeFields, SszFields]
    | cons v vs =>
      simp only [encodeFields, SszFields, ← isFixed_eq]
      constructor
      · intro h
        obtain ⟨b, h1, h2⟩ := Option.bind_eq_some_iff.1 h
        obtain ⟨rest, h3, h4⟩ := Option.bind_eq_some_iff.1 h2
        cases h4
        exact ⟨b, rest, rfl, (encode_ssz t v b).1 h1, (encodeFields_ssz ts vs rest).1 h3⟩
      · rintro ⟨b, rest, rfl, h1, h2⟩
        rw [(encode_ssz t v b).2 h1, (encodeFields_ssz ts vs rest).2 h2]
        rfl
end

/-! ## The first offset -/

theorem readHeads_offset {post : List (Option Nat)} {whole : Bytes} : ∀ {pre : List (Option Nat)}, (∀ s ∈ pre, s.isSome) → ∀ {b : Bytes}
    {ps : List (Bytes ⊕ Nat)} {l : List Bytes} {start : Nat}, readHeads (pre ++ none :: post) b = some ps → readTails whole ps = some (l, start) →
    start = ofLE ((b.drop (headSize pre)).take 4) := by
  intro pre
  induction pre with
  | nil =>
    intro _ b ps l start h1 h2
    simp only [List.nil_append, readHeads] at h1
    split at h1
    · cases h1
    · obtain ⟨rest, _, h3⟩ := Option.bind_eq_some_iff.1 h1
      cases h3
      simp only [readTails] at h2
      obtain ⟨⟨l', stop⟩, _, h5⟩ := Option.bind_eq_some_iff.1 h2
      dsimp only at h5
      split at h5 <;> cases h5
      simp [headSize]
  | cons s pre ih =>
    intro hs b ps l start h1 h2
    have := hs s List.mem_cons_self
    cases s with
    | none => cases this
    | some n =>
      simp only [List.cons_append, readHeads] at h1
      split at h1
      · cases h1
      · obtain ⟨rest, h3, h4⟩ := Option.bind_eq_some_iff.1 h1
        cases h4
        simp only [readTails] at h2
        obtain ⟨⟨l', stop⟩, h5, h6⟩ := Option.bind_eq_some_iff.1 h2
        cases h6
        rw [ih (fun s hs' => hs s (List.mem_cons_of_mem _ hs')) h3 h5, List.drop_drop]
        congr 3

/-- The first offset of a container is the length of its first part. -/
theorem container_offset {ts : List Typ} {b : Bytes} {v : Val} (h : decode (.container ts) b = some v) {pre post : List (Option Nat)}
    (hts : ts.map Typ.size = pre ++ none :: post) (hpre : ∀ s ∈ pre, s.isSome) :
    ofLE ((b.drop (headSize pre)).take 4) = headSize (ts.map Typ.size) := by
  simp only [decode] at h
  obtain ⟨parts, h1, _⟩ := Option.bind_eq_some_iff.1 h
  unfold split at h1
  obtain ⟨ps, h2, h3⟩ := Option.bind_eq_some_iff.1 h1
  obtain ⟨⟨l, start⟩, h4, h5⟩ := Option.bind_eq_some_iff.1 h3
  dsimp only at h5
  split at h5
  · rename_i hs
    rw [← hs]
    rw [hts] at h2
    exact (readHeads_offset hpre h2 h4).symm
  · cases h5

theorem decodeFields_get : ∀ {ts : List Typ} {bs : List Bytes} {vs : List Val}, decodeFields ts bs = some vs → ∀ {i : Nat} {t : Typ}, ts[i]? = some t →
    ∃ x v, bs[i]? = some x ∧ decode t x = some v := by
  intro ts
  induction ts with
  | nil => intro bs vs _ i t h; simp at h
  | cons t ts ih =>
    intro bs vs h i t' ht
    cases bs with
    | nil => simp [decodeFields] at h
    | cons x bs =>
      simp only [decodeFields] at h
      obtain ⟨v, h1, h2⟩ := Option.bind_eq_some_iff.1 h
      obtain ⟨vs', h3, h4⟩ := Option.bind_eq_some_iff.1 h2
      cases i with
      | zero => simp only [List.length_cons, Nat.zero_lt_succ, getElem?_pos, List.getElem_cons_zero, Option.some.injEq] at ht; subst ht; exact ⟨x, v, rfl, h1⟩
      | succ i =>
        obtain ⟨y, w, h5, h6⟩ := ih h3 (i := i) (t := t') (by simpa using ht)
        exact ⟨y, w, by simpa using h5, h6⟩

/-! ## Files that are cut off -/

theorem forall₂_split {α β : Type} {R : α → β → Prop} {x : α} {l2 : List α} : ∀ {l1 : List α} {ps : List β}, List.Forall₂ R (l1 ++ x :: l2) ps →
    ∃ A y C, ps = A ++ y :: C ∧ List.Forall₂ R l1 A ∧ R x y ∧ List.Forall₂ R l2 C := by
  intro l1
  induction l1 with
  | nil =>
    intro ps h
    cases h with
    | cons h1 h2 => exact ⟨[], _, _, rfl, .nil, h1, h2⟩
  | cons a l1 ih =>
    intro ps h
    cases h with
    | cons h1 h2 =>
      obtain ⟨A, y, C, rfl, i1, i2, i3⟩ := ih h2
      exact ⟨_ :: A, y, C, rfl, .cons h1 i1, i2, i3⟩

theorem readTails_fixed {sizes : List (Option Nat)} {ps : List (Bytes ⊕ Nat)} (h : List.Forall₂ PieceFits sizes ps) (hs : ∀ s ∈ sizes, s.isSome) :
    ∃ l, l.length = ps.length ∧ ∀ b, readTails b ps = some (l, b.length) := by
  induction h with
  | nil => exact ⟨[], rfl, fun _ => rfl⟩
  | cons h1 _ ih =>
    cases h1 with
    | offset o => exact absurd (hs none List.mem_cons_self) (by simp)
    | fixed x =>
      obtain ⟨l, hl, h⟩ := ih fun s hs' => hs s (List.mem_cons_of_mem _ hs')
      exact ⟨x :: l, by simp [hl], fun b => by simp only [readTails]; rw [h b]; rfl⟩

theorem readTails_none {b : Bytes} {R : List (Bytes ⊕ Nat)} (h : readTails b R = none) : ∀ A, readTails b (A ++ R) = none := by
  intro A
  induction A with
  | nil => exact h
  | cons a A ih => cases a <;> simp only [List.cons_append, readTails] <;> rw [ih] <;> rfl

theorem readTails_cut {b : Bytes} {k o : Nat} {R : List (Bytes ⊕ Nat)} {x x' : Bytes} {cs : List Bytes} (ho : o ≤ k)
    (h : readTails b R = some (x :: cs, o)) (h' : readTails (b.take k) R = some (x' :: cs, o)) : ∀ A,
    (readTails b (A ++ R) = none) ∨ ∃ as s, s ≤ o ∧ as.length = A.length ∧ readTails b (A ++ R) = some (as ++ x :: cs, s) ∧
      readTails (b.take k) (A ++ R) = some (as ++ x' :: cs, s) := by
  intro A
  induction A with
  | nil => exact .inr ⟨[], o, Nat.le_refl _, rfl, h, h'⟩
  | cons a A ih =>
    rcases ih with h1 | ⟨as, s, h2, h3, h4, h5⟩
    · left
      cases a <;> simp only [List.cons_append, readTails] <;> rw [h1] <;> rfl
    · cases a with
      | inl y =>
        right
        refine ⟨y :: as, s, h2, by simp [h3], ?_, ?_⟩
        · simp only [List.cons_append, readTails]; rw [h4]; rfl
        · simp only [List.cons_append, readTails]; rw [h5]; rfl
      | inr a =>
        by_cases ha : a ≤ s
        · right
          refine ⟨(b.drop a).take (s - a) :: as, a, by omega, by simp [h3], ?_, ?_⟩
          · simp only [List.cons_append, readTails]; rw [h4]
            simp only [Option.bind_eq_bind, Option.bind_some]
            rw [if_pos ha]; rfl
          · simp only [List.cons_append, readTails]; rw [h5]
            simp only [Option.bind_eq_bind, Option.bind_some]
            rw [if_pos ha, List.drop_take, List.take_take, Nat.min_eq_left (by omega)]; rfl
        · left
          simp only [List.cons_append, readTails]; rw [h4]
          simp only [Option.bind_eq_bind, Option.bind_some]
          rw [if_neg ha]

theorem readHeads_take : ∀ {sizes : List (Option Nat)} {b : Bytes} {k : Nat}, headSize sizes ≤ k → k ≤ b.length →
    readHeads sizes (b.take k) = readHeads sizes b := by
  intro sizes
  induction sizes with
  | nil => intro b k _ _; rfl
  | cons s ss ih =>
    intro b k h1 h2
    cases s with
    | some n =>
      have hs : headSize (some n :: ss) = n + headSize ss := by simp [headSize]
      simp only [readHeads, List.length_take]
      rw [if_neg (by omega), if_neg (by omega), List.drop_take, ih (by omega) (by simp; omega), List.take_take, Nat.min_eq_left (by omega)]
    | none =>
      have hs : headSize (none :: ss) = 4 + headSize ss := by simp [headSize]
      simp only [readHeads, List.length_take]
      rw [if_neg (by omega), if_neg (by omega), List.drop_take, ih (by omega) (by simp; omega), List.take_take, Nat.min_eq_left (by omega)]

/-- What the first bytes of a composite value are read as, if only one part is behind the last offset. -/
theorem split_take {pre post : List (Option Nat)} (hpost : ∀ s ∈ post, s.isSome) {b : Bytes} {bs : List Bytes}
    (h : split (pre ++ none :: post) b = some bs) :
    ∃ xs x ys, bs = xs ++ x :: ys ∧ xs.length = pre.length ∧ ys.length = post.length ∧ x.length ≤ b.length ∧ ∀ k ≤ b.length,
      split (pre ++ none :: post) (b.take k) =
        if b.length - x.length ≤ k then some (xs ++ x.take (k - (b.length - x.length)) :: ys) else none := by
  unfold split at h
  obtain ⟨ps, h1, h2⟩ := Option.bind_eq_some_iff.1 h
  obtain ⟨⟨l, start⟩, h3, h4⟩ := Option.bind_eq_some_iff.1 h2
  dsimp only at h4
  split at h4
  · rename_i hst
    cases h4
    obtain ⟨i1, i2, _⟩ := readHeads_inv h1
    obtain ⟨A, y, C, rfl, j1, j2, j3⟩ := forall₂_split i1
    cases j2 with
    | offset o =>
    obtain ⟨cs, hcl, hcs⟩ := readTails_fixed j3 hpost
    have hR : ∀ b' : Bytes, readTails b' (.inr o :: C) = if o ≤ b'.length then some ((b'.drop o).take (b'.length - o) :: cs, o) else none := by
      intro b'
      simp only [readTails]; rw [hcs]; rfl
    have ho : o ≤ b.length := by
      by_contra hn
      have := readTails_none (b := b) (R := .inr o :: C) (by rw [hR, if_neg hn]) A
      rw [this] at h3; cases h3
    have hRb := hR b
    rw [if_pos ho] at hRb
    have hx : (b.drop o).take (b.length - o) = b.drop o := List.take_of_length_le (by simp)
    rw [hx] at hRb
    have hxl : (b.drop o).length = b.length - o := List.length_drop
    have hall : ∃ as, as.length = A.length ∧ start ≤ o ∧ bs = as ++ b.drop o :: cs ∧ ∀ k ≤ b.length, o ≤ k →
        readTails (b.take k) (A ++ .inr o :: C) = some (as ++ (b.drop o).take (k - o) :: cs, start) := by
      have key := fun k (hk : k ≤ b.length) (hok : o ≤ k) => readTails_cut (x' := (b.drop o).take (k - o)) hok hRb (by
        rw [hR, List.length_take, Nat.min_eq_left hk, if_pos hok, List.drop_take, List.take_take, Nat.min_self]) A
      rcases key b.length (Nat.le_refl _) ho with h5 | ⟨as, s, h5, h6, h7, _⟩
      · rw [h5] at h3; cases h3
      · rw [h3] at h7
        cases h7
        refine ⟨as, h6, h5, rfl, ?_⟩
        intro k hk hok
        rcases key k hk hok with h8 | ⟨as', s', _, h6', h7', h8'⟩
        · rw [h8] at h3; cases h3
        · rw [h3] at h7'
          simp only [Option.some.injEq, Prod.mk.injEq] at h7'
          obtain ⟨e1, rfl⟩ := h7'
          have := List.append_inj_left e1 (by omega)
          subst this
          exact h8'
    obtain ⟨as, hal, hso, rfl, hk⟩ := hall
    refine ⟨as, b.drop o, cs, rfl, by rw [hal]; exact j1.length_eq.symm, by rw [hcl]; exact j3.length_eq.symm, by omega, ?_⟩
    intro k hkb
    rw [hxl, show b.length - (b.length - o) = o by omega]
    by_cases hok : o ≤ k
    · rw [if_pos hok]
      unfold split
      rw [readHeads_take (by omega) hkb, h1]
      simp only [Option.bind_eq_bind, Option.bind_some]
      rw [hk k hkb hok]
      simp only [Option.bind_some, hst, if_true]
      rfl
    · rw [if_neg hok]
      unfold split
      cases hh : readHeads (pre ++ none :: post) (b.take k) with
      | none => rfl
      | some ps' =>
        have hle := (readHeads_inv hh).2.1
        rw [List.length_take, Nat.min_eq_left hkb] at hle
        rw [readHeads_take hle hkb, h1] at hh
        cases hh
        simp only [Option.bind_eq_bind, Option.bind_some]
        rw [readTails_none (by rw [hR, if_neg (by rw [List.length_take]; omega)]) A]
        rfl
  · cases h4

theorem decodeFields_append {t : Typ} {C : List Typ} {x : Bytes} {ys : List Bytes} : ∀ {A : List Typ} {xs : List Bytes}, xs.length = A.length →
    ∀ {vs : List Val}, decodeFields (A ++ t :: C) (xs ++ x :: ys) = some vs ↔
      ∃ va v vc, vs = va ++ v :: vc ∧ decodeFields A xs = some va ∧ decode t x = some v ∧ decodeFields C ys = some vc := by
  intro A
  induction A with
  | nil =>
    intro xs hl vs
    have : xs = [] := List.length_eq_zero_iff.1 hl
    subst this
    simp only [List.nil_append, decodeFields]
    constructor
    · intro h
      obtain ⟨v, h1, h2⟩ := Option.bind_eq_some_iff.1 h
      obtain ⟨vc, h3, h4⟩ := Option.bind_eq_some_iff.1 h2
      cases h4
      exact ⟨[], v, vc, rfl, rfl, h1, h3⟩
    · rintro ⟨va, v, vc, rfl, h1, h2, h3⟩
      cases h1
      rw [h2]
      simp only [Option.bind_eq_bind, Option.bind_some]
      rw [h3]; rfl
  | cons a A ih =>
    intro xs hl vs
    cases xs with
    | nil => simp at hl
    | cons y xs =>
      simp only [List.cons_append, decodeFields]
      constructor
      · intro h
        obtain ⟨v, h1, h2⟩ := Option.bind_eq_some_iff.1 h
        obtain ⟨vs', h3, h4⟩ := Option.bind_eq_some_iff.1 h2
        cases h4
        obtain ⟨va, w, vc, rfl, i1, i2, i3⟩ := (ih (by simpa using hl)).1 h3
        refine ⟨v :: va, w, vc, rfl, ?_, i2, i3⟩
        rw [h1]
        simp only [Option.bind_eq_bind, Option.bind_some]
        rw [i1]; rfl
      · rintro ⟨va, w, vc, rfl, h1, h2, h3⟩
        obtain ⟨v, h4, h5⟩ := Option.bind_eq_some_iff.1 h1
        obtain ⟨va', h6, h7⟩ := Option.bind_eq_some_iff.1 h5
        cases h7
        rw [h4]
        simp only [Option.bind_eq_bind, Option.bind_some]
        rw [(ih (by simpa using hl)).2 ⟨va', w, vc, rfl, h6, h2, h3⟩]; rfl

theorem series_fixed (bs : List Bytes) : series (bs.map (true, ·)) = bs.flatten := by
  rw [series_eq]
  have h : ∀ off, heads off (bs.map (true, ·)) = bs.flatten := by
    induction bs with
    | nil => intro off; rfl
    | cons x bs ih => intro off; simp only [List.map_cons, heads, List.flatten_cons]; rw [ih]
  have h' : tails (bs.map (true, ·)) = [] := by
    induction bs with
    | nil => rfl
    | cons x bs ih => exact ih (fun off => by
        have := h off
        simp only [List.map_cons, heads, List.flatten_cons] at this
        exact List.append_cancel_left this)
  rw [h, h', List.append_nil]

theorem flatten_take {e : Nat} : ∀ {bs : List Bytes}, (∀ x ∈ bs, x.length = e) → ∀ m, bs.flatten.take (e * m) = (bs.take m).flatten := by
  intro bs
  induction bs with
  | nil => intro _ m; simp
  | cons x bs ih =>
    intro h m
    cases m with
    | zero => simp
    | succ m =>
      have hx := h x List.mem_cons_self
      rw [List.flatten_cons, List.take_append, hx, List.take_of_length_le (by rw [hx]; exact Nat.le_mul_of_pos_right _ (by omega)),
        show e * (m + 1) - e = e * m by rw [Nat.mul_succ]; omega, ih (fun y hy => h y (List.mem_cons_of_mem _ hy))]
      simp

/-- What the first bytes of a list of elements of fixed size are read as. -/
theorem decode_list_take {limit e : Nat} {t : Typ} (hw : Typ.WF t) (he : t.size = some e) (h0 : e ≠ 0) {l : List Val} {x : Bytes}
    (hx : x.length < 2 ^ 32) (h : decode (.list limit t) x = some (.seq l)) :
    x.length = e * l.length ∧ ∀ m ≤ x.length, decode (.list limit t) (x.take m) = if m % e = 0 then some (.seq (l.take (m / e))) else none := by
  have hwl : Typ.WF (.list limit t) := ⟨by rw [he]; simpa using h0, hw⟩
  have henc := (decode_iff _ hwl _ _ hx).1 h
  simp only [encode, he, Option.isSome_some] at henc
  split at henc
  · rename_i hl
    obtain ⟨bs, h1, h2⟩ := Option.bind_eq_some_iff.1 henc
    have hf := mapM_iff.1 h1
    have hlen : ∀ y ∈ bs, y.length = e := forall₂_right hf fun a y hy => encode_size t hy he
    obtain ⟨hxe, _⟩ := (assemble_iff _ _).1 h2
    rw [series_fixed] at hxe
    have hbl : ∀ cs : List Bytes, (∀ y ∈ cs, y.length = e) → cs.flatten.length = e * cs.length := by
      intro cs
      induction cs with
      | nil => intro _; simp
      | cons y cs ih =>
        intro h
        rw [List.flatten_cons, List.length_append, h y List.mem_cons_self, ih fun z hz => h z (List.mem_cons_of_mem _ hz), List.length_cons,
          Nat.mul_succ]
        omega
    have hxl : x.length = e * l.length := by rw [hxe, hbl bs hlen, hf.length_eq]
    refine ⟨hxl, ?_⟩
    intro m hm
    by_cases hd : m % e = 0
    · rw [if_pos hd]
      obtain ⟨q, rfl⟩ : ∃ q, m = e * q := ⟨m / e, (Nat.mul_div_cancel' (Nat.dvd_of_mod_eq_zero hd)).symm⟩
      rw [Nat.mul_div_cancel_left _ (Nat.pos_of_ne_zero h0)]
      refine (decode_iff _ hwl _ _ (by rw [List.length_take]; omega)).2 ?_
      simp only [encode, he, Option.isSome_some]
      rw [if_pos (by rw [List.length_take]; omega)]
      have htk : (l.take q).mapM (encode t) = some (bs.take q) := by
        rw [mapM_iff]
        exact List.forall₂_take q hf
      rw [htk]
      simp only [Option.bind_eq_bind, Option.bind_some]
      refine (assemble_iff _ _).2 ⟨?_, by rw [List.length_take]; omega⟩
      rw [series_fixed, hxe, flatten_take hlen]
    · rw [if_neg hd]
      simp only [decode, count, he]
      rw [if_pos (.inr (by rw [List.length_take, Nat.min_eq_left hm]; exact hd))]
      rfl
  · cases henc

end Signal.StateSsz
