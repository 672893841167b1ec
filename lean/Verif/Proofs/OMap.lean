import Verif.Model.OMap
import Mathlib.Tactic.Tauto
import Mathlib.Logic.Basic

/-! Lemmas on the ordered maps and sets of the model. -/

namespace Signal

namespace OMap
variable {V : Type}

theorem get?_eq_some_mem {m : OMap V} {i : Nat} {v : V} (h : m.get? i = some v) : (i, v) ∈ m := by
  induction m with
  | nil => simp [get?] at h
  | cons p m ih =>
    obtain ⟨k, w⟩ := p
    simp only [get?] at h
    split at h
    · simp_all
    · exact List.mem_cons_of_mem _ (ih h)

theorem mem_get? {m : OMap V} (hs : m.Sorted) {i : Nat} {v : V} (h : (i, v) ∈ m) :
    m.get? i = some v := by
  induction m with
  | nil => simp at h
  | cons p m ih =>
    obtain ⟨k, w⟩ := p
    have hs' := List.pairwise_cons.1 hs
    simp only [get?]
    rcases List.mem_cons.1 h with h1 | h1
    · cases h1; simp
    · have : k < i := hs'.1 _ h1
      rw [if_neg (by omega)]
      exact ih hs'.2 h1

theorem get?_eq_some_iff {m : OMap V} (hs : m.Sorted) {i : Nat} {v : V} :
    m.get? i = some v ↔ (i, v) ∈ m := ⟨get?_eq_some_mem, mem_get? hs⟩

theorem get?_eq_none_iff {m : OMap V} {i : Nat} : m.get? i = none ↔ i ∉ m.keys := by
  induction m with
  | nil => simp [get?, keys]
  | cons p m ih =>
    obtain ⟨k, w⟩ := p
    simp only [get?, keys, List.map_cons, List.mem_cons]
    split
    · simp_all
    · rw [ih]; simp_all [keys]

theorem mem_keys_iff {m : OMap V} {i : Nat} : i ∈ m.keys ↔ ∃ v, m.get? i = some v := by
  rw [← not_iff_not, ← get?_eq_none_iff]
  cases m.get? i <;> simp

theorem get?_insert (m : OMap V) (i j : Nat) (x : V) :
    (m.insert i x).get? j = if j = i then some x else m.get? j := by
  induction m with
  | nil => simp [insert, get?]
  | cons p m ih =>
    obtain ⟨k, w⟩ := p
    simp only [insert]
    split
    · simp [get?]
    · split
      · subst_vars; simp only [get?]; split <;> simp_all
      · simp only [get?]
        split
        · subst_vars; rw [if_neg (by omega)]
        · exact ih

theorem mem_insert_fst {m : OMap V} {i : Nat} {x : V} {p : Nat × V} (h : p ∈ m.insert i x) :
    p = (i, x) ∨ p ∈ m := by
  induction m with
  | nil => simpa [insert] using h
  | cons q m ih =>
    obtain ⟨k, w⟩ := q
    simp only [insert] at h
    split at h
    · simpa using h
    · split at h
      · subst_vars; rcases List.mem_cons.1 h with h | h <;> simp [h]
      · rcases List.mem_cons.1 h with h | h
        · simp [h]
        · rcases ih h with h | h <;> simp [h]

theorem sorted_insert {m : OMap V} (hs : m.Sorted) (i : Nat) (x : V) : (m.insert i x).Sorted := by
  induction m with
  | nil => simp [insert, Sorted]
  | cons q m ih =>
    obtain ⟨k, w⟩ := q
    have hs' := List.pairwise_cons.1 hs
    simp only [insert]
    split
    · refine List.pairwise_cons.2 ⟨?_, hs⟩
      intro p hp
      rcases List.mem_cons.1 hp with hp | hp
      · subst hp; assumption
      · have := hs'.1 p hp; simp only at *; omega
    · split
      · subst_vars; exact List.pairwise_cons.2 ⟨hs'.1, hs'.2⟩
      · refine List.pairwise_cons.2 ⟨?_, ih hs'.2⟩
        intro p hp
        rcases mem_insert_fst hp with hp | hp
        · subst hp; simp only; omega
        · exact hs'.1 p hp

theorem sorted_foldl (l : List (Nat × V)) {m : OMap V} (hs : m.Sorted) :
    (l.foldl (fun m p => insert m p.1 p.2) m).Sorted := by
  induction l generalizing m with
  | nil => exact hs
  | cons p l ih => exact ih (sorted_insert hs _ _)

theorem sorted_ofList (l : List (Nat × V)) : (ofList l).Sorted :=
  sorted_foldl l List.Pairwise.nil

theorem insert_append (m : OMap V) (i : Nat) (x : V) (h : ∀ p ∈ m, p.1 < i) :
    m.insert i x = m ++ [(i, x)] := by
  induction m with
  | nil => rfl
  | cons q m ih =>
    obtain ⟨k, w⟩ := q
    have hk : k < i := h (k, w) (by simp)
    simp only [insert]
    rw [if_neg (by omega), if_neg (by omega), ih (fun p hp => h p (by simp [hp]))]
    rfl

theorem foldl_sorted (l m : OMap V) (h : (m ++ l).Sorted) :
    l.foldl (fun m p => insert m p.1 p.2) m = m ++ l := by
  induction l generalizing m with
  | nil => simp
  | cons p l ih =>
    have h' := List.pairwise_append.1 h
    rw [List.foldl_cons, insert_append m p.1 p.2 (fun q hq => h'.2.2 q hq p (by simp))]
    rw [ih _ (by simpa using h)]
    simp

/-- Collecting an already sorted listing changes nothing. -/
theorem ofList_sorted {l : OMap V} (h : l.Sorted) : ofList l = l := by
  simpa [ofList] using foldl_sorted l [] (by simpa using h)

theorem sorted_keys {m : OMap V} (hs : m.Sorted) : m.keys.Pairwise (· < ·) :=
  List.pairwise_map.2 hs

theorem keys_nodup {m : OMap V} (hs : m.Sorted) : m.keys.Nodup :=
  (sorted_keys hs).imp (fun h => by omega)

theorem sorted_filter {m : OMap V} (hs : m.Sorted) (p : Nat × V → Bool) :
    OMap.Sorted (m.filter p) := List.Pairwise.filter _ hs

theorem get?_map {W : Type} (f : Nat → V → W) (m : OMap V) (i : Nat) :
    OMap.get? (m.map (fun p => (p.1, f p.1 p.2))) i = (m.get? i).map (f i) := by
  induction m with
  | nil => rfl
  | cons q m ih =>
    obtain ⟨k, w⟩ := q
    simp only [List.map_cons, get?]
    split
    · subst_vars; rfl
    · exact ih

end OMap

namespace OSet

theorem mem_insert {s : OSet} {i j : Nat} : j ∈ s.insert i ↔ j = i ∨ j ∈ s := by
  induction s with
  | nil => simp [insert]
  | cons k s ih =>
    simp only [insert]
    split
    · simp
    · split
      · subst_vars; simp
      · simp only [List.mem_cons, ih]; tauto

theorem sorted_insert {s : OSet} (hs : s.Sorted) (i : Nat) : (s.insert i).Sorted := by
  induction s with
  | nil => simp [insert, Sorted]
  | cons k s ih =>
    have hs' := List.pairwise_cons.1 hs
    simp only [insert]
    split
    · refine List.pairwise_cons.2 ⟨?_, hs⟩
      intro p hp
      rcases List.mem_cons.1 hp with hp | hp
      · omega
      · have := hs'.1 p hp; omega
    · split
      · exact hs
      · refine List.pairwise_cons.2 ⟨?_, ih hs'.2⟩
        intro p hp
        rcases mem_insert.1 hp with hp | hp
        · omega
        · exact hs'.1 p hp

theorem mem_extend {s : OSet} {l : List Nat} {j : Nat} : j ∈ s.extend l ↔ j ∈ s ∨ j ∈ l := by
  unfold extend
  induction l generalizing s with
  | nil => simp
  | cons a l ih => rw [List.foldl_cons, ih, mem_insert]; simp only [List.mem_cons]; tauto

theorem sorted_extend {s : OSet} (hs : s.Sorted) (l : List Nat) : (s.extend l).Sorted := by
  unfold extend
  induction l generalizing s with
  | nil => exact hs
  | cons a l ih => exact ih (sorted_insert hs a)

theorem Sorted.nodup {s : OSet} (hs : s.Sorted) : s.Nodup := hs.imp (fun h => by omega)

/-- A sorted set is determined by its members. -/
theorem eq_of_mem_iff {s t : OSet} (hs : s.Sorted) (ht : t.Sorted) (h : ∀ i, i ∈ s ↔ i ∈ t) :
    s = t := by
  induction s generalizing t with
  | nil =>
    cases t with
    | nil => rfl
    | cons b t => exact absurd ((h b).2 (by simp)) (by simp)
  | cons a s ih =>
    cases t with
    | nil => exact absurd ((h a).1 (by simp)) (by simp)
    | cons b t =>
      have hs' := List.pairwise_cons.1 hs
      have ht' := List.pairwise_cons.1 ht
      have hab : a = b := by
        rcases List.mem_cons.1 ((h a).1 (by simp)) with h1 | h1
        · exact h1
        · rcases List.mem_cons.1 ((h b).2 (by simp)) with h2 | h2
          · exact h2.symm
          · have := hs'.1 _ h2; have := ht'.1 _ h1; omega
      subst hab
      congr 1
      apply ih hs'.2 ht'.2
      intro i
      constructor
      · intro hi
        have := hs'.1 _ hi
        rcases List.mem_cons.1 ((h i).1 (by simp [hi])) with h2 | h2
        · omega
        · exact h2
      · intro hi
        have := ht'.1 _ hi
        rcases List.mem_cons.1 ((h i).2 (by simp [hi])) with h2 | h2
        · omega
        · exact h2

end OSet

end Signal
